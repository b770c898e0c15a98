import Verif.Spec.Order

/-!
# A concrete sort routine that keeps the `std::sort` contract

Used only to show that the hypotheses `SortContract` / `AlwaysPerm` can be met, and to compute
concrete examples.
-/

namespace Verif.Spec

/-- Insert `x` behind all elements that are not after it. -/
def insertSorted {α : Type _} (lt : α → α → Bool) (x : α) : List α → List α
  | [] => [x]
  | y :: ys => if lt x y then x :: y :: ys else y :: insertSorted lt x ys

/-- Stable insertion sort. -/
def insSort {α : Type _} (lt : α → α → Bool) (l : List α) : List α :=
  l.foldl (fun acc x => insertSorted lt x acc) []

theorem insertSorted_perm {α : Type _} (lt : α → α → Bool) (x : α) (l : List α) :
    (insertSorted lt x l).Perm (x :: l) := by
  induction l with
  | nil => simp [insertSorted]
  | cons y ys ih =>
    simp only [insertSorted]
    split
    · exact List.Perm.refl _
    · exact (ih.cons y).trans (List.Perm.swap _ _ _)

theorem insSort_perm_aux {α : Type _} (lt : α → α → Bool) (l acc : List α) :
    (l.foldl (fun acc x => insertSorted lt x acc) acc).Perm (acc ++ l) := by
  induction l generalizing acc with
  | nil => simp
  | cons x xs ih =>
    refine (ih _).trans ?_
    refine ((insertSorted_perm lt x acc).append_right xs).trans ?_
    simpa using (List.perm_middle (a := x) (l₁ := acc) (l₂ := xs)).symm

theorem insSort_alwaysPerm {α : Type _} (lt : α → α → Bool) : AlwaysPerm (insSort lt) :=
  fun l => by simpa [insSort] using insSort_perm_aux lt l []

theorem insertSorted_sorted {α : Type _} {lt : α → α → Bool} {L : List α}
    (h : StrictWeakOrderOn lt L) (x : α) (hx : x ∈ L) (l : List α) (hl : ∀ y ∈ l, y ∈ L)
    (hs : l.Pairwise (fun a b => lt b a = false)) :
    (insertSorted lt x l).Pairwise (fun a b => lt b a = false) := by
  induction l with
  | nil => simp [insertSorted]
  | cons y ys ih =>
    rw [List.pairwise_cons] at hs
    have hy := hl y (by simp)
    simp only [insertSorted]
    split
    · next hxy =>
      refine List.pairwise_cons.mpr ⟨?_, List.pairwise_cons.mpr hs⟩
      intro z hz
      rcases List.mem_cons.mp hz with rfl | hz
      · cases hc : lt z x with
        | false => rfl
        | true =>
          have h1 := h.trans _ hx _ hy _ hx hxy hc
          rw [h.irrefl _ hx] at h1; cases h1
      · have hzL := hl z (by simp [hz])
        cases hc : lt z x with
        | false => rfl
        | true =>
          have := h.trans _ hzL _ hx _ hy hc hxy
          rw [hs.1 z hz] at this; cases this
    · next hxy =>
      refine List.pairwise_cons.mpr ⟨?_, ih (fun z hz => hl z (by simp [hz])) hs.2⟩
      intro z hz
      have := (insertSorted_perm lt x ys).subset hz
      rcases List.mem_cons.mp this with rfl | hz'
      · simpa using hxy
      · exact hs.1 z hz'

theorem insSort_sorted_aux {α : Type _} {lt : α → α → Bool} {L : List α}
    (h : StrictWeakOrderOn lt L) (l : List α) (hl : ∀ y ∈ l, y ∈ L) (acc : List α)
    (hacc : ∀ y ∈ acc, y ∈ L) (hs : acc.Pairwise (fun a b => lt b a = false)) :
    (l.foldl (fun acc x => insertSorted lt x acc) acc).Pairwise (fun a b => lt b a = false) := by
  induction l generalizing acc with
  | nil => simpa
  | cons x xs ih =>
    refine ih (fun y hy => hl y (by simp [hy])) _ ?_ ?_
    · intro y hy
      rcases List.mem_cons.mp ((insertSorted_perm lt x acc).subset hy) with rfl | h'
      · exact hl _ (by simp)
      · exact hacc y h'
    · exact insertSorted_sorted h x (hl x (by simp)) acc hacc hs

theorem insSort_contract {α : Type _} (lt : α → α → Bool) : SortContract lt (insSort lt) :=
  fun l h => ⟨insSort_alwaysPerm lt l, insSort_sorted_aux h l (fun _ h => h) [] (by simp) (by simp)⟩

end Verif.Spec
