import Verif.Spec.Grouping
import Mathlib.Data.List.Chain
import Mathlib.Tactic.Common

/-! Greedy grouping: incremental construction, uniqueness, change of the predicate. -/

namespace Verif.Spec

variable {α : Type _} {fits : List α → α → Prop}

theorem isGreedy_nil : IsGreedy fits [] [] where
  flatten := rfl
  nonempty := by simp
  inside := by simp
  boundary := by simp

theorem isGreedy_singleton (c : α) : IsGreedy fits [c] [[c]] where
  flatten := rfl
  nonempty := by simp
  inside := by
    intro g hg pre d post h hne
    simp only [List.mem_singleton] at hg
    subst hg
    cases pre with
    | nil => exact absurd rfl hne
    | cons a as => simp at h
  boundary := by simp

/-- A fitting element extends the last group. -/
theorem IsGreedy.extend {xs : List α} {gs : List (List α)} {cur : List α} {c : α}
    (h : IsGreedy fits xs (gs ++ [cur])) (hf : fits cur c) :
    IsGreedy fits (xs ++ [c]) (gs ++ [cur ++ [c]]) where
  flatten := by
    have := h.flatten
    simp only [List.flatten_append, List.flatten_cons, List.flatten_nil, List.append_nil] at this ⊢
    rw [← List.append_assoc, this]
  nonempty := by
    intro g hg
    rcases List.mem_append.mp hg with hg | hg
    · exact h.nonempty g (by simp [hg])
    · simp only [List.mem_singleton] at hg; subst hg; simp
  inside := by
    intro g hg pre d post he hne
    rcases List.mem_append.mp hg with hg | hg
    · exact h.inside g (by simp [hg]) pre d post he hne
    · simp only [List.mem_singleton] at hg
      subst hg
      rcases List.eq_nil_or_concat post with rfl | ⟨post', z, rfl⟩
      · have := List.append_inj' he (by simp)
        simp only [List.cons.injEq, and_true] at this
        rw [← this.1, ← this.2]; exact hf
      · have he' : cur ++ [c] = (pre ++ d :: post') ++ [z] := by rw [he]; simp
        have := List.append_inj' he' (by simp)
        exact h.inside cur (by simp) pre d post' this.1 hne
  boundary := by
    have hb := h.boundary
    have hcur : cur ≠ [] := h.nonempty cur (by simp)
    rw [List.isChain_append] at hb ⊢
    refine ⟨hb.1, by simp, ?_⟩
    intro x hx y hy d hd
    simp only [List.head?_cons, Option.mem_def, Option.some.injEq] at hy
    subst hy
    refine hb.2.2 x hx cur (by simp) d ?_
    cases cur with
    | nil => exact absurd rfl hcur
    | cons a as => simpa using hd

/-- An element that does not fit starts a new group. -/
theorem IsGreedy.start {xs : List α} {gs : List (List α)} {cur : List α} {c : α}
    (h : IsGreedy fits xs (gs ++ [cur])) (hf : ¬ fits cur c) :
    IsGreedy fits (xs ++ [c]) (gs ++ [cur] ++ [[c]]) where
  flatten := by
    have := h.flatten
    rw [List.flatten_append, this]; simp
  nonempty := by
    intro g hg
    rcases List.mem_append.mp hg with hg | hg
    · exact h.nonempty g hg
    · simp only [List.mem_singleton] at hg; subst hg; simp
  inside := by
    intro g hg pre d post he hne
    rcases List.mem_append.mp hg with hg | hg
    · exact h.inside g hg pre d post he hne
    · simp only [List.mem_singleton] at hg
      subst hg
      cases pre with
      | nil => exact absurd rfl hne
      | cons a as => simp at he
  boundary := by
    rw [List.isChain_append]
    refine ⟨h.boundary, by simp, ?_⟩
    intro x hx y hy d hd
    simp only [List.head?_cons, Option.mem_def, Option.some.injEq] at hy
    subst hy
    simp only [List.getLast?_append, List.getLast?_singleton, Option.some_or, Option.mem_def,
      Option.some.injEq] at hx
    subst hx
    simp only [List.head?_cons, Option.some.injEq] at hd
    subst hd
    exact hf

/-- The predicate may be replaced by one that agrees with it on all prefixes of the groups. -/
theorem IsGreedy.congr {fits' : List α → α → Prop} {xs : List α} {gs : List (List α)}
    (h : IsGreedy fits xs gs)
    (hc : ∀ g ∈ gs, ∀ pre, pre <+: g → pre ≠ [] → ∀ c ∈ xs, (fits pre c ↔ fits' pre c)) :
    IsGreedy fits' xs gs where
  flatten := h.flatten
  nonempty := h.nonempty
  inside := by
    intro g hg pre c post he hne
    have hcx : c ∈ xs := by
      rw [← h.flatten]; exact List.mem_flatten.mpr ⟨g, hg, by rw [he]; simp⟩
    exact (hc g hg pre ⟨_, he.symm⟩ hne c hcx).mp (h.inside g hg pre c post he hne)
  boundary := by
    have hb := h.boundary
    have hmem : ∀ g ∈ gs, ∀ c ∈ g, c ∈ xs := fun g hg c hcg => by
      rw [← h.flatten]; exact List.mem_flatten.mpr ⟨g, hg, hcg⟩
    have hn := h.nonempty
    clear h
    induction gs with
    | nil => exact List.isChain_nil
    | cons g gs ih =>
      cases gs with
      | nil => exact List.isChain_singleton _
      | cons g' gs =>
        rw [List.isChain_cons_cons] at hb ⊢
        refine ⟨fun c hcg hf => ?_, ih (fun g hg => hc g (by simp [hg])) hb.2
          (fun g hg => hmem g (by simp [hg])) (fun g hg => hn g (by simp [hg]))⟩
        exact hb.1 c hcg ((hc g (by simp) g (List.prefix_refl _) (hn g (by simp)) c
          (hmem g' (by simp) c (List.mem_of_mem_head? (by simpa using hcg)))).mpr hf)

/-- The greedy division is unique. -/
theorem IsGreedy.unique {xs : List α} {gs gs' : List (List α)} (h : IsGreedy fits xs gs)
    (h' : IsGreedy fits xs gs') : gs = gs' := by
  induction gs generalizing xs gs' with
  | nil =>
    have h1 : xs = [] := by rw [← h.flatten]; rfl
    cases gs' with
    | nil => rfl
    | cons g gs' =>
      have h2 := h'.flatten
      rw [h1] at h2
      simp only [List.flatten_cons, List.append_eq_nil_iff] at h2
      exact absurd h2.1 (h'.nonempty g (by simp))
  | cons g gs ih =>
    cases gs' with
    | nil =>
      have h2 := h.flatten
      rw [← h'.flatten] at h2
      simp only [List.flatten_cons, List.flatten_nil, List.append_eq_nil_iff] at h2
      exact absurd h2.1 (h.nonempty g (by simp))
    | cons g' gs' =>
      have tail : ∀ {ys : List α} {k : List α} {ks : List (List α)},
          IsGreedy fits ys (k :: ks) → IsGreedy fits ks.flatten ks := fun hh =>
        { flatten := rfl
          nonempty := fun a ha => hh.nonempty a (by simp [ha])
          inside := fun a ha => hh.inside a (by simp [ha])
          boundary := hh.boundary.tail }
      -- a group cannot be longer than the other
      have key : ∀ {k k' : List α} {ks ks' : List (List α)}, IsGreedy fits xs (k :: ks) →
          IsGreedy fits xs (k' :: ks') → k <+: k' → k = k' := by
        intro k k' ks ks' hk hk' hp
        obtain ⟨t, ht⟩ := hp
        cases t with
        | nil => simpa using ht
        | cons c t =>
          exfalso
          have hfit := hk'.inside k' (by simp) k c t ht.symm (hk.nonempty k (by simp))
          have hfl := hk.flatten
          rw [← hk'.flatten, ← ht] at hfl
          simp only [List.flatten_cons, List.append_assoc, List.append_cancel_left_eq,
            List.cons_append] at hfl
          cases ks with
          | nil => simp at hfl
          | cons k2 ks =>
            have hb := (List.isChain_cons_cons.mp hk.boundary).1
            have hn2 := hk.nonempty k2 (by simp)
            cases k2 with
            | nil => exact hn2 rfl
            | cons d k2 =>
              simp only [List.flatten_cons, List.cons_append, List.cons.injEq] at hfl
              exact hb d (by simp) (hfl.1 ▸ hfit)
      have heq : g = g' := by
        have hfl := h.flatten
        rw [← h'.flatten] at hfl
        simp only [List.flatten_cons] at hfl
        rcases List.append_eq_append_iff.mp hfl with ⟨t, ht, _⟩ | ⟨t, ht, _⟩
        · exact key h h' ⟨t, ht.symm⟩
        · exact (key h' h ⟨t, ht.symm⟩).symm
      subst heq
      have hfl := h.flatten
      rw [← h'.flatten] at hfl
      simp only [List.flatten_cons, List.append_cancel_left_eq] at hfl
      rw [ih (tail h) (hfl ▸ tail h')]

end Verif.Spec
