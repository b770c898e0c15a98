import Verif.Model.XYCut
import Verif.Spec.Cuts
import Verif.Lemmas.Sort
import Verif.Props.Geometry
import Mathlib.Tactic.Linarith

/-!
# The XY-cut: C17-C20
-/

namespace Verif.Props

open Verif.XYCut Verif.Math Verif.Elements Verif.Spec

/-! ## C17: a cut partitions the elements -/

/-- Candidate positions are strictly increasing and lie strictly inside the list. -/
structure GoodCuts {α : Type} (lo hi : ℕ) (cuts : List (Cut α)) : Prop where
  inside : ∀ c ∈ cuts, lo ≤ c.posInElements ∧ c.posInElements < hi
  sorted : cuts.Pairwise fun a b => a.posInElements < b.posInElements

theorem goodCuts_cons {α : Type} {lo hi : ℕ} {c : Cut α} {cs : List (Cut α)}
    (hc : c.posInElements = lo) (hlt : lo < hi) (h : GoodCuts (lo + 1) hi cs) :
    GoodCuts lo hi (c :: cs) := by
  refine ⟨?_, ?_⟩
  · intro x hx
    rcases List.mem_cons.mp hx with rfl | hx
    · omega
    · have := h.inside x hx; omega
  · rw [List.pairwise_cons]
    refine ⟨fun x hx => ?_, h.sorted⟩
    have := h.inside x hx; omega

theorem GoodCuts.weaken {α : Type} {lo lo' hi : ℕ} {cs : List (Cut α)} (hle : lo ≤ lo')
    (h : GoodCuts lo' hi cs) : GoodCuts lo hi cs :=
  ⟨fun c hc => by have := h.inside c hc; omega, h.sorted⟩

theorem xLoop_good {α : Type} (pos : α → Box) (lib : Lib α) (minGap : ℚ) (m : ℕ) (y1 y2 : ℚ) :
    ∀ (es : List α) (p : ℕ) (q : List α),
      GoodCuts p (p + es.length) (xLoop pos lib minGap m y1 y2 p q es) := by
  intro es
  induction es with
  | nil => intro p q; exact ⟨by simp [xLoop], by simp [xLoop]⟩
  | cons e es ih =>
    intro p q
    have hlen : p + (e :: es).length = p + 1 + es.length := by simp; omega
    rw [hlen, xLoop]
    split
    · exact goodCuts_cons rfl (by omega) (ih _ _)
    · exact (ih _ _).weaken (by omega)

theorem yLoop_good {α : Type} (pos : α → Box) (minGap : ℚ) (x1 x2 : ℚ) :
    ∀ (es : List α) (p : ℕ) (big : α),
      GoodCuts p (p + es.length) (yLoop pos minGap x1 x2 p big es) := by
  intro es
  induction es with
  | nil => intro p q; exact ⟨by simp [yLoop], by simp [yLoop]⟩
  | cons e es ih =>
    intro p q
    have hlen : p + (e :: es).length = p + 1 + es.length := by simp; omega
    rw [hlen, yLoop]
    split
    · exact goodCuts_cons rfl (by omega) (ih _ _)
    · exact (ih _ _).weaken (by omega)

theorem goodCuts_applyChoice {α : Type} {lo hi : ℕ} (choose : Choose α) (cs : List (Cut α))
    (s : List α) (h : GoodCuts lo hi cs) : GoodCuts lo hi (applyChoice choose cs s) := by
  unfold applyChoice
  refine ⟨?_, ?_⟩
  · intro c hc
    obtain ⟨i, hi, rfl⟩ := List.mem_mapIdx.mp hc
    exact h.inside cs[i] (List.getElem_mem hi)
  · rw [List.pairwise_iff_getElem]
    intro i j hi hj hij
    simp only [List.length_mapIdx] at hi hj
    simp only [List.getElem_mapIdx]
    exact List.pairwise_iff_getElem.mp h.sorted i j hi hj hij

/-- The groups made from good cuts: contiguous non-empty runs, one more than chosen cuts. -/
theorem splitGroups_spec {α : Type} (s : List α) :
    ∀ (cuts : List (Cut α)) (prev : ℕ), prev < s.length → GoodCuts (prev + 1) s.length cuts →
      (splitGroups s prev cuts).flatten = s.drop prev ∧
      (∀ g ∈ splitGroups s prev cuts, g ≠ []) ∧
      (splitGroups s prev cuts).length = (cuts.filter (·.isChosen)).length + 1 := by
  intro cuts
  induction cuts with
  | nil =>
    intro prev hp _
    simp [splitGroups]
    omega
  | cons c cs ih =>
    intro prev hp hg
    have hsort := List.pairwise_cons.mp hg.sorted
    have hc := hg.inside c (by simp)
    have hcs : GoodCuts (c.posInElements + 1) s.length cs :=
      ⟨fun x hx => ⟨by have := hsort.1 x hx; omega, (hg.inside x (by simp [hx])).2⟩, hsort.2⟩
    have hcs' : GoodCuts (prev + 1) s.length cs := hcs.weaken (by omega)
    rw [splitGroups]
    split
    · next hch =>
      obtain ⟨h1, h2, h3⟩ := ih c.posInElements hc.2 hcs
      refine ⟨?_, ?_, ?_⟩
      · rw [List.flatten_cons, h1]
        have : s.drop c.posInElements = (s.drop prev).drop (c.posInElements - prev) := by
          rw [List.drop_drop]; congr 1; omega
        rw [this, List.take_append_drop]
      · intro g hgm
        rcases List.mem_cons.mp hgm with rfl | hgm
        · intro h0
          have := congrArg List.length h0
          simp at this; omega
        · exact h2 g hgm
      · rw [List.length_cons, h3, List.filter_cons_of_pos hch]; simp
    · next hch =>
      obtain ⟨h1, h2, h3⟩ := ih prev hp hcs'
      exact ⟨h1, h2, by rw [h3, List.filter_cons_of_neg hch]⟩

/-- What C17 says about the result of a cut of `elements`; `sorted` are the elements in the order of
the cut direction. -/
structure IsPartition {α : Type} (elements sorted : List α) (r : Result α) : Prop where
  perm : r.groups.flatten.Perm elements
  contiguous : r.groups.flatten = sorted
  nonempty : ∀ g ∈ r.groups, g ≠ []
  ok_iff : r.ok = true ↔ 2 ≤ r.groups.length
  single : r.ok = false → r.groups = [sorted]

theorem isPartition_of_good {α : Type} {elements s : List α} {cuts : List (Cut α)}
    (hne : elements ≠ []) (hperm : s.Perm elements) (hg : GoodCuts 1 s.length cuts) :
    IsPartition elements s ⟨splitGroups s 0 cuts, cuts, cuts.any (·.isChosen)⟩ := by
  have hlen : 0 < s.length := by
    rw [hperm.length_eq]; exact List.length_pos_iff.mpr hne
  obtain ⟨h1, h2, h3⟩ := splitGroups_spec s cuts 0 hlen hg
  rw [List.drop_zero] at h1
  have hany : cuts.any (·.isChosen) = true ↔ 0 < (cuts.filter (·.isChosen)).length := by
    rw [List.any_eq_true, List.length_pos_iff_exists_mem]
    exact ⟨fun ⟨c, hc, h⟩ => ⟨c, List.mem_filter.mpr ⟨hc, h⟩⟩,
      fun ⟨c, hc⟩ => ⟨c, (List.mem_filter.mp hc).1, (List.mem_filter.mp hc).2⟩⟩
  refine ⟨by simpa only [h1] using hperm, h1, h2, ?_, ?_⟩
  · show cuts.any (·.isChosen) = true ↔ _
    rw [hany]
    show _ ↔ 2 ≤ (splitGroups s 0 cuts).length
    rw [h3]; omega
  · intro hf
    have h0 : (cuts.filter (·.isChosen)).length = 0 := by
      have : ¬ (cuts.any (·.isChosen) = true) := by simpa using hf
      rw [hany] at this; omega
    show splitGroups s 0 cuts = [s]
    rw [h0] at h3
    obtain ⟨g, hg'⟩ := List.length_eq_one_iff.mp h3
    rw [hg'] at h1 ⊢
    simpa using h1

theorem xCandidates_good {α : Type} (pos : α → Box) (lib : Lib α) (minGap : ℚ) (m : ℕ)
    (elements : List α) :
    GoodCuts 1 (lib.sortLeftX elements).length (xCandidates pos lib minGap m elements) := by
  unfold xCandidates
  cases hs : lib.sortLeftX elements with
  | nil => exact ⟨by simp, by simp⟩
  | cons e0 es =>
    have := xLoop_good pos lib minGap m
      (extent (fun e => (pos e).upperY) (fun e => (pos e).lowerY) (e0 :: es)).1
      (extent (fun e => (pos e).upperY) (fun e => (pos e).lowerY) (e0 :: es)).2 es 1
      (pushQ lib.popTop (m + 1) [] e0)
    rw [Nat.add_comm] at this
    simpa using this

theorem yCandidates_good {α : Type} (pos : α → Box) (lib : Lib α) (minGap : ℚ)
    (elements : List α) :
    GoodCuts 1 (lib.sortUpperY elements).length (yCandidates pos lib minGap elements) := by
  unfold yCandidates
  cases hs : lib.sortUpperY elements with
  | nil => exact ⟨by simp, by simp⟩
  | cons e0 es =>
    have := yLoop_good pos minGap
      (extent (fun e => (pos e).leftX) (fun e => (pos e).rightX) (e0 :: es)).1
      (extent (fun e => (pos e).leftX) (fun e => (pos e).rightX) (e0 :: es)).2 es 1 e0
    rw [Nat.add_comm] at this
    simpa using this

/-- C17 for vertical cuts: whatever the strategy chooses, `xCut` returns non-empty contiguous runs of
the elements sorted by their left edge, containing every element once, and reports success
exactly when there are at least two groups. -/
theorem c17_xCut_partition {α : Type} (pos : α → Box) (lib : Lib α) (minGap : ℚ) (m : ℕ)
    (choose : Choose α) (elements : List α) (hsort : (lib.sortLeftX elements).Perm elements)
    (hne : elements ≠ []) :
    IsPartition elements (lib.sortLeftX elements) (xCut pos lib minGap m choose elements) := by
  unfold xCut
  rw [if_neg (by simpa using hne)]
  exact isPartition_of_good hne hsort
    (goodCuts_applyChoice _ _ _ (xCandidates_good pos lib minGap m elements))

/-- C17 for horizontal cuts. -/
theorem c17_yCut_partition {α : Type} (pos : α → Box) (lib : Lib α) (minGap : ℚ)
    (choose : Choose α) (elements : List α) (hsort : (lib.sortUpperY elements).Perm elements)
    (hne : elements ≠ []) :
    IsPartition elements (lib.sortUpperY elements) (yCut pos lib minGap choose elements) := by
  unfold yCut
  rw [if_neg (by simpa using hne)]
  exact isPartition_of_good hne hsort
    (goodCuts_applyChoice _ _ _ (yCandidates_good pos lib minGap elements))

/-- C17: without elements nothing is returned and no success is reported. -/
theorem c17_empty {α : Type} (pos : α → Box) (lib : Lib α) (minGap : ℚ) (m : ℕ)
    (choose : Choose α) :
    (xCut pos lib minGap m choose []).groups = [] ∧ (xCut pos lib minGap m choose []).ok = false ∧
    (yCut pos lib minGap choose []).groups = [] ∧ (yCut pos lib minGap choose []).ok = false := by
  simp [xCut, yCut]

/-! ## C18: xyCut terminates and partitions -/

/-- The groups contain every element once and no group is empty. -/
structure Partitions {α : Type} (elements : List α) (groups : List (List α)) : Prop where
  perm : groups.flatten.Perm elements
  nonempty : ∀ g ∈ groups, g ≠ []

theorem length_lt_of_partition {α : Type} {elements sorted : List α} {r : Result α}
    (h : IsPartition elements sorted r) (hok : r.ok = true) :
    ∀ g ∈ r.groups, g.length < elements.length := by
  intro g hg
  have hl := h.ok_iff.mp hok
  have hne := h.nonempty
  have hp := h.perm.length_eq
  obtain ⟨a, b, hab⟩ := List.append_of_mem hg
  rw [hab] at hl hp hne
  rw [List.flatten_append, List.flatten_cons, List.length_append, List.length_append] at hp
  have hnonempty : ∀ (x : List (List α)), x ≠ [] → (∀ g ∈ x, g ≠ []) → 0 < x.flatten.length := by
    intro x hx hxn
    cases x with
    | nil => exact absurd rfl hx
    | cons y ys =>
      rw [List.flatten_cons, List.length_append]
      have := List.length_pos_iff.mpr (hxn y (by simp)); omega
  simp only [List.length_append, List.length_cons] at hl
  by_cases ha : a = []
  · have hb : b ≠ [] := by rintro rfl; subst ha; simp at hl
    have := hnonempty b hb (fun x hx => hne x (by simp [hx])); omega
  · have := hnonempty a ha (fun x hx => hne x (by simp [hx])); omega

theorem forGroups_partitions {α : Type} (f : List α → Option (Out α)) :
    ∀ gs : List (List α), (∀ g ∈ gs, g ≠ []) →
      (∀ g ∈ gs, ∃ out, f g = some out ∧ Partitions g out.1) →
      ∃ out, forGroups f gs = some out ∧ Partitions gs.flatten out.1 := by
  intro gs
  induction gs with
  | nil => intro _ _; exact ⟨([], []), rfl, by simp, by simp⟩
  | cons g gs ih =>
    intro hne hf
    obtain ⟨⟨a, b⟩, h1, hp1⟩ := hf g (by simp)
    obtain ⟨⟨c, d⟩, h2, hp2⟩ := ih (fun x hx => hne x (by simp [hx])) (fun x hx => hf x (by simp [hx]))
    refine ⟨(a ++ c, b ++ d), by simp [forGroups, h1, h2], ?_, ?_⟩
    · simp only [List.flatten_append, List.flatten_cons]
      exact hp1.perm.append hp2.perm
    · intro x hx
      rcases List.mem_append.mp hx with hx | hx
      · exact hp1.nonempty x hx
      · exact hp2.nonempty x hx

/-- C18: for every input and every pair of strategies the recursion of `xyCut` ends - at depth at most
the number of elements - and the groups contain every element exactly once and none is empty. -/
theorem c18_xyCut_terminates {α : Type} (P : Params α) {Q : α → Prop}
    (hx : PermOn Q P.lib.sortLeftX) (hy : PermOn Q P.lib.sortUpperY) (elements : List α)
    (hQ : ∀ e ∈ elements, Q e) :
    ∀ fuel, elements.length ≤ fuel →
      ∃ out, xyCutF P fuel elements = some out ∧ Partitions elements out.1 := by
  intro fuel
  induction fuel generalizing elements with
  | zero =>
    intro h
    have : elements = [] := List.length_eq_zero_iff.mp (by omega)
    subst this
    exact ⟨([], []), rfl, by simp, by simp⟩
  | succ fuel ih =>
    intro hlen
    by_cases hne : elements = []
    · subst hne; exact ⟨([], []), rfl, by simp, by simp⟩
    · have hX := c17_xCut_partition P.pos P.lib P.minXGap P.maxOverlap P.chooseX elements
        (hx elements hQ) hne
      rw [xyCutF, if_neg (by simpa using hne)]
      -- dividing a group by y-cuts and recursively
      have hdiv : ∀ g : List α, g ≠ [] → g.length ≤ fuel + 1 → (∀ e ∈ g, Q e) →
          ∃ out, divideGroup P (xyCutF P fuel) g = some out ∧ Partitions g out.1 := by
        intro g hg hgl hgQ
        have hY := c17_yCut_partition P.pos P.lib P.minYGap P.chooseY g (hy g hgQ) hg
        unfold divideGroup
        simp only
        split
        · next hok =>
          obtain ⟨out, h1, h2⟩ := forGroups_partitions (xyCutF P fuel) _ hY.nonempty
            (fun x hx => ih x
              (fun e he => hgQ e (hY.perm.subset (List.mem_flatten.mpr ⟨x, hx, he⟩)))
              (by have := length_lt_of_partition hY hok x hx; omega))
          rw [h1]
          exact ⟨_, rfl, h2.perm.trans hY.perm, h2.nonempty⟩
        · exact ⟨_, rfl, by simp, by simpa using hg⟩
      simp only
      split
      · next hok =>
        obtain ⟨out, h1, h2⟩ := forGroups_partitions (divideGroup P (xyCutF P fuel)) _ hX.nonempty
          (fun g hg => hdiv g (hX.nonempty g hg) (by
            have := length_lt_of_partition hX hok g hg; omega)
            (fun e he => hQ e (hX.perm.subset (List.mem_flatten.mpr ⟨g, hg, he⟩))))
        rw [h1]
        exact ⟨_, rfl, h2.perm.trans hX.perm, h2.nonempty⟩
      · obtain ⟨out, h1, h2⟩ := hdiv elements hne (by omega) hQ
        rw [h1]
        exact ⟨_, rfl, h2⟩

/-- C18 for the function without a bound on the recursion depth. -/
theorem c18_xyCut_partitions {α : Type} (P : Params α) {Q : α → Prop}
    (hx : PermOn Q P.lib.sortLeftX) (hy : PermOn Q P.lib.sortUpperY) (elements : List α)
    (hQ : ∀ e ∈ elements, Q e) :
    Partitions elements (xyCut P elements).1 := by
  obtain ⟨out, h1, h2⟩ := c18_xyCut_terminates P hx hy elements hQ _ (Nat.le_refl _)
  unfold xyCut
  rw [h1]
  exact h2

/-- More fuel does not change the result. -/
theorem forGroups_mono {α : Type} {f g : List α → Option (Out α)}
    (h : ∀ x out, f x = some out → g x = some out) :
    ∀ gs out, forGroups f gs = some out → forGroups g gs = some out := by
  intro gs
  induction gs with
  | nil => intro out ho; simpa [forGroups] using ho
  | cons x xs ih =>
    intro out ho
    rw [forGroups] at ho ⊢
    cases hf : f x with
    | none => rw [hf] at ho; simp at ho
    | some a =>
      cases hr : forGroups f xs with
      | none => rw [hf, hr] at ho; simp at ho
      | some b =>
        rw [hf, hr] at ho
        rw [h x a hf, ih b hr]
        exact ho

theorem divideGroup_mono {α : Type} (P : Params α) {f g : List α → Option (Out α)}
    (h : ∀ x out, f x = some out → g x = some out) :
    ∀ x out, divideGroup P f x = some out → divideGroup P g x = some out := by
  intro x out hx
  unfold divideGroup at hx ⊢
  simp only at hx ⊢
  split
  · next hy =>
    rw [if_pos hy] at hx
    obtain ⟨o, ho, rfl⟩ := Option.map_eq_some_iff.mp hx
    rw [forGroups_mono h _ o ho]; rfl
  · next hy => rw [if_neg hy] at hx; exact hx

/-- C18: the result does not depend on the bound on the recursion depth, so `xyCut` is what the
unbounded recursion of the program computes. -/
theorem c18_xyCut_fuel_irrelevant {α : Type} (P : Params α) {Q : α → Prop}
    (hx : PermOn Q P.lib.sortLeftX) (hy : PermOn Q P.lib.sortUpperY) (elements : List α)
    (hQ : ∀ e ∈ elements, Q e) (fuel : ℕ)
    (hf : elements.length ≤ fuel) : xyCutF P fuel elements = some (xyCut P elements) := by
  have mono : ∀ fuel (es : List α) out, xyCutF P fuel es = some out →
      xyCutF P (fuel + 1) es = some out := by
    intro fuel
    induction fuel with
    | zero =>
      intro es out h
      rw [xyCutF] at h
      split at h
      · next he => rw [xyCutF, if_pos he]; exact h
      · cases h
    | succ fuel ih =>
      intro es out h
      rw [xyCutF] at h ⊢
      split
      · next he => rw [if_pos he] at h; exact h
      · next he =>
        rw [if_neg he] at h
        simp only at h ⊢
        split
        · next hok =>
          rw [if_pos hok] at h
          obtain ⟨o, ho, rfl⟩ := Option.map_eq_some_iff.mp h
          rw [forGroups_mono (divideGroup_mono P ih) _ o ho]; rfl
        · next hok =>
          rw [if_neg hok] at h
          obtain ⟨o, ho, rfl⟩ := Option.map_eq_some_iff.mp h
          rw [divideGroup_mono P ih _ o ho]; rfl
  obtain ⟨out, h1, _⟩ := c18_xyCut_terminates P hx hy elements hQ _ (Nat.le_refl _)
  have hall : ∀ k, xyCutF P (elements.length + k) elements = some out := by
    intro k
    induction k with
    | zero => exact h1
    | succ k ih => exact mono _ _ _ ih
  have := hall (fuel - elements.length)
  rw [show elements.length + (fuel - elements.length) = fuel by omega] at this
  rw [this, xyCut, h1]; rfl

theorem forGroups_forall {α : Type} {f : List α → Option (Out α)} {Q : List α → Prop}
    (h : ∀ x out, f x = some out → ∀ g ∈ out.1, Q g) :
    ∀ gs out, forGroups f gs = some out → ∀ g ∈ out.1, Q g := by
  intro gs
  induction gs with
  | nil => intro out ho; simp [forGroups] at ho; subst ho; simp
  | cons x xs ih =>
    intro out ho
    rw [forGroups] at ho
    cases hf : f x with
    | none => rw [hf] at ho; simp at ho
    | some a =>
      cases hr : forGroups f xs with
      | none => rw [hf, hr] at ho; simp at ho
      | some b =>
        rw [hf, hr] at ho
        simp only [Option.some.injEq] at ho
        subst ho
        intro g hg
        rcases List.mem_append.mp hg with hg | hg
        · exact h x a hf g hg
        · exact ih b hr g hg

theorem splitGroups_count {α : Type} (s : List α) : ∀ (cuts : List (Cut α)) (p : ℕ),
    (splitGroups s p cuts).length = cuts.countP (·.isChosen) + 1 := by
  intro cuts
  induction cuts with
  | nil => intro p; simp [splitGroups]
  | cons c cs ih =>
    intro p
    rw [splitGroups]
    split
    · next h => rw [List.length_cons, ih, List.countP_cons_of_pos h]
    · next h => rw [ih, List.countP_cons_of_neg h]

theorem countP_of_not_any {α : Type} {cuts : List (Cut α)} (h : ¬ cuts.any (·.isChosen) = true) :
    cuts.countP (·.isChosen) = 0 := by
  rw [List.countP_eq_zero]
  intro c hc hch
  exact h (List.any_eq_true.mpr ⟨c, hc, hch⟩)

theorem forGroups_count {α : Type} (f : List α → Option (Out α)) :
    ∀ (gs : List (List α)) out, (∀ g ∈ gs, ∀ o, f g = some o → o.1.length = o.2.countP (·.isChosen) + 1) →
      forGroups f gs = some out → out.1.length = out.2.countP (·.isChosen) + gs.length := by
  intro gs
  induction gs with
  | nil => intro out _ h; simp [forGroups] at h; subst h; simp
  | cons g gs ih =>
    intro out hf h
    rw [forGroups] at h
    cases h1 : f g with
    | none => rw [h1] at h; simp at h
    | some a =>
      cases h2 : forGroups f gs with
      | none => rw [h1, h2] at h; simp at h
      | some b =>
        rw [h1, h2] at h
        simp only [Option.some.injEq] at h
        subst h
        have e1 := hf g (by simp) a h1
        have e2 := ih b (fun x hx => hf x (by simp [hx])) h2
        simp only [List.length_append, List.countP_append, List.length_cons]
        omega

/-- C18: all cuts that were made are reported: there is exactly one group more than chosen cuts in the result. -/
theorem c18_cuts_reported {α : Type} (P : Params α) {Q : α → Prop}
    (hx : PermOn Q P.lib.sortLeftX) (hy : PermOn Q P.lib.sortUpperY) (elements : List α)
    (hQ : ∀ e ∈ elements, Q e) (hne : elements ≠ []) :
    (xyCut P elements).1.length = ((xyCut P elements).2.filter (·.isChosen)).length + 1 := by
  have hX : ∀ es : List α, es ≠ [] →
      (xCut P.pos P.lib P.minXGap P.maxOverlap P.chooseX es).groups.length =
        (xCut P.pos P.lib P.minXGap P.maxOverlap P.chooseX es).cuts.countP (·.isChosen) + 1 := by
    intro es hes
    unfold xCut
    rw [if_neg (by simpa using hes)]
    exact splitGroups_count _ _ _
  have hY : ∀ es : List α, es ≠ [] →
      (yCut P.pos P.lib P.minYGap P.chooseY es).groups.length =
        (yCut P.pos P.lib P.minYGap P.chooseY es).cuts.countP (·.isChosen) + 1 := by
    intro es hes
    unfold yCut
    rw [if_neg (by simpa using hes)]
    exact splitGroups_count _ _ _
  have hXn : ∀ es : List α, ¬ (xCut P.pos P.lib P.minXGap P.maxOverlap P.chooseX es).ok = true →
      (xCut P.pos P.lib P.minXGap P.maxOverlap P.chooseX es).cuts.countP (·.isChosen) = 0 := by
    intro es h
    unfold xCut at h ⊢
    split
    · simp
    · next he => rw [if_neg he] at h; exact countP_of_not_any h
  have hYn : ∀ es : List α, ¬ (yCut P.pos P.lib P.minYGap P.chooseY es).ok = true →
      (yCut P.pos P.lib P.minYGap P.chooseY es).cuts.countP (·.isChosen) = 0 := by
    intro es h
    unfold yCut at h ⊢
    split
    · simp
    · next he => rw [if_neg he] at h; exact countP_of_not_any h
  have key : ∀ fuel (es : List α) out, es ≠ [] → (∀ e ∈ es, Q e) → xyCutF P fuel es = some out →
      out.1.length = out.2.countP (·.isChosen) + 1 := by
    intro fuel
    induction fuel with
    | zero =>
      intro es out hes _ h
      rw [xyCutF, if_neg (by simpa using hes)] at h
      cases h
    | succ fuel ih =>
      intro es out hes hesQ h
      have hdiv : ∀ g : List α, g ≠ [] → (∀ e ∈ g, Q e) → ∀ o,
          divideGroup P (xyCutF P fuel) g = some o → o.1.length = o.2.countP (·.isChosen) + 1 := by
        intro g hg hgQ o ho
        have hYp := c17_yCut_partition P.pos P.lib P.minYGap P.chooseY g (hy g hgQ) hg
        unfold divideGroup at ho
        simp only at ho
        split at ho
        · obtain ⟨o', ho', rfl⟩ := Option.map_eq_some_iff.mp ho
          have := forGroups_count _ _ _ (fun x hx o h => ih x o (hYp.nonempty x hx)
            (fun e he => hgQ e (hYp.perm.subset (List.mem_flatten.mpr ⟨x, hx, he⟩))) h) ho'
          rw [hY g hg] at this
          simp only [List.countP_append]
          omega
        · next hno =>
          simp only [Option.some.injEq] at ho
          subst ho
          simp [hYn g hno]
      rw [xyCutF, if_neg (by simpa using hes)] at h
      simp only at h
      have hXp := c17_xCut_partition P.pos P.lib P.minXGap P.maxOverlap P.chooseX es (hx es hesQ) hes
      split at h
      · obtain ⟨o', ho', rfl⟩ := Option.map_eq_some_iff.mp h
        have := forGroups_count _ _ _ (fun x hx o h => hdiv x (hXp.nonempty x hx)
          (fun e he => hesQ e (hXp.perm.subset (List.mem_flatten.mpr ⟨x, hx, he⟩))) o h) ho'
        rw [hX es hes] at this
        simp only [List.countP_append]
        omega
      · next hno =>
        obtain ⟨o', ho', rfl⟩ := Option.map_eq_some_iff.mp h
        have := hdiv es hes hesQ o' ho'
        simp only [List.countP_append, hXn es hno]
        omega
  have h1 := c18_xyCut_fuel_irrelevant P hx hy elements hQ elements.length (le_refl _)
  rw [← List.countP_eq_length_filter]
  exact key _ _ _ hne hQ h1

/-- C18: no returned group can be divided any further by the horizontal cuts the strategy chooses. -/
theorem c18_groups_final {α : Type} (P : Params α) {Q : α → Prop}
    (hx : PermOn Q P.lib.sortLeftX) (hy : PermOn Q P.lib.sortUpperY) (elements : List α)
    (hQ : ∀ e ∈ elements, Q e) :
    ∀ g ∈ (xyCut P elements).1, (yCut P.pos P.lib P.minYGap P.chooseY g).ok = false := by
  have key : ∀ fuel (es : List α) out, xyCutF P fuel es = some out →
      ∀ g ∈ out.1, (yCut P.pos P.lib P.minYGap P.chooseY g).ok = false := by
    intro fuel
    induction fuel with
    | zero =>
      intro es out h
      rw [xyCutF] at h
      split at h
      · simp at h; subst h; simp
      · cases h
    | succ fuel ih =>
      intro es out h
      have hdiv : ∀ x out, divideGroup P (xyCutF P fuel) x = some out →
          ∀ g ∈ out.1, (yCut P.pos P.lib P.minYGap P.chooseY g).ok = false := by
        intro x out ho
        unfold divideGroup at ho
        simp only at ho
        split at ho
        · obtain ⟨o, h1, rfl⟩ := Option.map_eq_some_iff.mp ho
          exact forGroups_forall ih _ o h1
        · next hf =>
          simp only [Option.some.injEq] at ho
          subst ho
          intro g hg
          simp only [List.mem_singleton] at hg
          subst hg
          simpa using hf
      rw [xyCutF] at h
      split at h
      · simp at h; subst h; simp
      · simp only at h
        split at h
        · obtain ⟨o, h1, rfl⟩ := Option.map_eq_some_iff.mp h
          exact forGroups_forall hdiv _ o h1
        · obtain ⟨o, h1, rfl⟩ := Option.map_eq_some_iff.mp h
          exact hdiv _ o h1
  exact key _ elements _ (c18_xyCut_fuel_irrelevant P hx hy elements hQ _ (Nat.le_refl _))

/-! ## C19, C20: geometry of the cuts -/

/-- The promises of the C++ library about the sorts and the heap (only for comparators that are
strict weak orders on the elements at hand). -/
structure LibContract {α : Type} (pos : α → Box) (lib : Lib α) : Prop where
  sortLeftX : SortContract (fun a b => Comparators.leftXAsc (pos a) (pos b)) lib.sortLeftX
  sortUpperY : SortContract (fun a b => Comparators.upperYAsc (pos a) (pos b)) lib.sortUpperY
  sortRightX : SortContract (fun a b => Comparators.rightXDesc (pos a) (pos b)) lib.sortRightXDesc
  heap : ∀ q, q ≠ [] → StrictWeakOrderOn (fun a b => Comparators.rightXDesc (pos a) (pos b)) q →
    ∃ t rest, lib.popTop q = some (t, rest) ∧ q.Perm (t :: rest) ∧
      ∀ x ∈ q, Comparators.rightXDesc (pos t) (pos x) = false

/-- Elements as the parser produces them, apart from text rotated by 180 or 270 degrees: rounded
coordinates and a well-formed box. -/
structure ParsedBox (n : ℕ) (b : Box) : Prop where
  rounded : RoundedBox n b
  upright : Upright b
  wide : b.leftX ≤ b.rightX
  tall : b.upperY ≤ b.lowerY

theorem ParsedBox.decimal {n : ℕ} {b : Box} (h : ParsedBox n b) :
    IsDecimal n b.leftX ∧ IsDecimal n b.upperY ∧ IsDecimal n b.rightX ∧ IsDecimal n b.lowerY := by
  obtain ⟨⟨x, h1⟩, ⟨y, h2⟩, ⟨z, h3⟩, ⟨w, h4⟩⟩ := h.rounded
  rw [h1, h2, h3, h4]
  exact ⟨isDecimal_round _ _, isDecimal_round _ _, isDecimal_round _ _, isDecimal_round _ _⟩

theorem hgap_iff {n : ℕ} (hn : n ≤ 3) {a e : Box} (ha : ParsedBox n a) (he : ParsedBox n e)
    (hle : a.leftX ≤ e.leftX) {minGap : ℚ} (hm : tol < minGap) :
    (equalOrLarger (computeHorizontalGap a e) minGap tol = true ↔
      a.rightX + (minGap - tol) ≤ e.leftX) ∧
    (equalOrLarger (computeHorizontalGap a e) minGap tol = true →
      computeHorizontalGap a e = e.leftX - a.rightX) := by
  have hs := smaller_exact_of_decimal hn ha.decimal.1 he.decimal.1
  unfold computeHorizontalGap
  rcases lt_or_eq_of_le hle with hlt | heq
  · rw [if_pos (hs.mpr hlt)]
    have hu := ha.upright
    have : ¬ (a.rotation = 2 ∨ a.rotation = 3) := fun h => h.elim hu.1 hu.2
    simp only [this, if_false]
    refine ⟨?_, fun _ => trivial⟩
    rw [eol_iff]
    constructor <;> intro h <;> linarith
  · have hns : ¬ (smaller a.leftX e.leftX tol = true) := by rw [hs, heq]; exact lt_irrefl _
    rw [if_neg hns]
    have hu := he.upright
    have : ¬ (e.rotation = 2 ∨ e.rotation = 3) := fun h => h.elim hu.1 hu.2
    simp only [this, if_false]
    have h1 := ha.wide
    have h2 := he.wide
    rw [eol_iff]
    refine ⟨⟨fun h => ?_, fun h => ?_⟩, fun h => ?_⟩ <;> linarith

theorem vgap_iff {n : ℕ} (hn : n ≤ 3) {a e : Box} (ha : ParsedBox n a) (he : ParsedBox n e)
    (hle : a.upperY ≤ e.upperY) {minGap : ℚ} (hm : tol < minGap) :
    (equalOrLarger (computeVerticalGap a e) minGap tol = true ↔
      a.lowerY + (minGap - tol) ≤ e.upperY) ∧
    (equalOrLarger (computeVerticalGap a e) minGap tol = true →
      computeVerticalGap a e = e.upperY - a.lowerY) := by
  have hs := smaller_exact_of_decimal hn ha.decimal.2.1 he.decimal.2.1
  unfold computeVerticalGap
  rcases lt_or_eq_of_le hle with hlt | heq
  · rw [if_pos (hs.mpr hlt)]
    have hu := ha.upright
    have : ¬ (a.rotation = 2 ∨ a.rotation = 3) := fun h => h.elim hu.1 hu.2
    simp only [this, if_false]
    refine ⟨?_, fun _ => trivial⟩
    rw [eol_iff]
    constructor <;> intro h <;> linarith
  · have hns : ¬ (smaller a.upperY e.upperY tol = true) := by rw [hs, heq]; exact lt_irrefl _
    rw [if_neg hns]
    have hu := he.upright
    have : ¬ (e.rotation = 2 ∨ e.rotation = 3) := fun h => h.elim hu.1 hu.2
    simp only [this, if_false]
    have h1 := ha.tall
    have h2 := he.tall
    rw [eol_iff]
    refine ⟨⟨fun h => ?_, fun h => ?_⟩, fun h => ?_⟩ <;> linarith

/-- What is proved about a horizontal cut candidate `c` in the sorted elements `s`. -/
structure GoodYCut {α : Type} (pos : α → Box) (minGap : ℚ) (s : List α) (c : Cut α) : Prop where
  horizontal : c.y1 = c.y2
  before_mem : c.elementBefore ∈ s.take c.posInElements
  after_mem : s[c.posInElements]? = some c.elementAfter
  gapHeight : c.gapHeight = (pos c.elementAfter).upperY - (pos c.elementBefore).lowerY
  separates : Separates (fun e => (pos e).upperY) (fun e => (pos e).lowerY) (minGap - tol) c.y1
    (s.take c.posInElements) (s.drop c.posInElements)

theorem yLoop_geometry {α : Type} (pos : α → Box) {n : ℕ} (hn : n ≤ 3) {minGap : ℚ}
    (hm : tol < minGap) (x1 x2 : ℚ) :
    ∀ (es pre : List α) (big : α), (∀ e ∈ pre ++ es, ParsedBox n (pos e)) →
      (pre ++ es).Pairwise (fun a b => (pos a).upperY ≤ (pos b).upperY) →
      big ∈ pre → (∀ x ∈ pre, (pos x).lowerY ≤ (pos big).lowerY) →
      (∀ c ∈ yLoop pos minGap x1 x2 pre.length big es, GoodYCut pos minGap (pre ++ es) c) ∧
      (∀ k, pre.length ≤ k → k < (pre ++ es).length →
        (∀ a ∈ (pre ++ es).take k, ∀ b, (pre ++ es)[k]? = some b →
          (pos a).lowerY + (minGap - tol) ≤ (pos b).upperY) →
        ∃ c ∈ yLoop pos minGap x1 x2 pre.length big es, c.posInElements = k) := by
  intro es
  induction es with
  | nil =>
    intro pre big hp hs hb hmax
    refine ⟨by simp [yLoop], fun k h1 h2 => ?_⟩
    simp at h2; omega
  | cons e es ih =>
    intro pre big hp hs hb hmax
    have hbP := hp big (by simp [hb])
    have heP := hp e (by simp)
    rw [List.pairwise_append] at hs
    obtain ⟨hs1, hs2, hs3⟩ := hs
    have hle : (pos big).upperY ≤ (pos e).upperY := hs3 big hb e (by simp)
    obtain ⟨hgap, hgapv⟩ := vgap_iff hn hbP heP hle hm
    have hafter : ∀ b ∈ e :: es, (pos e).upperY ≤ (pos b).upperY := by
      intro b hbm
      rcases List.mem_cons.mp hbm with rfl | hbm
      · exact le_refl _
      · exact (List.pairwise_cons.mp hs2).1 b hbm
    set big' := if larger (pos e).lowerY (pos big).lowerY tol then e else big with hbig'
    have hlar := larger_exact_of_decimal hn heP.decimal.2.2.2 hbP.decimal.2.2.2
    have hpre : (pre ++ [e]) ++ es = pre ++ e :: es := by simp
    have hrec := ih (pre ++ [e]) big' (by rw [hpre]; exact hp)
      (by rw [hpre, List.pairwise_append]; exact ⟨hs1, hs2, hs3⟩)
      (by rw [hbig']; split <;> simp [hb])
      (by
        intro x hx
        rcases List.mem_append.mp hx with hx | hx
        · have h1 := hmax x hx
          rw [hbig']; split
          · next h => exact le_trans h1 (le_of_lt (hlar.mp h))
          · exact h1
        · simp only [List.mem_singleton] at hx; subst hx
          rw [hbig']; split
          · exact le_refl _
          · next h => rw [hlar] at h; exact le_of_not_gt h)
    rw [hpre, List.length_append, List.length_singleton] at hrec
    have htake : (pre ++ e :: es).take pre.length = pre := by simp
    have hdrop : (pre ++ e :: es).drop pre.length = e :: es := by simp
    have hget : (pre ++ e :: es)[pre.length]? = some e := by simp
    rw [yLoop]
    rw [← hbig']
    split
    · next hg =>
      refine ⟨?_, ?_⟩
      · intro c hc
        rcases List.mem_cons.mp hc with rfl | hc
        · have hsep := hgap.mp hg
          have hv := hgapv hg
          refine ⟨rfl, by simpa using hb, hget, hv, ?_⟩
          simp only
          rw [htake, hdrop, hv]
          refine ⟨?_, ?_, ?_⟩
          · intro a ha b hbm
            have := hmax a ha
            have := hafter b hbm
            linarith
          · intro a ha
            have := hmax a ha
            linarith
          · intro b hbm
            have := hafter b hbm
            linarith
        · exact hrec.1 c hc
      · intro k hk1 hk2 hall
        by_cases hk : k = pre.length
        · subst hk; exact ⟨_, List.mem_cons_self, rfl⟩
        · obtain ⟨c, hc, hck⟩ := hrec.2 k (by omega) hk2 hall
          exact ⟨c, List.mem_cons_of_mem _ hc, hck⟩
    · next hg =>
      refine ⟨hrec.1, ?_⟩
      intro k hk1 hk2 hall
      by_cases hk : k = pre.length
      · subst hk
        rw [htake] at hall
        exact absurd (hgap.mpr (hall big hb e hget)) hg
      · exact hrec.2 k (by omega) hk2 hall

theorem applyChoice_mem {α : Type} {choose : Choose α} {cs : List (Cut α)} {s : List α} {c : Cut α}
    (h : c ∈ applyChoice choose cs s) : ∃ c0 ∈ cs, ∃ b, c = { c0 with isChosen := b } := by
  obtain ⟨i, hi, rfl⟩ := List.mem_mapIdx.mp h
  exact ⟨cs[i], List.getElem_mem hi, _, rfl⟩

/-- A chosen cut is a boundary between groups. -/
theorem splitGroups_boundary {α : Type} (s : List α) :
    ∀ (cuts : List (Cut α)) (prev : ℕ), prev < s.length → GoodCuts (prev + 1) s.length cuts →
      ∀ c ∈ cuts, c.isChosen = true → ∃ g1 g2, splitGroups s prev cuts = g1 ++ g2 ∧ g1 ≠ [] ∧
        g2 ≠ [] ∧ g1.flatten = (s.take c.posInElements).drop prev ∧
        g2.flatten = s.drop c.posInElements := by
  intro cuts
  induction cuts with
  | nil => simp
  | cons d cs ih =>
    intro prev hp hg c hc hch
    have hsort := List.pairwise_cons.mp hg.sorted
    have hd := hg.inside d (by simp)
    have hcs : GoodCuts (d.posInElements + 1) s.length cs :=
      ⟨fun x hx => ⟨by have := hsort.1 x hx; omega, (hg.inside x (by simp [hx])).2⟩, hsort.2⟩
    have hcs' : GoodCuts (prev + 1) s.length cs := hcs.weaken (by omega)
    have htd : ∀ k, (s.drop prev).take (k - prev) = (s.take k).drop prev := by
      intro k; rw [List.drop_take]
    rw [splitGroups]
    rcases List.mem_cons.mp hc with rfl | hcm
    · rw [if_pos hch]
      obtain ⟨h1, _, h3⟩ := splitGroups_spec s cs c.posInElements hd.2 hcs
      refine ⟨[_], splitGroups s c.posInElements cs, rfl, by simp, ?_, ?_, h1⟩
      · intro h0; rw [h0] at h3; simp at h3
      · simp [htd]
    · split
      · obtain ⟨g1, g2, he, hn1, hn2, hf1, hf2⟩ := ih d.posInElements hd.2 hcs c hcm hch
        refine ⟨_ :: g1, g2, by rw [he]; rfl, by simp, hn2, ?_, hf2⟩
        rw [List.flatten_cons, hf1, htd]
        have hlt := hsort.1 c hcm
        have h1 : (s.take d.posInElements).drop prev
            = ((s.take c.posInElements).drop prev).take (d.posInElements - prev) := by
          rw [List.drop_take, List.drop_take, List.take_take]
          congr 1
          omega
        have h2 : (s.take c.posInElements).drop d.posInElements
            = ((s.take c.posInElements).drop prev).drop (d.posInElements - prev) := by
          rw [List.drop_drop]; congr 1; omega
        rw [h1, h2, List.take_append_drop]
      · obtain ⟨g1, g2, he, hn1, hn2, hf1, hf2⟩ := ih prev hp hcs' c hcm hch
        exact ⟨g1, g2, he, hn1, hn2, hf1, hf2⟩

theorem pairwise_upperY {α : Type} {pos : α → Box} {lib : Lib α} (hl : LibContract pos lib) {n : ℕ}
    (hn : n ≤ 3) {elements : List α} (hp : ∀ e ∈ elements, ParsedBox n (pos e)) :
    (lib.sortUpperY elements).Perm elements ∧
    (lib.sortUpperY elements).Pairwise (fun a b => (pos a).upperY ≤ (pos b).upperY) := by
  have hex : ∀ a ∈ elements, ∀ b ∈ elements,
      (Comparators.upperYAsc (pos a) (pos b) = true ↔ (pos a).upperY < (pos b).upperY) :=
    fun a ha b hb => smaller_exact_of_decimal hn (hp a ha).decimal.2.1 (hp b hb).decimal.2.1
  obtain ⟨h1, h2⟩ := hl.sortUpperY elements (swo_of_exact (fun e => (pos e).upperY) hex)
  refine ⟨h1, h2.imp_of_mem ?_⟩
  intro a b ha hb hab
  have := hex b (h1.subset hb) a (h1.subset ha)
  rw [← Bool.not_eq_true] at hab
  rw [this] at hab
  exact le_of_not_gt hab

theorem pairwise_leftX {α : Type} {pos : α → Box} {lib : Lib α} (hl : LibContract pos lib) {n : ℕ}
    (hn : n ≤ 3) {elements : List α} (hp : ∀ e ∈ elements, ParsedBox n (pos e)) :
    (lib.sortLeftX elements).Perm elements ∧
    (lib.sortLeftX elements).Pairwise (fun a b => (pos a).leftX ≤ (pos b).leftX) := by
  have hex : ∀ a ∈ elements, ∀ b ∈ elements,
      (Comparators.leftXAsc (pos a) (pos b) = true ↔ (pos a).leftX < (pos b).leftX) :=
    fun a ha b hb => smaller_exact_of_decimal hn (hp a ha).decimal.1 (hp b hb).decimal.1
  obtain ⟨h1, h2⟩ := hl.sortLeftX elements (swo_of_exact (fun e => (pos e).leftX) hex)
  refine ⟨h1, h2.imp_of_mem ?_⟩
  intro a b ha hb hab
  have := hex b (h1.subset hb) a (h1.subset ha)
  rw [← Bool.not_eq_true] at hab
  rw [this] at hab
  exact le_of_not_gt hab

/-- C17 and C18 need no more of the library than the C++ standard promises when the elements have
rounded coordinates: the sorts then rearrange their input. -/
theorem c17_sorts_are_permutations {α : Type} {pos : α → Box} {lib : Lib α}
    (hl : LibContract pos lib) {n : ℕ} (hn : n ≤ 3) :
    PermOn (fun e => RoundedBox n (pos e)) lib.sortLeftX ∧
    PermOn (fun e => RoundedBox n (pos e)) lib.sortUpperY := by
  have dec : ∀ b, RoundedBox n b → IsDecimal n b.leftX ∧ IsDecimal n b.upperY := by
    rintro b ⟨⟨x, h1⟩, ⟨y, h2⟩, _, _⟩
    rw [h1, h2]
    exact ⟨isDecimal_round _ _, isDecimal_round _ _⟩
  constructor
  · intro l hQ
    exact (hl.sortLeftX l (swo_of_exact (fun e => (pos e).leftX) fun a ha b hb =>
      smaller_exact_of_decimal hn (dec _ (hQ a ha)).1 (dec _ (hQ b hb)).1)).1
  · intro l hQ
    exact (hl.sortUpperY l (swo_of_exact (fun e => (pos e).upperY) fun a ha b hb =>
      smaller_exact_of_decimal hn (dec _ (hQ a ha)).2 (dec _ (hQ b hb)).2)).1

theorem yCandidates_geometry {α : Type} {pos : α → Box} {lib : Lib α} (hl : LibContract pos lib)
    {n : ℕ} (hn : n ≤ 3) {minGap : ℚ} (hm : tol < minGap) {elements : List α}
    (hp : ∀ e ∈ elements, ParsedBox n (pos e)) :
    (∀ c ∈ yCandidates pos lib minGap elements, GoodYCut pos minGap (lib.sortUpperY elements) c) ∧
    (∀ k, 1 ≤ k → k < (lib.sortUpperY elements).length →
      (∀ a ∈ (lib.sortUpperY elements).take k, ∀ b, (lib.sortUpperY elements)[k]? = some b →
        (pos a).lowerY + (minGap - tol) ≤ (pos b).upperY) →
      ∃ c ∈ yCandidates pos lib minGap elements, c.posInElements = k) := by
  obtain ⟨h1, h2⟩ := pairwise_upperY hl hn hp
  have hp' : ∀ e ∈ lib.sortUpperY elements, ParsedBox n (pos e) := fun e he => hp e (h1.subset he)
  unfold yCandidates
  cases hs : lib.sortUpperY elements with
  | nil => exact ⟨by simp, fun k _ h => by simp at h⟩
  | cons e0 es =>
    rw [hs] at h2 hp'
    simpa using yLoop_geometry pos hn hm
      (extent (fun e => (pos e).leftX) (fun e => (pos e).rightX) (e0 :: es)).1
      (extent (fun e => (pos e).leftX) (fun e => (pos e).rightX) (e0 :: es)).2 es [e0] e0
      (by simpa using hp') (by simpa using h2) (by simp) (by simp)

/-- C19 (horizontal cuts): at every chosen cut the groups fall into those above and those below; all
elements above end at least the minimum gap (minus the tolerance) above all elements below, and
the cut line runs strictly between them. -/
theorem c19_yCut_separates {α : Type} {pos : α → Box} {lib : Lib α} (hl : LibContract pos lib)
    {n : ℕ} (hn : n ≤ 3) {minGap : ℚ} (hm : tol < minGap) (choose : Choose α) {elements : List α}
    (hp : ∀ e ∈ elements, ParsedBox n (pos e)) :
    ∀ c ∈ (yCut pos lib minGap choose elements).cuts, c.isChosen = true →
      ∃ above below, (yCut pos lib minGap choose elements).groups = above ++ below ∧
        above ≠ [] ∧ below ≠ [] ∧ c.y1 = c.y2 ∧
        Separates (fun e => (pos e).upperY) (fun e => (pos e).lowerY) (minGap - tol) c.y1
          above.flatten below.flatten := by
  intro c hc hch
  unfold yCut at hc ⊢
  by_cases hne : elements.isEmpty
  · rw [if_pos hne] at hc; simp at hc
  · rw [if_neg hne] at hc ⊢
    have hgood := goodCuts_applyChoice choose _ (lib.sortUpperY elements)
      (yCandidates_good pos lib minGap elements)
    have hlen : 0 < (lib.sortUpperY elements).length := by
      have := hgood.inside c hc; omega
    obtain ⟨g1, g2, h1, h2, h3, h4, h5⟩ := splitGroups_boundary _ _ 0 hlen hgood c hc hch
    obtain ⟨c0, hc0, b, rfl⟩ := applyChoice_mem hc
    have hG := (yCandidates_geometry hl hn hm hp).1 c0 hc0
    refine ⟨g1, g2, h1, h2, h3, hG.horizontal, ?_⟩
    rw [h4, h5]
    exact hG.separates

/-- C19 (horizontal cuts are found): wherever all elements above end the minimum gap above the next
element in sorted order, there is a candidate. -/
theorem c19_yCut_complete {α : Type} {pos : α → Box} {lib : Lib α} (hl : LibContract pos lib)
    {n : ℕ} (hn : n ≤ 3) {minGap : ℚ} (hm : tol < minGap) (choose : Choose α) {elements : List α}
    (hp : ∀ e ∈ elements, ParsedBox n (pos e)) (above below : List α) (ha : above ≠ [])
    (hb : below ≠ []) (hs : lib.sortUpperY elements = above ++ below)
    (hgap : ∀ a ∈ above, ∀ b ∈ below, (pos a).lowerY + minGap ≤ (pos b).upperY) :
    ∃ c ∈ (yCut pos lib minGap choose elements).cuts, c.posInElements = above.length := by
  have hlen : 0 < below.length := List.length_pos_iff.mpr hb
  have hlen' : 0 < above.length := List.length_pos_iff.mpr ha
  obtain ⟨c, hc, hck⟩ := (yCandidates_geometry hl hn hm hp).2 above.length hlen'
    (by rw [hs]; simp; omega) (by
      intro a haa b hbb
      rw [hs] at haa hbb
      have h1 : a ∈ above := by simpa using haa
      have h2 : b ∈ below := by
        rw [List.getElem?_append_right (Nat.le_refl _), Nat.sub_self] at hbb
        exact List.mem_of_getElem? hbb
      have := hgap a h1 b h2
      have := tol_pos
      linarith)
  have hne : ¬ elements.isEmpty = true := by
    intro h0
    have : elements = [] := by simpa using h0
    subst this
    have := (pairwise_upperY hl hn hp).1.length_eq
    rw [hs] at this; simp at this; exact ha this.1
  unfold yCut
  rw [if_neg hne]
  obtain ⟨i, hi, rfl⟩ := List.mem_iff_getElem.mp hc
  refine ⟨(applyChoice choose (yCandidates pos lib minGap elements) (lib.sortUpperY elements))[i]'(by
    simpa [applyChoice] using hi), List.getElem_mem _, ?_⟩
  simp only [applyChoice, List.getElem_mapIdx]
  exact hck

/-! ### Vertical cuts -/

theorem findGap_some {α : Type} {pos : α → Box} {minGap : ℚ} {e : α} :
    ∀ {L acc : List α} {prev : α} {gap : ℚ} {ov : List α},
      findGap pos minGap e L acc = some (prev, gap, ov) →
      ∃ l1 l2, L = l1 ++ prev :: l2 ∧ ov = acc ++ l1 ∧
        gap = computeHorizontalGap (pos prev) (pos e) ∧ equalOrLarger gap minGap tol = true ∧
        ∀ o ∈ l1, equalOrLarger (computeHorizontalGap (pos o) (pos e)) minGap tol = false := by
  intro L
  induction L with
  | nil => intro acc prev gap ov h; simp [findGap] at h
  | cons x xs ih =>
    intro acc prev gap ov h
    rw [findGap] at h
    split at h
    · next hg =>
      simp only [Option.some.injEq, Prod.mk.injEq] at h
      obtain ⟨rfl, rfl, rfl⟩ := h
      exact ⟨[], xs, rfl, by simp, rfl, hg, by simp⟩
    · next hg =>
      obtain ⟨l1, l2, rfl, rfl, h3, h4, h5⟩ := ih h
      refine ⟨x :: l1, l2, rfl, by simp, h3, h4, ?_⟩
      intro o ho
      rcases List.mem_cons.mp ho with rfl | ho
      · simpa using hg
      · exact h5 o ho

theorem findGap_none {α : Type} {pos : α → Box} {minGap : ℚ} {e : α} :
    ∀ {L acc : List α}, findGap pos minGap e L acc = none →
      ∀ o ∈ L, equalOrLarger (computeHorizontalGap (pos o) (pos e)) minGap tol = false := by
  intro L
  induction L with
  | nil => simp
  | cons x xs ih =>
    intro acc h
    rw [findGap] at h
    split at h
    · cases h
    · next hg =>
      intro o ho
      rcases List.mem_cons.mp ho with rfl | ho
      · simpa using hg
      · exact ih h o ho

/-- The queue invariant: the visited elements `pre` are the queue content and elements that end no
further right than any element of the queue. -/
structure QInv {α : Type} (pos : α → Box) (m : ℕ) (pre q rest : List α) : Prop where
  perm : pre.Perm (q ++ rest)
  nonempty : q ≠ []
  size : q.length ≤ m + 1
  dominated : ∀ r ∈ rest, ∀ y ∈ q, (pos r).rightX ≤ (pos y).rightX

theorem swo_rightX {α : Type} {pos : α → Box} {n : ℕ} (hn : n ≤ 3) {q : List α}
    (hp : ∀ e ∈ q, ParsedBox n (pos e)) :
    StrictWeakOrderOn (fun a b => Comparators.rightXDesc (pos a) (pos b)) q :=
  swo_of_exact (fun e => -(pos e).rightX) fun a ha b hb => by
    simp only [Comparators.rightXDesc]
    rw [larger_exact_of_decimal hn (hp a ha).decimal.2.2.1 (hp b hb).decimal.2.2.1]
    constructor <;> intro h <;> linarith

theorem updateQ_inv {α : Type} {pos : α → Box} {lib : Lib α} (hl : LibContract pos lib) {n : ℕ}
    (hn : n ≤ 3) {m : ℕ} {pre q rest : List α} (hq : QInv pos m pre q rest) (e : α)
    (hp : ∀ x ∈ pre, ParsedBox n (pos x)) (he : ParsedBox n (pos e)) :
    ∃ rest', QInv pos m (pre ++ [e]) (updateQ pos lib.popTop (m + 1) q e) rest' := by
  have hpq : ∀ x ∈ q, ParsedBox n (pos x) := fun x hx => hp x (hq.perm.symm.subset (by simp [hx]))
  obtain ⟨t, tl, hpop, hperm, htop⟩ := hl.heap q hq.nonempty (swo_rightX hn hpq)
  have htq : t ∈ q := hperm.symm.subset (by simp)
  have hmin : ∀ x ∈ q, (pos t).rightX ≤ (pos x).rightX := by
    intro x hx
    have h1 := htop x hx
    rw [← Bool.not_eq_true] at h1
    simp only [Comparators.rightXDesc] at h1
    rw [larger_exact_of_decimal hn (hpq t htq).decimal.2.2.1 (hpq x hx).decimal.2.2.1] at h1
    exact le_of_not_gt h1
  have hlar := larger_exact_of_decimal hn he.decimal.2.2.1 (hpq t htq).decimal.2.2.1
  unfold updateQ
  rw [hpop]
  simp only
  split
  · next hgt =>
    have hgt' := hlar.mp hgt
    unfold pushQ PQ.push
    by_cases hfull : q.length = m + 1
    · rw [if_pos hfull, hpop]
      refine ⟨t :: rest, ?_, by simp, ?_, ?_⟩
      · refine (hq.perm.append_right [e]).trans ?_
        refine ((hperm.append_right rest).append_right [e]).trans ?_
        have : ((t :: tl ++ rest) ++ [e]).Perm ((tl ++ [e]) ++ (t :: rest)) := by
          refine (List.perm_append_comm).trans ?_
          simp only [List.cons_append]
          have h1 : (tl ++ [e] ++ t :: rest).Perm (t :: (tl ++ [e] ++ rest)) := List.perm_middle
          refine List.Perm.trans ?_ h1.symm
          refine List.Perm.trans (List.Perm.swap t e (tl ++ rest)) ?_
          refine List.Perm.cons t ?_
          have h2 : (tl ++ [e] ++ rest).Perm (e :: (tl ++ rest)) := by
            simp
          exact h2.symm
        exact this
      · have := hperm.length_eq; simp at this ⊢; omega
      · intro r hr y hy
        have hyt : (pos t).rightX ≤ (pos y).rightX := by
          rcases List.mem_append.mp hy with hy | hy
          · exact hmin y (hperm.symm.subset (by simp [hy]))
          · simp only [List.mem_singleton] at hy; subst hy; exact le_of_lt hgt'
        rcases List.mem_cons.mp hr with rfl | hr
        · exact hyt
        · exact le_trans (hq.dominated r hr t htq) hyt
    · rw [if_neg hfull]
      refine ⟨rest, ?_, by simp, ?_, ?_⟩
      · refine (hq.perm.append_right [e]).trans ?_
        rw [List.append_assoc, List.append_assoc]
        exact List.Perm.append_left q List.perm_append_comm
      · have := hq.size; simp; omega
      · intro r hr y hy
        rcases List.mem_append.mp hy with hy | hy
        · exact hq.dominated r hr y hy
        · simp only [List.mem_singleton] at hy; subst hy
          exact le_trans (hq.dominated r hr t htq) (le_of_lt hgt')
  · next hgt =>
    rw [hlar] at hgt
    refine ⟨e :: rest, ?_, hq.nonempty, hq.size, ?_⟩
    · refine (hq.perm.append_right [e]).trans ?_
      rw [List.append_assoc]
      exact List.Perm.append_left q (List.perm_append_comm)
    · intro r hr y hy
      rcases List.mem_cons.mp hr with rfl | hr
      · exact le_trans (le_of_not_gt hgt) (hmin y hy)
      · exact hq.dominated r hr y hy

/-- What is proved about a vertical cut candidate `c` in the sorted elements `s`. -/
structure GoodXCut {α : Type} (pos : α → Box) (minGap : ℚ) (m : ℕ) (s : List α) (c : Cut α) :
    Prop where
  vertical : c.x1 = c.x2
  after_mem : s[c.posInElements]? = some c.elementAfter
  gapWidth : c.gapWidth = (pos c.elementAfter).leftX - (pos c.elementBefore).rightX
  few : c.overlappingElements.length ≤ m
  close : ∀ o ∈ c.overlappingElements,
    (pos c.elementAfter).leftX < (pos o).rightX + (minGap - tol)
  separates : ∃ others, (s.take c.posInElements).Perm (c.overlappingElements ++ others) ∧
    c.elementBefore ∈ others ∧
    Separates (fun e => (pos e).leftX) (fun e => (pos e).rightX) (minGap - tol) c.x1
      others (s.drop c.posInElements)

theorem xLoop_geometry {α : Type} {pos : α → Box} {lib : Lib α} (hl : LibContract pos lib) {n : ℕ}
    (hn : n ≤ 3) {minGap : ℚ} (hm : tol < minGap) (m : ℕ) (y1 y2 : ℚ) :
    ∀ (es pre q rest : List α), (∀ e ∈ pre ++ es, ParsedBox n (pos e)) →
      (pre ++ es).Pairwise (fun a b => (pos a).leftX ≤ (pos b).leftX) →
      QInv pos m pre q rest →
      (∀ c ∈ xLoop pos lib minGap m y1 y2 pre.length q es, GoodXCut pos minGap m (pre ++ es) c) ∧
      (∀ k, pre.length ≤ k → k < (pre ++ es).length →
        (∀ a ∈ (pre ++ es).take k, ∀ b, (pre ++ es)[k]? = some b →
          (pos a).rightX + (minGap - tol) ≤ (pos b).leftX) →
        ∃ c ∈ xLoop pos lib minGap m y1 y2 pre.length q es, c.posInElements = k ∧
          c.overlappingElements = []) := by
  intro es
  induction es with
  | nil =>
    intro pre q rest hp hs hq
    refine ⟨by simp [xLoop], fun k h1 h2 => ?_⟩
    simp at h2; omega
  | cons e es ih =>
    intro pre q rest hp hs hq
    have hpp : ∀ x ∈ pre, ParsedBox n (pos x) := fun x hx => hp x (by simp [hx])
    have heP := hp e (by simp)
    rw [List.pairwise_append] at hs
    obtain ⟨hs1, hs2, hs3⟩ := hs
    have hqpre : ∀ x ∈ q, x ∈ pre := fun x hx => hq.perm.symm.subset (by simp [hx])
    have hafter : ∀ b ∈ e :: es, (pos e).leftX ≤ (pos b).leftX := by
      intro b hbm
      rcases List.mem_cons.mp hbm with rfl | hbm
      · exact le_refl _
      · exact (List.pairwise_cons.mp hs2).1 b hbm
    obtain ⟨rest', hq'⟩ := updateQ_inv hl hn hq e hpp heP
    have hpre : (pre ++ [e]) ++ es = pre ++ e :: es := by simp
    have hrec := ih (pre ++ [e]) _ rest' (by rw [hpre]; exact hp)
      (by rw [hpre, List.pairwise_append]; exact ⟨hs1, hs2, hs3⟩) hq'
    rw [hpre, List.length_append, List.length_singleton] at hrec
    have htake : (pre ++ e :: es).take pre.length = pre := by simp
    have hdrop : (pre ++ e :: es).drop pre.length = e :: es := by simp
    have hget : (pre ++ e :: es)[pre.length]? = some e := by simp
    obtain ⟨hsp, hss⟩ := hl.sortRightX q (swo_rightX hn fun x hx => hpp x (hqpre x hx))
    have hgap : ∀ x ∈ pre, (equalOrLarger (computeHorizontalGap (pos x) (pos e)) minGap tol = true ↔
        (pos x).rightX + (minGap - tol) ≤ (pos e).leftX) ∧
        (equalOrLarger (computeHorizontalGap (pos x) (pos e)) minGap tol = true →
          computeHorizontalGap (pos x) (pos e) = (pos e).leftX - (pos x).rightX) := fun x hx =>
      hgap_iff hn (hpp x hx) heP (hs3 x hx e (by simp)) hm
    rw [xLoop]
    simp only
    split
    · next prev gap ov hf =>
      obtain ⟨l1, l2, hL, hov, hg, hge, hfail⟩ := findGap_some hf
      simp only [List.nil_append] at hov
      subst hov
      simp only [PQ.sort] at hL
      rw [hL] at hsp hss
      have hmem : ∀ x ∈ ov ++ prev :: l2, x ∈ pre := fun x hx => hqpre x (hsp.subset hx)
      have hprev : prev ∈ pre := hmem prev (by simp)
      subst hg
      have hsep := (hgap prev hprev).1.mp hge
      have hval := (hgap prev hprev).2 hge
      refine ⟨?_, ?_⟩
      · intro c hc
        rcases List.mem_cons.mp hc with rfl | hc
        · refine ⟨rfl, hget, hval, ?_, ?_, (prev :: l2) ++ rest, ?_, by simp, ?_⟩
          · have h1 := hsp.length_eq
            have h2 := hq.size
            simp at h1 ⊢; omega
          · intro o ho
            have h1 := hfail o ho
            rw [← Bool.not_eq_true, (hgap o (hmem o (by simp [ho]))).1] at h1
            exact lt_of_not_ge h1
          · simp only
            rw [htake]
            refine hq.perm.trans ?_
            rw [← List.append_assoc]
            exact hsp.symm.append_right rest
          · simp only
            rw [hdrop, hval]
            have hmax : ∀ a ∈ (prev :: l2) ++ rest, (pos a).rightX ≤ (pos prev).rightX := by
              intro a ha
              rcases List.mem_append.mp ha with ha | ha
              · rcases List.mem_cons.mp ha with rfl | ha
                · exact le_refl _
                · have h1 := (List.pairwise_append.mp hss).2.1
                  have h2 := (List.pairwise_cons.mp h1).1 a ha
                  rw [← Bool.not_eq_true] at h2
                  simp only [Comparators.rightXDesc] at h2
                  rw [larger_exact_of_decimal hn (hpp a (hmem a (by simp [ha]))).decimal.2.2.1
                    (hpp prev hprev).decimal.2.2.1] at h2
                  exact le_of_not_gt h2
              · exact hq.dominated a ha prev (hsp.subset (by simp))
            refine ⟨?_, ?_, ?_⟩
            · intro a ha b hbm
              have := hmax a ha
              have := hafter b hbm
              linarith
            · intro a ha
              have := hmax a ha
              linarith
            · intro b hbm
              have := hafter b hbm
              linarith
        · exact hrec.1 c hc
      · intro k hk1 hk2 hall
        by_cases hk : k = pre.length
        · subst hk
          rw [htake] at hall
          refine ⟨_, List.mem_cons_self, rfl, ?_⟩
          cases ov with
          | nil => rfl
          | cons o ov =>
            have h1 := hfail o (by simp)
            rw [← Bool.not_eq_true, (hgap o (hmem o (by simp))).1] at h1
            exact absurd (hall o (hmem o (by simp)) e hget) h1
        · obtain ⟨c, hc, hck⟩ := hrec.2 k (by omega) hk2 hall
          exact ⟨c, List.mem_cons_of_mem _ hc, hck⟩
    · next hf =>
      refine ⟨hrec.1, ?_⟩
      intro k hk1 hk2 hall
      by_cases hk : k = pre.length
      · subst hk
        rw [htake] at hall
        obtain ⟨x, hx⟩ := List.exists_mem_of_ne_nil q hq.nonempty
        have h1 := findGap_none hf x (by simp only [PQ.sort]; exact hsp.symm.subset hx)
        rw [← Bool.not_eq_true, (hgap x (hqpre x hx)).1] at h1
        exact absurd (hall x (hqpre x hx) e hget) h1
      · exact hrec.2 k (by omega) hk2 hall

theorem xCandidates_geometry {α : Type} {pos : α → Box} {lib : Lib α} (hl : LibContract pos lib)
    {n : ℕ} (hn : n ≤ 3) {minGap : ℚ} (hm : tol < minGap) (m : ℕ) {elements : List α}
    (hp : ∀ e ∈ elements, ParsedBox n (pos e)) :
    (∀ c ∈ xCandidates pos lib minGap m elements,
      GoodXCut pos minGap m (lib.sortLeftX elements) c) ∧
    (∀ k, 1 ≤ k → k < (lib.sortLeftX elements).length →
      (∀ a ∈ (lib.sortLeftX elements).take k, ∀ b, (lib.sortLeftX elements)[k]? = some b →
        (pos a).rightX + (minGap - tol) ≤ (pos b).leftX) →
      ∃ c ∈ xCandidates pos lib minGap m elements, c.posInElements = k ∧
        c.overlappingElements = []) := by
  obtain ⟨h1, h2⟩ := pairwise_leftX hl hn hp
  have hp' : ∀ e ∈ lib.sortLeftX elements, ParsedBox n (pos e) := fun e he => hp e (h1.subset he)
  unfold xCandidates
  cases hs : lib.sortLeftX elements with
  | nil => exact ⟨by simp, fun k _ h => by simp at h⟩
  | cons e0 es =>
    rw [hs] at h2 hp'
    have hpush : pushQ lib.popTop (m + 1) [] e0 = [e0] := by simp [pushQ, PQ.push]
    simp only [hpush]
    simpa using xLoop_geometry hl hn hm m
      (extent (fun e => (pos e).upperY) (fun e => (pos e).lowerY) (e0 :: es)).1
      (extent (fun e => (pos e).upperY) (fun e => (pos e).lowerY) (e0 :: es)).2 es [e0] [e0] []
      (by simpa using hp') (by simpa using h2) ⟨by simp, by simp, by simp, by simp⟩

/-- C19 and C20 (vertical cuts): at every chosen cut the groups fall into those left and those right
of the cut; apart from at most `m` elements on the left - exactly those listed as overlapping,
each of which comes closer than the minimum gap to the first element on the right - all
elements on the left end at least the minimum gap (minus the tolerance) before all elements on
the right begin, and the cut line runs strictly between them. -/
theorem c19_xCut_separates {α : Type} {pos : α → Box} {lib : Lib α} (hl : LibContract pos lib)
    {n : ℕ} (hn : n ≤ 3) {minGap : ℚ} (hm : tol < minGap) (m : ℕ) (choose : Choose α)
    {elements : List α} (hp : ∀ e ∈ elements, ParsedBox n (pos e)) :
    ∀ c ∈ (xCut pos lib minGap m choose elements).cuts, c.isChosen = true →
      ∃ left right others, (xCut pos lib minGap m choose elements).groups = left ++ right ∧
        left ≠ [] ∧ right ≠ [] ∧ c.x1 = c.x2 ∧
        left.flatten.Perm (c.overlappingElements ++ others) ∧ others ≠ [] ∧
        c.overlappingElements.length ≤ m ∧
        (∀ o ∈ c.overlappingElements, (pos c.elementAfter).leftX < (pos o).rightX + (minGap - tol)) ∧
        Separates (fun e => (pos e).leftX) (fun e => (pos e).rightX) (minGap - tol) c.x1
          others right.flatten := by
  intro c hc hch
  unfold xCut at hc ⊢
  by_cases hne : elements.isEmpty
  · rw [if_pos hne] at hc; simp at hc
  · rw [if_neg hne] at hc ⊢
    have hgood := goodCuts_applyChoice choose _ (lib.sortLeftX elements)
      (xCandidates_good pos lib minGap m elements)
    have hlen : 0 < (lib.sortLeftX elements).length := by
      have := hgood.inside c hc; omega
    obtain ⟨g1, g2, h1, h2, h3, h4, h5⟩ := splitGroups_boundary _ _ 0 hlen hgood c hc hch
    obtain ⟨c0, hc0, b, rfl⟩ := applyChoice_mem hc
    have hG := (xCandidates_geometry hl hn hm m hp).1 c0 hc0
    obtain ⟨others, hperm, hmem, hsep⟩ := hG.separates
    refine ⟨g1, g2, others, h1, h2, h3, hG.vertical, ?_, List.ne_nil_of_mem hmem, hG.few, hG.close, ?_⟩
    · rw [h4, List.drop_zero]; exact hperm
    · rw [h5]; exact hsep

/-- C20: every candidate (chosen or not) of a vertical cut lists at most `m` overlapping elements, and
every element left of the cut in sorted order that is not listed ends left of the cut. -/
theorem c20_overlap_bound {α : Type} {pos : α → Box} {lib : Lib α} (hl : LibContract pos lib)
    {n : ℕ} (hn : n ≤ 3) {minGap : ℚ} (hm : tol < minGap) (m : ℕ) (choose : Choose α)
    {elements : List α} (hp : ∀ e ∈ elements, ParsedBox n (pos e)) :
    ∀ c ∈ (xCut pos lib minGap m choose elements).cuts,
      c.overlappingElements.length ≤ m ∧
      ∃ others, ((lib.sortLeftX elements).take c.posInElements).Perm
          (c.overlappingElements ++ others) ∧
        Separates (fun e => (pos e).leftX) (fun e => (pos e).rightX) (minGap - tol) c.x1
          others ((lib.sortLeftX elements).drop c.posInElements) := by
  intro c hc
  unfold xCut at hc
  by_cases hne : elements.isEmpty
  · rw [if_pos hne] at hc; simp at hc
  · rw [if_neg hne] at hc
    obtain ⟨c0, hc0, b, rfl⟩ := applyChoice_mem hc
    have hG := (xCandidates_geometry hl hn hm m hp).1 c0 hc0
    obtain ⟨others, hperm, _, hsep⟩ := hG.separates
    exact ⟨hG.few, others, hperm, hsep⟩

/-- C20 (completeness, partial): a vertical gap crossed by no element is always found, whatever number
of crossings is allowed, and the candidate lists no overlapping element.  Missing for the full
claim: gaps crossed by 1 to `m` elements, see `c20_crossed_gap_missed`. -/
theorem c20_complete_partial {α : Type} {pos : α → Box} {lib : Lib α} (hl : LibContract pos lib)
    {n : ℕ} (hn : n ≤ 3) {minGap : ℚ} (hm : tol < minGap) (m : ℕ) (choose : Choose α)
    {elements : List α} (hp : ∀ e ∈ elements, ParsedBox n (pos e)) (left right : List α)
    (ha : left ≠ []) (hb : right ≠ []) (hs : lib.sortLeftX elements = left ++ right)
    (hgap : ∀ a ∈ left, ∀ b ∈ right, (pos a).rightX + minGap ≤ (pos b).leftX) :
    ∃ c ∈ (xCut pos lib minGap m choose elements).cuts, c.posInElements = left.length ∧
      c.overlappingElements = [] := by
  have hlen : 0 < right.length := List.length_pos_iff.mpr hb
  have hlen' : 0 < left.length := List.length_pos_iff.mpr ha
  obtain ⟨c, hc, hck⟩ := (xCandidates_geometry hl hn hm m hp).2 left.length hlen'
    (by rw [hs]; simp; omega) (by
      intro a haa b hbb
      rw [hs] at haa hbb
      have h1 : a ∈ left := by simpa using haa
      have h2 : b ∈ right := by
        rw [List.getElem?_append_right (Nat.le_refl _), Nat.sub_self] at hbb
        exact List.mem_of_getElem? hbb
      have := hgap a h1 b h2
      have := tol_pos
      linarith)
  have hne : ¬ elements.isEmpty = true := by
    intro h0
    have : elements = [] := by simpa using h0
    subst this
    have := (pairwise_leftX hl hn hp).1.length_eq
    rw [hs] at this; simp at this; exact ha this.1
  unfold xCut
  rw [if_neg hne]
  obtain ⟨i, hi, rfl⟩ := List.mem_iff_getElem.mp hc
  refine ⟨(applyChoice choose (xCandidates pos lib minGap m elements) (lib.sortLeftX elements))[i]'(by
    simpa [applyChoice] using hi), List.getElem_mem _, ?_⟩
  simp only [applyChoice, List.getElem_mapIdx]
  exact hck

/-! ### A concrete library and concrete elements -/

/-- A heap that returns the first element no other element is before. -/
def popFirst {α : Type} (lt : α → α → Bool) (q : List α) : Option (α × List α) :=
  match (Spec.insSort lt q).reverse with
  | [] => none
  | t :: rest => some (t, rest.reverse)

/-- A library satisfying all promises, used for concrete runs. -/
def refLib {α : Type} (pos : α → Box) : Lib α where
  sortLeftX := Spec.insSort fun a b => Comparators.leftXAsc (pos a) (pos b)
  sortUpperY := Spec.insSort fun a b => Comparators.upperYAsc (pos a) (pos b)
  sortRightXDesc := Spec.insSort fun a b => Comparators.rightXDesc (pos a) (pos b)
  popTop := popFirst fun a b => Comparators.rightXDesc (pos a) (pos b)

theorem refLib_contract {α : Type} (pos : α → Box) : LibContract pos (refLib pos) where
  sortLeftX := Spec.insSort_contract _
  sortUpperY := Spec.insSort_contract _
  sortRightX := Spec.insSort_contract _
  heap := by
    intro q hne hswo
    obtain ⟨hp, hs⟩ := Spec.insSort_contract _ q hswo
    have hne' : Spec.insSort (fun a b => Comparators.rightXDesc (pos a) (pos b)) q ≠ [] := by
      intro h0
      rw [h0] at hp
      exact hne (List.Perm.nil_eq hp).symm
    obtain ⟨l, t, hlt⟩ := (List.eq_nil_or_concat _).resolve_left hne'
    simp only [List.concat_eq_append] at hlt
    refine ⟨t, l, by simp [refLib, popFirst, hlt], ?_, ?_⟩
    · refine hp.symm.trans ?_
      rw [hlt]
      exact List.perm_append_comm
    · intro x hx
      have hx' := hp.symm.subset hx
      rw [hlt] at hs hx'
      rcases List.mem_append.mp hx' with h | h
      · exact (List.pairwise_append.mp hs).2.2 x h t (by simp)
      · simp only [List.mem_singleton] at h
        subst h
        exact hswo.irrefl x hx

theorem refLib_permOn {α : Type} (pos : α → Box) (Q : α → Prop) :
    PermOn Q (refLib pos).sortLeftX ∧ PermOn Q (refLib pos).sortUpperY :=
  ⟨fun l _ => Spec.insSort_alwaysPerm _ l, fun l _ => Spec.insSort_alwaysPerm _ l⟩

/-- A box with the given horizontal extent. -/
def hbox (l r : ℚ) : Box := { pageNum := 1, leftX := l, rightX := r, upperY := 0, lowerY := 10 }

theorem hbox_parsed (l r : ℤ) (h : l ≤ r) : ParsedBox 1 (hbox l r) := by
  have hr : ∀ z : ℤ, (∃ x, ((z : ℤ) : ℚ) = roundTo x 1) := by
    intro z
    refine ⟨z, ?_⟩
    rw [roundTo_eq]
    have : ((z : ℚ) * 10 ^ 1) = ((z * 10 : ℤ) : ℚ) := by push_cast; ring
    rw [this, stdRound_int]; push_cast; ring
  refine ⟨⟨hr l, by simpa [hbox] using hr 0, hr r, by simpa [hbox] using hr 10⟩, ?_, ?_, ?_⟩
  · simp [Upright, hbox]
  · simpa [hbox] using h
  · norm_num [hbox]

/-- The hypotheses of C19 and C20 are met by a page with two columns, and a cut is found there. -/
example : (∀ e ∈ [hbox (0 : ℤ) (10 : ℤ), hbox (2 : ℤ) (8 : ℤ), hbox (20 : ℤ) (30 : ℤ)],
      ParsedBox 1 (id e)) ∧
    LibContract id (refLib (id : Box → Box)) ∧ tol < 5 := by
  refine ⟨?_, refLib_contract _, by norm_num [tol]⟩
  intro e he
  simp only [List.mem_cons, List.not_mem_nil, or_false] at he
  rcases he with rfl | rfl | rfl <;> exact hbox_parsed _ _ (by norm_num)

example : (xCut id (refLib id) 5 0 (fun _ _ _ => true)
    [hbox 20 30, hbox 0 10, hbox 2 8]).groups = [[hbox 0 10, hbox 2 8], [hbox 20 30]] := by
  decide +kernel

/-- C20 (refuted part, finding): with one allowed crossing, the gap between `[1,10]` and `[50,60]`,
crossed only by `[0,100]`, is not found: `[1,10]` never enters the queue because its right edge is
not larger than the smallest one in the (not yet full) queue. -/
theorem c20_crossed_gap_missed :
    (xCut id (refLib id) 5 1 (fun _ _ _ => true) [hbox 0 100, hbox 1 10, hbox 50 60]).cuts.length = 0
    := by
  decide +kernel

/-- ... whereas it is found when the long element starts last. -/
example :
    (xCut id (refLib id) 5 1 (fun _ _ _ => true) [hbox 0 10, hbox 1 100, hbox 50 60]).groups
      = [[hbox 0 10, hbox 1 100], [hbox 50 60]] := by
  decide +kernel

end Verif.Props
