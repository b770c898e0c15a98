import Verif.Props.MoveWords
import Verif.Spec.Order

/-!
# C81: moving the contents — the XY-cut
-/

namespace Verif.Props

open Verif.Math Verif.Elements Verif.XYCut Verif.Spec

section

variable {α : Type} {f : α → α} {dx dy : ℚ} {pos : α → Box} {lib : Lib α}

theorem mv_findGap (hpos : ∀ a, pos (f a) = moveBox dx dy (pos a)) (g : ℚ) (e : α) (l : List α) :
    ∀ ov, findGap pos g (f e) (l.map f) (ov.map f) =
      (findGap pos g e l ov).map fun r => (f r.1, r.2.1, r.2.2.map f) := by
  induction l with
  | nil => intro ov; rfl
  | cons a l ih =>
    intro ov
    simp only [List.map_cons, findGap, hpos, mv_hgap]
    by_cases h : equalOrLarger (computeHorizontalGap (pos a) (pos e)) g tol
    · simp only [h, if_true, Option.map_some]
    · simp only [h, Bool.false_eq_true, if_false]
      have := ih (ov ++ [a])
      simp only [List.map_append, List.map_cons, List.map_nil] at this
      exact this

theorem mv_pushQ (hl : SteadyCuts f lib) (n : ℕ) (q : List α) (v : α) :
    pushQ lib.popTop n (q.map f) (f v) = (pushQ lib.popTop n q v).map f := by
  simp only [pushQ, PQ.push, List.length_map]
  by_cases h : q.length = n
  · simp only [h, if_true, hl.popTop]
    cases lib.popTop q with
    | none => rfl
    | some r => simp
  · simp only [h, if_false, List.map_append, List.map_cons, List.map_nil]

theorem mv_updateQ (hpos : ∀ a, pos (f a) = moveBox dx dy (pos a)) (hl : SteadyCuts f lib) (n : ℕ) (q : List α) (e : α) :
    updateQ pos lib.popTop n (q.map f) (f e) = (updateQ pos lib.popTop n q e).map f := by
  simp only [updateQ, hl.popTop]
  cases lib.popTop q with
  | none => rfl
  | some r =>
    have h1 : ∀ b : Box, (moveBox dx dy b).rightX = b.rightX + dx := fun _ => rfl
    simp only [Option.map_some, hpos, h1, mv_larger, mv_pushQ hl]
    by_cases h : larger (pos e).rightX (pos r.1).rightX tol
    · simp only [h, if_true]
    · simp only [h, Bool.false_eq_true, if_false]

theorem mv_xLoop (hpos : ∀ a, pos (f a) = moveBox dx dy (pos a)) (hl : SteadyCuts f lib) (g : ℚ) (m : ℕ) (a b : ℚ)
    (es : List α) : ∀ (p : ℕ) (q : List α),
    xLoop pos lib g m (a + dy) (b + dy) p (q.map f) (es.map f) = (xLoop pos lib g m a b p q es).map (moveCut f dx dy) := by
  induction es with
  | nil => intro p q; rfl
  | cons e es ih =>
    intro p q
    have hg := mv_findGap hpos g e (PQ.sort lib.sortRightXDesc q) []
    simp only [List.map_nil, PQ.sort] at hg
    simp only [List.map_cons, xLoop, mv_updateQ hpos hl, PQ.sort, hl.sortRightXDesc, hg]
    cases findGap pos g e (lib.sortRightXDesc q) [] with
    | none => simp only [Option.map_none]; exact ih _ _
    | some r =>
      obtain ⟨prev, gap, ov⟩ := r
      simp only [Option.map_some, ih, List.map_cons, List.cons.injEq, and_true]
      simp only [moveCut, hpos, moveBox, mv_sub, Cut.mk.injEq, true_and, and_true]
      exact ⟨by ring, by ring⟩

theorem mv_extent {lo hi : α → ℚ} {c : ℚ} (hlo : ∀ a, lo (f a) = lo a + c) (hhi : ∀ a, hi (f a) = hi a + c)
    {s : List α} (hne : s ≠ []) (hs : ∀ e ∈ s, (lo e ≤ dblMax ∧ lo e + c ≤ dblMax ∧ dblMin ≤ hi e ∧ dblMin ≤ hi e + c) ∨ c = 0) :
    extent lo hi (s.map f) = ((extent lo hi s).1 + c, (extent lo hi s).2 + c) := by
  have key : ∀ (s : List α) (x y : ℚ), (s.map f).foldl (fun acc e => (minimum acc.1 (lo e), maximum acc.2 (hi e))) (x + c, y + c) =
      ((s.foldl (fun acc e => (minimum acc.1 (lo e), maximum acc.2 (hi e))) (x, y)).1 + c,
       (s.foldl (fun acc e => (minimum acc.1 (lo e), maximum acc.2 (hi e))) (x, y)).2 + c) := by
    intro s
    induction s with
    | nil => intro x y; rfl
    | cons e s ih =>
      intro x y
      simp only [List.map_cons, List.foldl_cons, hlo, hhi, mv_minimum, mv_maximum]
      exact ih _ _
  cases s with
  | nil => exact absurd rfl hne
  | cons e s =>
    rcases hs e (by simp) with ⟨h1, h2, h3, h4⟩ | hz
    swap
    · subst hz
      have := key (e :: s) dblMax dblMin
      simp only [add_zero] at this ⊢
      exact this
    simp only [extent, List.map_cons, List.foldl_cons, hlo, hhi]
    simp only [minimum_eq_min dblMax, maximum_eq_max dblMin, min_eq_right h1, min_eq_right h2, max_eq_right h3, max_eq_right h4]
    exact key s _ _

theorem mv_xCandidates (hpos : ∀ a, pos (f a) = moveBox dx dy (pos a)) (hl : SteadyCuts f lib) (g : ℚ) (m : ℕ)
    {es : List α} (hs : ∀ e ∈ lib.sortLeftX es, Movable dx dy (pos e) ∨ dx = 0 ∧ dy = 0) :
    xCandidates pos lib g m (es.map f) = (xCandidates pos lib g m es).map (moveCut f dx dy) := by
  simp only [xCandidates, hl.sortLeftX]
  cases hS : lib.sortLeftX es with
  | nil => rfl
  | cons e0 rest =>
    rw [hS] at hs
    have he := mv_extent (f := f) (lo := fun e => (pos e).upperY) (hi := fun e => (pos e).lowerY) (c := dy)
      (fun a => by simp only [hpos, moveBox]) (fun a => by simp only [hpos, moveBox]) (s := e0 :: rest) (by simp) (by
        intro e he
        rcases hs e he with hm | hz
        swap
        · exact .inr hz.2
        have := mv_movable_iff.mp hm
        refine .inl ?_
        exact ⟨this.2.2.1.2.1, this.2.2.1.2.2.2, this.2.2.2.1, this.2.2.2.2.2.1⟩)
    simp only [List.map_cons] at he ⊢
    rw [he]
    have hq := mv_pushQ hl (m + 1) [] e0
    rw [List.map_nil] at hq
    rw [hq]
    exact mv_xLoop hpos hl g m _ _ rest 1 _

/-- The strategy `choose'` does with moved cuts and elements what `choose` does with the original ones. -/
def mv_Choose (f : α → α) (dx dy : ℚ) (Q : α → Prop) (choose choose' : Choose α) : Prop :=
  ∀ cuts s i, (∀ e ∈ s, Q e) → choose' (cuts.map (moveCut f dx dy)) (s.map f) i = choose cuts s i

theorem mv_applyChoice {Q : α → Prop} {choose choose' : Choose α} (hc : mv_Choose f dx dy Q choose choose')
    (cuts : List (Cut α)) {s : List α} (hs : ∀ e ∈ s, Q e) :
    applyChoice choose' (cuts.map (moveCut f dx dy)) (s.map f) = (applyChoice choose cuts s).map (moveCut f dx dy) := by
  simp only [applyChoice, mv_mapIdx_map, mv_map_mapIdx]
  congr 1
  funext i c
  rw [hc cuts s i hs]
  rfl

theorem mv_splitGroups (s : List α) (cuts : List (Cut α)) : ∀ n,
    splitGroups (s.map f) n (cuts.map (moveCut f dx dy)) = (splitGroups s n cuts).map (List.map f) := by
  induction cuts with
  | nil => intro n; simp [splitGroups]
  | cons c cuts ih =>
    intro n
    have h1 : (moveCut f dx dy c).isChosen = c.isChosen := rfl
    have h2 : (moveCut f dx dy c).posInElements = c.posInElements := rfl
    simp only [List.map_cons, splitGroups, h1, h2, ih]
    by_cases h : c.isChosen
    · simp only [h, if_true, List.map_cons, List.map_take, List.map_drop]
    · simp only [h, Bool.false_eq_true, if_false]

/-- The result of a cut, moved. -/
def mv_result (f : α → α) (dx dy : ℚ) (r : Result α) : Result α :=
  ⟨r.groups.map (List.map f), r.cuts.map (moveCut f dx dy), r.ok⟩

theorem mv_xCut (hpos : ∀ a, pos (f a) = moveBox dx dy (pos a)) (hl : SteadyCuts f lib) {Q : α → Prop}
    (hQ : ∀ a, Q a → Movable dx dy (pos a) ∨ dx = 0 ∧ dy = 0) (hp : PermOn Q lib.sortLeftX) {choose choose' : Choose α}
    (hc : mv_Choose f dx dy Q choose choose') (g : ℚ) (m : ℕ) {es : List α} (hes : ∀ e ∈ es, Q e) :
    xCut pos lib g m choose' (es.map f) = mv_result f dx dy (xCut pos lib g m choose es) := by
  simp only [xCut, List.isEmpty_map]
  by_cases hE : es.isEmpty
  · simp only [hE, if_true]; rfl
  · have hs : ∀ e ∈ lib.sortLeftX es, Q e := fun e he => hes e ((hp es hes).subset he)
    simp only [hE, Bool.false_eq_true, if_false, mv_xCandidates hpos hl g m (fun e he => hQ e (hs e he)), hl.sortLeftX,
      mv_applyChoice hc _ hs, mv_splitGroups, mv_result, List.any_map]
    rfl

theorem mv_yLoop (hpos : ∀ a, pos (f a) = moveBox dx dy (pos a)) (g : ℚ) (a b : ℚ) (es : List α) : ∀ (p : ℕ) (big : α),
    yLoop pos g (a + dx) (b + dx) p (f big) (es.map f) = (yLoop pos g a b p big es).map (moveCut f dx dy) := by
  induction es with
  | nil => intro p big; rfl
  | cons e es ih =>
    intro p big
    have hb : (if larger (pos (f e)).lowerY (pos (f big)).lowerY tol then f e else f big) =
        f (if larger (pos e).lowerY (pos big).lowerY tol then e else big) := by
      have h1 : ∀ b : Box, (moveBox dx dy b).lowerY = b.lowerY + dy := fun _ => rfl
      simp only [hpos, h1, mv_larger]
      by_cases h : larger (pos e).lowerY (pos big).lowerY tol
      · simp only [h, if_true]
      · simp only [h, Bool.false_eq_true, if_false]
    simp only [List.map_cons, yLoop, hb]
    rw [hpos, hpos, mv_vgap]
    by_cases h : equalOrLarger (computeVerticalGap (pos big) (pos e)) g tol
    · simp only [h, if_true, List.map_cons, ih, List.cons.injEq, and_true]
      simp only [moveCut, moveBox, mv_sub, Cut.mk.injEq, true_and, and_true, List.map_nil]
      exact ⟨by ring, by ring⟩
    · simp only [h, Bool.false_eq_true, if_false, ih]

theorem mv_yCandidates (hpos : ∀ a, pos (f a) = moveBox dx dy (pos a)) (hl : SteadyCuts f lib) (g : ℚ)
    {es : List α} (hs : ∀ e ∈ lib.sortUpperY es, Movable dx dy (pos e) ∨ dx = 0 ∧ dy = 0) :
    yCandidates pos lib g (es.map f) = (yCandidates pos lib g es).map (moveCut f dx dy) := by
  simp only [yCandidates, hl.sortUpperY]
  cases hS : lib.sortUpperY es with
  | nil => rfl
  | cons e0 rest =>
    rw [hS] at hs
    have he := mv_extent (f := f) (lo := fun e => (pos e).leftX) (hi := fun e => (pos e).rightX) (c := dx)
      (fun a => by simp only [hpos, moveBox]) (fun a => by simp only [hpos, moveBox]) (s := e0 :: rest) (by simp) (by
        intro e he
        rcases hs e he with hm | hz
        swap
        · exact .inr hz.1
        have := mv_movable_iff.mp hm
        refine .inl ?_
        exact ⟨this.1.2.1, this.1.2.2.2, this.2.1.1, this.2.1.2.2.1⟩)
    simp only [List.map_cons] at he ⊢
    rw [he]
    exact mv_yLoop hpos g _ _ rest 1 _

theorem mv_yCut (hpos : ∀ a, pos (f a) = moveBox dx dy (pos a)) (hl : SteadyCuts f lib) {Q : α → Prop}
    (hQ : ∀ a, Q a → Movable dx dy (pos a) ∨ dx = 0 ∧ dy = 0) (hp : PermOn Q lib.sortUpperY) {choose choose' : Choose α}
    (hc : mv_Choose f dx dy Q choose choose') (g : ℚ) {es : List α} (hes : ∀ e ∈ es, Q e) :
    yCut pos lib g choose' (es.map f) = mv_result f dx dy (yCut pos lib g choose es) := by
  simp only [yCut, List.isEmpty_map]
  by_cases hE : es.isEmpty
  · simp only [hE, if_true]; rfl
  · have hs : ∀ e ∈ lib.sortUpperY es, Q e := fun e he => hes e ((hp es hes).subset he)
    simp only [hE, Bool.false_eq_true, if_false, mv_yCandidates hpos hl g (fun e he => hQ e (hs e he)), hl.sortUpperY,
      mv_applyChoice hc _ hs, mv_splitGroups, mv_result, List.any_map]
    rfl

/-! ### The recursion -/

theorem mv_splitGroups_mem (s : List α) (cuts : List (Cut α)) : ∀ n, ∀ g ∈ splitGroups s n cuts, ∀ e ∈ g, e ∈ s := by
  induction cuts with
  | nil =>
    intro n g hg e he
    simp only [splitGroups, List.mem_singleton] at hg
    subst hg
    exact List.mem_of_mem_drop he
  | cons c cuts ih =>
    intro n g hg e he
    simp only [splitGroups] at hg
    by_cases h : c.isChosen
    · rw [if_pos h] at hg
      rcases List.mem_cons.mp hg with rfl | hg
      · exact List.mem_of_mem_drop (List.mem_of_mem_take he)
      · exact ih _ g hg e he
    · rw [if_neg h] at hg
      exact ih _ g hg e he

theorem mv_xCut_mem {Q : α → Prop} (hp : PermOn Q lib.sortLeftX) {choose : Choose α} {g : ℚ} {m : ℕ} {es : List α}
    (hes : ∀ e ∈ es, Q e) : ∀ gr ∈ (xCut pos lib g m choose es).groups, ∀ e ∈ gr, Q e := by
  intro gr hgr e he
  simp only [xCut] at hgr
  by_cases hE : es.isEmpty
  · rw [if_pos hE] at hgr; cases hgr
  · rw [if_neg hE] at hgr
    exact hes e ((hp es hes).subset (mv_splitGroups_mem _ _ _ gr hgr e he))

theorem mv_yCut_mem {Q : α → Prop} (hp : PermOn Q lib.sortUpperY) {choose : Choose α} {g : ℚ} {es : List α}
    (hes : ∀ e ∈ es, Q e) : ∀ gr ∈ (yCut pos lib g choose es).groups, ∀ e ∈ gr, Q e := by
  intro gr hgr e he
  simp only [yCut] at hgr
  by_cases hE : es.isEmpty
  · rw [if_pos hE] at hgr; cases hgr
  · rw [if_neg hE] at hgr
    exact hes e ((hp es hes).subset (mv_splitGroups_mem _ _ _ gr hgr e he))

/-- Groups and cuts, moved. -/
def mv_out (f : α → α) (dx dy : ℚ) (o : Out α) : Out α := (o.1.map (List.map f), o.2.map (moveCut f dx dy))

theorem mv_forGroups {Q : α → Prop} {F F' : List α → Option (Out α)}
    (hF : ∀ g, (∀ e ∈ g, Q e) → F' (g.map f) = (F g).map (mv_out f dx dy)) (gs : List (List α))
    (hgs : ∀ g ∈ gs, ∀ e ∈ g, Q e) :
    forGroups F' (gs.map (List.map f)) = (forGroups F gs).map (mv_out f dx dy) := by
  induction gs with
  | nil => rfl
  | cons g gs ih =>
    simp only [List.map_cons, forGroups, hF g (hgs g (by simp)), ih fun g' h' => hgs g' (by simp [h'])]
    cases F g with
    | none => rfl
    | some o =>
      cases forGroups F gs with
      | none => rfl
      | some o' => simp [mv_out]

theorem mv_xyCutF {P P' : Params α} (hP : P'.pos = P.pos ∧ P'.lib = P.lib ∧ P'.minXGap = P.minXGap ∧ P'.minYGap = P.minYGap ∧
      P'.maxOverlap = P.maxOverlap)
    (hpos : ∀ a, P.pos (f a) = moveBox dx dy (P.pos a)) (hl : SteadyCuts f P.lib) {Q : α → Prop}
    (hQ : ∀ a, Q a → Movable dx dy (P.pos a) ∨ dx = 0 ∧ dy = 0) (hpx : PermOn Q P.lib.sortLeftX) (hpy : PermOn Q P.lib.sortUpperY)
    (hcx : mv_Choose f dx dy Q P.chooseX P'.chooseX) (hcy : mv_Choose f dx dy Q P.chooseY P'.chooseY) :
    ∀ (n : ℕ) (es : List α), (∀ e ∈ es, Q e) →
      xyCutF P' n (es.map f) = (xyCutF P n es).map (mv_out f dx dy) := by
  obtain ⟨p1, p2, p3, p4, p5⟩ := hP
  have hdiv : ∀ (F F' : List α → Option (Out α)), (∀ g, (∀ e ∈ g, Q e) → F' (g.map f) = (F g).map (mv_out f dx dy)) →
      ∀ g, (∀ e ∈ g, Q e) → divideGroup P' F' (g.map f) = (divideGroup P F g).map (mv_out f dx dy) := by
    intro F F' hF g hg
    simp only [divideGroup, p1, p2, p4]
    rw [mv_yCut hpos hl hQ hpy hcy P.minYGap hg]
    have hmem := mv_yCut_mem (pos := P.pos) (lib := P.lib) hpy (choose := P.chooseY) (g := P.minYGap) hg
    generalize yCut P.pos P.lib P.minYGap P.chooseY g = r at hmem ⊢
    simp only [mv_result]
    by_cases hk : r.ok
    · simp only [hk, if_true]
      rw [mv_forGroups hF _ hmem]
      cases forGroups F r.groups with
      | none => rfl
      | some o => simp [mv_out]
    · simp only [hk, Bool.false_eq_true, if_false]
      rfl
  intro n
  induction n with
  | zero =>
    intro es _
    simp only [xyCutF, List.isEmpty_map]
    by_cases hE : es.isEmpty
    · simp only [hE, if_true]; rfl
    · simp only [hE, Bool.false_eq_true, if_false]; rfl
  | succ n ih =>
    intro es hes
    simp only [xyCutF, List.isEmpty_map]
    by_cases hE : es.isEmpty
    · simp only [hE, if_true]; rfl
    · simp only [hE, Bool.false_eq_true, if_false, p1, p2, p3, p5]
      rw [mv_xCut hpos hl hQ hpx hcx P.minXGap P.maxOverlap hes]
      have hmem := mv_xCut_mem (pos := P.pos) (lib := P.lib) hpx (choose := P.chooseX) (g := P.minXGap) (m := P.maxOverlap) hes
      generalize xCut P.pos P.lib P.minXGap P.maxOverlap P.chooseX es = r at hmem ⊢
      simp only [mv_result]
      by_cases hk : r.ok
      · simp only [hk, if_true]
        rw [mv_forGroups (hdiv _ _ ih) _ hmem]
        cases forGroups (divideGroup P (xyCutF P n)) r.groups with
        | none => rfl
        | some o => simp [mv_out]
      · simp only [hk, Bool.false_eq_true, if_false]
        rw [hdiv _ _ ih es hes]
        cases divideGroup P (xyCutF P n) es with
        | none => rfl
        | some o => simp [mv_out]

theorem mv_xyCut {P P' : Params α} (hP : P'.pos = P.pos ∧ P'.lib = P.lib ∧ P'.minXGap = P.minXGap ∧ P'.minYGap = P.minYGap ∧
      P'.maxOverlap = P.maxOverlap)
    (hpos : ∀ a, P.pos (f a) = moveBox dx dy (P.pos a)) (hl : SteadyCuts f P.lib) {Q : α → Prop}
    (hQ : ∀ a, Q a → Movable dx dy (P.pos a) ∨ dx = 0 ∧ dy = 0) (hpx : PermOn Q P.lib.sortLeftX) (hpy : PermOn Q P.lib.sortUpperY)
    (hcx : mv_Choose f dx dy Q P.chooseX P'.chooseX) (hcy : mv_Choose f dx dy Q P.chooseY P'.chooseY)
    {es : List α} (hes : ∀ e ∈ es, Q e) : xyCut P' (es.map f) = mv_out f dx dy (xyCut P es) := by
  simp only [xyCut, List.length_map]
  rw [mv_xyCutF hP hpos hl hQ hpx hpy hcx hcy _ es hes]
  cases xyCutF P es.length es with
  | none => rfl
  | some o => rfl

end

end Verif.Props
