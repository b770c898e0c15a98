import Verif.Spec.Guillotine
import Verif.Props.PageSegmentation

/-!
# C71: page segments are divided by white strips
-/

namespace Verif.Props

open Verif.XYCut Verif.Math Verif.Elements Verif.Spec Verif.PageSegmentation

theorem gu_perm {α : Type} {pos : α → Box} {gx gy : ℚ} {m : ℕ} {es es' : List α} {gs : List (List α)}
    (h : CutInto pos gx gy m es gs) (hp : es.Perm es') : CutInto pos gx gy m es' gs := by
  cases h with
  | whole h1 h2 => exact .whole h1 (h2.trans hp)
  | horizontal h1 h2 h3 h4 h5 h6 => exact .horizontal (h1.trans hp) h2 h3 h4 h5 h6
  | vertical h1 h2 h3 h4 h5 h6 => exact .vertical (h1.trans hp) h2 h3 h4 h5 h6

/-- Every boundary between two groups is a chosen cut. -/
theorem gu_boundary {α : Type} (s : List α) :
    ∀ (cuts : List (Cut α)) (prev : ℕ), prev < s.length → GoodCuts (prev + 1) s.length cuts →
      ∀ g1 g2, splitGroups s prev cuts = g1 ++ g2 → g1 ≠ [] → g2 ≠ [] →
        ∃ c ∈ cuts, c.isChosen = true ∧ g1.flatten = (s.take c.posInElements).drop prev ∧ g2.flatten = s.drop c.posInElements := by
  intro cuts
  induction cuts with
  | nil =>
    intro prev _ _ g1 g2 h h1 h2
    have := congrArg List.length h
    have l1 := List.length_pos_iff.mpr h1
    have l2 := List.length_pos_iff.mpr h2
    simp [splitGroups] at this
    omega
  | cons d cs ih =>
    intro prev hp hg g1 g2 h h1 h2
    have hsort := List.pairwise_cons.mp hg.sorted
    have hd := hg.inside d (by simp)
    have hcs : GoodCuts (d.posInElements + 1) s.length cs :=
      ⟨fun x hx => ⟨by have := hsort.1 x hx; omega, (hg.inside x (by simp [hx])).2⟩, hsort.2⟩
    rw [splitGroups] at h
    split at h
    · next hch =>
      obtain ⟨g, g1', rfl⟩ := List.exists_cons_of_ne_nil h1
      rw [List.cons_append, List.cons.injEq] at h
      obtain ⟨h3, h4⟩ := h
      have htd : ∀ k, (s.drop prev).take (k - prev) = (s.take k).drop prev := by
        intro k; rw [List.drop_take]
      by_cases hn : g1' = []
      · subst hn
        refine ⟨d, by simp, hch, ?_, ?_⟩
        · rw [← h3, htd]; simp
        · rw [List.nil_append] at h4
          rw [← h4]
          exact (splitGroups_spec s cs d.posInElements hd.2 hcs).1
      · obtain ⟨c, hc, hcc, e1, e2⟩ := ih d.posInElements hd.2 hcs g1' g2 h4 hn h2
        refine ⟨c, by simp [hc], hcc, ?_, e2⟩
        have hlt := hsort.1 c hc
        rw [List.flatten_cons, e1, ← h3]
        rw [htd]
        have k1 : (s.take d.posInElements).drop prev
            = ((s.take c.posInElements).drop prev).take (d.posInElements - prev) := by
          rw [List.drop_take, List.drop_take, List.take_take]
          congr 1
          omega
        have k2 : (s.take c.posInElements).drop d.posInElements
            = ((s.take c.posInElements).drop prev).drop (d.posInElements - prev) := by
          rw [List.drop_drop]; congr 1; omega
        rw [k1, k2, List.take_append_drop]
    · obtain ⟨c, hc, r⟩ := ih prev hp (hcs.weaken (by omega)) g1 g2 h h1 h2
      exact ⟨c, by simp [hc], r⟩

/-- Groups pairwise divided as wholes, each cut into its parts: a horizontal version and a vertical one. -/
theorem gu_across {α : Type} {pos : α → Box} {gx gy : ℚ} {m : ℕ} (f : List α → Option (Out α)) :
    ∀ (gs : List (List α)) (out : Out α), gs ≠ [] → (∀ g ∈ gs, g ≠ []) → forGroups f gs = some out →
      (∀ g ∈ gs, ∀ o, f g = some o → CutInto pos gx gy m g o.1) →
      (∀ g1 g2, gs = g1 ++ g2 → g1 ≠ [] → g2 ≠ [] → ∀ a ∈ g1.flatten, ∀ b ∈ g2.flatten, (pos a).lowerY + gy ≤ (pos b).upperY) →
      CutInto pos gx gy m gs.flatten out.1 := by
  intro gs
  induction gs with
  | nil => intro out h; exact absurd rfl h
  | cons g gs ih =>
    intro out _ hne hf hc hsep
    rw [forGroups] at hf
    cases hfg : f g with
    | none => rw [hfg] at hf; simp at hf
    | some o1 =>
      cases hfs : forGroups f gs with
      | none => rw [hfg, hfs] at hf; simp at hf
      | some o2 =>
        rw [hfg, hfs] at hf
        simp only [Option.some.injEq] at hf
        subst hf
        have h1 := hc g (by simp) o1 hfg
        by_cases hgs : gs = []
        · subst hgs
          simp only [forGroups, Option.some.injEq] at hfs
          subst hfs
          simpa using h1
        · have h2 := ih o2 hgs (fun x hx => hne x (by simp [hx])) hfs (fun x hx => hc x (by simp [hx])) (by
            intro g1 g2 e n1 n2 a ha b hb
            exact hsep (g :: g1) g2 (by rw [e]; rfl) (by simp) n2 a (by simp [List.mem_flatten.mp ha]) b hb)
          refine .horizontal (above := g) (below := gs.flatten) (by simp) (hne g (by simp)) ?_ ?_ h1 h2
          · obtain ⟨x, xs, rfl⟩ := List.exists_cons_of_ne_nil hgs
            have := hne x (by simp)
            obtain ⟨y, ys, rfl⟩ := List.exists_cons_of_ne_nil this
            simp
          · intro a ha b hb
            exact hsep [g] gs rfl (by simp) hgs a (by simpa using ha) b hb

theorem gu_reaching_mono {α : Type} {pos : α → Box} {gx : ℚ} {l l' r : List α} (h : l.Sublist l') :
    (reaching pos gx l r).length ≤ (reaching pos gx l' r).length :=
  (h.filter _).length_le

theorem gu_down {α : Type} {pos : α → Box} {gx gy : ℚ} {m : ℕ} (f : List α → Option (Out α)) :
    ∀ (gs : List (List α)) (out : Out α), gs ≠ [] → (∀ g ∈ gs, g ≠ []) → forGroups f gs = some out →
      (∀ g ∈ gs, ∀ o, f g = some o → CutInto pos gx gy m g o.1) →
      (∀ g1 g2, gs = g1 ++ g2 → g1 ≠ [] → g2 ≠ [] → (reaching pos gx g1.flatten g2.flatten).length ≤ m) →
      CutInto pos gx gy m gs.flatten out.1 := by
  intro gs
  induction gs with
  | nil => intro out h; exact absurd rfl h
  | cons g gs ih =>
    intro out _ hne hf hc hsep
    rw [forGroups] at hf
    cases hfg : f g with
    | none => rw [hfg] at hf; simp at hf
    | some o1 =>
      cases hfs : forGroups f gs with
      | none => rw [hfg, hfs] at hf; simp at hf
      | some o2 =>
        rw [hfg, hfs] at hf
        simp only [Option.some.injEq] at hf
        subst hf
        have h1 := hc g (by simp) o1 hfg
        by_cases hgs : gs = []
        · subst hgs
          simp only [forGroups, Option.some.injEq] at hfs
          subst hfs
          simpa using h1
        · have h2 := ih o2 hgs (fun x hx => hne x (by simp [hx])) hfs (fun x hx => hc x (by simp [hx])) (by
            intro g1 g2 e n1 n2
            refine le_trans (gu_reaching_mono ?_) (hsep (g :: g1) g2 (by rw [e]; rfl) (by simp) n2)
            rw [List.flatten_cons]
            exact List.sublist_append_right _ _)
          refine .vertical (left := g) (right := gs.flatten) (by simp) (hne g (by simp)) ?_ ?_ h1 h2
          · obtain ⟨x, xs, rfl⟩ := List.exists_cons_of_ne_nil hgs
            have := hne x (by simp)
            obtain ⟨y, ys, rfl⟩ := List.exists_cons_of_ne_nil this
            simp
          · have := hsep [g] gs rfl (by simp) hgs
            simpa using this

theorem gu_y {α : Type} {pos : α → Box} {lib : Lib α} (hl : LibContract pos lib) {n : ℕ} (hn : n ≤ 3) {minGap : ℚ} (hm : tol < minGap)
    (choose : Choose α) {elements : List α} (hp : ∀ e ∈ elements, ParsedBox n (pos e)) (g1 g2 : List (List α))
    (h : (yCut pos lib minGap choose elements).groups = g1 ++ g2) (n1 : g1 ≠ []) (n2 : g2 ≠ []) :
    ∀ a ∈ g1.flatten, ∀ b ∈ g2.flatten, (pos a).lowerY + (minGap - tol) ≤ (pos b).upperY := by
  unfold yCut at h
  by_cases hne : elements.isEmpty
  · rw [if_pos hne] at h
    obtain ⟨x, xs, rfl⟩ := List.exists_cons_of_ne_nil n1
    simp at h
  · rw [if_neg hne] at h
    have hgood := goodCuts_applyChoice choose _ (lib.sortUpperY elements) (yCandidates_good pos lib minGap elements)
    have hlen : 0 < (lib.sortUpperY elements).length := by
      have := (pairwise_upperY hl hn hp).1.length_eq
      rw [this]
      exact List.length_pos_iff.mpr (by simpa using hne)
    obtain ⟨c, hc, hcc, e1, e2⟩ := gu_boundary _ _ 0 hlen hgood g1 g2 h n1 n2
    obtain ⟨c0, hc0, b, rfl⟩ := applyChoice_mem hc
    have hG := (yCandidates_geometry hl hn hm hp).1 c0 hc0
    rw [e1, e2]
    exact hG.separates.1

theorem gu_x {α : Type} {pos : α → Box} {lib : Lib α} (hl : LibContract pos lib) {n : ℕ} (hn : n ≤ 3) {minGap : ℚ} (hm : tol < minGap)
    (m : ℕ) (choose : Choose α) {elements : List α} (hp : ∀ e ∈ elements, ParsedBox n (pos e)) (g1 g2 : List (List α))
    (h : (xCut pos lib minGap m choose elements).groups = g1 ++ g2) (n1 : g1 ≠ []) (n2 : g2 ≠ []) :
    (reaching pos (minGap - tol) g1.flatten g2.flatten).length ≤ m := by
  unfold xCut at h
  by_cases hne : elements.isEmpty
  · rw [if_pos hne] at h
    obtain ⟨x, xs, rfl⟩ := List.exists_cons_of_ne_nil n1
    simp at h
  · rw [if_neg hne] at h
    have hgood := goodCuts_applyChoice choose _ (lib.sortLeftX elements) (xCandidates_good pos lib minGap m elements)
    have hlen : 0 < (lib.sortLeftX elements).length := by
      have := (pairwise_leftX hl hn hp).1.length_eq
      rw [this]
      exact List.length_pos_iff.mpr (by simpa using hne)
    obtain ⟨c, hc, hcc, e1, e2⟩ := gu_boundary _ _ 0 hlen hgood g1 g2 h n1 n2
    obtain ⟨c0, hc0, b, rfl⟩ := applyChoice_mem hc
    have hG := (xCandidates_geometry hl hn hm m hp).1 c0 hc0
    obtain ⟨others, hperm, _, hsep⟩ := hG.separates
    rw [e1, e2, List.drop_zero]
    unfold reaching
    rw [(hperm.filter _).length_eq, List.filter_append, List.length_append]
    have : (others.filter fun a => ((lib.sortLeftX elements).drop c0.posInElements).any fun b => decide ((pos b).leftX < (pos a).rightX + (minGap - tol))) = [] := by
      rw [List.filter_eq_nil_iff]
      intro a ha hb
      obtain ⟨b, hb1, hb2⟩ := List.any_eq_true.mp hb
      have := hsep.1 a ha b hb1
      have := of_decide_eq_true hb2
      linarith
    show _ + List.length (others.filter _) ≤ m
    rw [this]
    exact le_trans (List.length_filter_le _ _) hG.few

/-- **C71 (any call of the recursive cutting).** Whatever the strategies choose, the groups arise from the elements by straight cuts. -/
theorem c71_xyCut {α : Type} (P : Params α) (hl : LibContract P.pos P.lib) {n : ℕ} (hn : n ≤ 3) (hx : tol < P.minXGap) (hy : tol < P.minYGap) :
    ∀ (fuel : ℕ) (elements : List α) (out : Out α), (∀ e ∈ elements, ParsedBox n (P.pos e)) → elements ≠ [] → xyCutF P fuel elements = some out →
      CutInto P.pos (P.minXGap - tol) (P.minYGap - tol) P.maxOverlap elements out.1 := by
  intro fuel
  induction fuel with
  | zero =>
    intro es out _ hne h
    unfold xyCutF at h
    rw [if_neg (by simpa using hne)] at h
    cases h
  | succ fuel ih =>
    intro es out hp hne h
    have hdiv : ∀ g o, (∀ e ∈ g, ParsedBox n (P.pos e)) → g ≠ [] → divideGroup P (xyCutF P fuel) g = some o →
        CutInto P.pos (P.minXGap - tol) (P.minYGap - tol) P.maxOverlap g o.1 := by
      intro g o hg hgne ho
      have hY := c17_yCut_partition P.pos P.lib P.minYGap P.chooseY g (pairwise_upperY hl hn hg).1 hgne
      unfold divideGroup at ho
      simp only at ho
      split at ho
      · next hok =>
        obtain ⟨o', e1, e2⟩ := Option.map_eq_some_iff.mp ho
        subst e2
        refine gu_perm (es := (yCut P.pos P.lib P.minYGap P.chooseY g).groups.flatten) ?_ hY.perm
        refine gu_across _ _ o' ?_ hY.nonempty e1 ?_ ?_
        · intro h0
          have := hY.perm
          rw [h0] at this
          exact hgne (List.Perm.eq_nil this.symm)
        · intro x hx' o'' ho''
          exact ih x o'' (fun e he => hg e (hY.perm.subset (List.mem_flatten.mpr ⟨x, hx', he⟩))) (hY.nonempty x hx') ho''
        · exact fun g1 g2 e n1 n2 => gu_y hl hn hy P.chooseY hg g1 g2 e n1 n2
      · cases ho
        exact .whole hgne (List.Perm.refl _)
    rw [xyCutF, if_neg (by simpa using hne)] at h
    simp only at h
    have hX := c17_xCut_partition P.pos P.lib P.minXGap P.maxOverlap P.chooseX es (pairwise_leftX hl hn hp).1 hne
    split at h
    · obtain ⟨o', e1, e2⟩ := Option.map_eq_some_iff.mp h
      subst e2
      refine gu_perm (es := (xCut P.pos P.lib P.minXGap P.maxOverlap P.chooseX es).groups.flatten) ?_ hX.perm
      refine gu_down _ _ o' ?_ hX.nonempty e1 ?_ ?_
      · intro h0
        have := hX.perm
        rw [h0] at this
        exact hne (List.Perm.eq_nil this.symm)
      · intro x hx' o'' ho''
        exact hdiv x o'' (fun e he => hp e (hX.perm.subset (List.mem_flatten.mpr ⟨x, hx', he⟩))) (hX.nonempty x hx') ho''
      · exact fun g1 g2 e n1 n2 => gu_x hl hn hx P.maxOverlap P.chooseX hp g1 g2 e n1 n2
    · obtain ⟨o', e1, e2⟩ := Option.map_eq_some_iff.mp h
      subst e2
      exact hdiv es o' hp hne e1

/-- **C71.** The segments of a page arise from the words, figures, graphics and shapes of the page by straight cuts: a horizontal cut leaves a white strip of height 2 (minus the tolerance) between the two
parts, a vertical cut a white strip twice as wide as the usual distance between words (minus the tolerance), which at most one element on the left may cross. -/
theorem c71_segments_cut (doc : DocStats) (lib : Lib PElem) (hl : LibContract PElem.pos lib) {n : ℕ} (hn : n ≤ 3) (hx : tol < 2 * doc.mostFreqWordDistance)
    (page : PageElems) (hp : ∀ e ∈ page.words ++ page.figures ++ page.graphics ++ page.shapes, ParsedBox n e.pos)
    (hne : page.words ++ page.figures ++ page.graphics ++ page.shapes ≠ []) :
    CutInto PElem.pos (2 * doc.mostFreqWordDistance - tol) (2 - tol) 1 (page.words ++ page.figures ++ page.graphics ++ page.shapes)
      ((processPage doc lib page).map (·.elements)) := by
  have hm : (processPage doc lib page).map (·.elements) = (xyCut (params doc lib) (pageElements page)).1 := by
    simp [processPage, createPageSegment, Function.comp_def]
  have hX : PermOn (fun e : PElem => ParsedBox n e.pos) lib.sortLeftX := fun l h => (pairwise_leftX hl hn h).1
  have hY : PermOn (fun e : PElem => ParsedBox n e.pos) lib.sortUpperY := fun l h => (pairwise_upperY hl hn h).1
  obtain ⟨out, h1, _⟩ := c18_xyCut_terminates (params doc lib) hX hY (pageElements page) hp _ (Nat.le_refl _)
  rw [hm]
  unfold xyCut
  rw [h1]
  exact c71_xyCut (params doc lib) hl hn hx (by show tol < 2; norm_num [tol]) _ _ out hp hne h1

theorem gu_mem {α : Type} {pos : α → Box} {gx gy : ℚ} {m : ℕ} {es : List α} {gs : List (List α)} (h : CutInto pos gx gy m es gs) :
    gs.flatten.Perm es := by
  induction h with
  | whole _ h => simpa using h
  | horizontal h1 _ _ _ _ _ i1 i2 => rw [List.flatten_append]; exact (i1.append i2).trans h1
  | vertical h1 _ _ _ _ _ i1 i2 => rw [List.flatten_append]; exact (i1.append i2).trans h1

theorem gu_reaching_perm {α : Type} {pos : α → Box} {gx : ℚ} {l r r' : List α} (h : ∀ x ∈ r, x ∈ r') :
    (reaching pos gx l r).length ≤ (reaching pos gx l r').length := by
  unfold reaching
  rw [← List.countP_eq_length_filter, ← List.countP_eq_length_filter]
  apply List.countP_mono_left
  intro a _ hb
  obtain ⟨b, hb1, hb2⟩ := List.any_eq_true.mp hb
  exact List.any_eq_true.mpr ⟨b, h b hb1, hb2⟩

theorem gu_pairwise {α : Type} {pos : α → Box} {gx gy : ℚ} {m : ℕ} {es : List α} {gs : List (List α)} (h : CutInto pos gx gy m es gs) :
    gs.Pairwise fun s t => (∀ a ∈ s, ∀ b ∈ t, (pos a).lowerY + gy ≤ (pos b).upperY) ∨ (reaching pos gx s t).length ≤ m := by
  induction h with
  | whole _ _ => simp
  | horizontal h1 h2 h3 h4 h5 h6 i1 i2 =>
    rw [List.pairwise_append]
    refine ⟨i1, i2, fun s hs t ht => Or.inl fun a ha b hb => h4 a ?_ b ?_⟩
    · exact (gu_mem h5).subset (List.mem_flatten.mpr ⟨s, hs, ha⟩)
    · exact (gu_mem h6).subset (List.mem_flatten.mpr ⟨t, ht, hb⟩)
  | vertical h1 h2 h3 h4 h5 h6 i1 i2 =>
    rw [List.pairwise_append]
    refine ⟨i1, i2, fun s hs t ht => Or.inr ?_⟩
    refine le_trans ?_ h4
    refine le_trans (gu_reaching_perm fun x hx => (gu_mem h6).subset (List.mem_flatten.mpr ⟨t, ht, hx⟩)) ?_
    unfold reaching
    refine le_trans (List.Sublist.length_le (List.Sublist.filter _ (List.sublist_flatten_of_mem hs))) (le_of_eq ?_)
    exact ((gu_mem h5).filter _).length_eq

/-- **C71 (any two segments).** Of two segments of a page, the one listed first lies above the other (by a strip of height 2, minus the tolerance) or left of it (by a strip twice as wide as the usual distance
between words, minus the tolerance, crossed by at most one of its elements). -/
theorem c71_two_segments (doc : DocStats) (lib : Lib PElem) (hl : LibContract PElem.pos lib) {n : ℕ} (hn : n ≤ 3) (hx : tol < 2 * doc.mostFreqWordDistance)
    (page : PageElems) (hp : ∀ e ∈ page.words ++ page.figures ++ page.graphics ++ page.shapes, ParsedBox n e.pos) :
    (processPage doc lib page).Pairwise fun s t =>
      (∀ a ∈ s.elements, ∀ b ∈ t.elements, a.pos.lowerY + (2 - tol) ≤ b.pos.upperY) ∨
      (reaching PElem.pos (2 * doc.mostFreqWordDistance - tol) s.elements t.elements).length ≤ 1 := by
  by_cases hne : page.words ++ page.figures ++ page.graphics ++ page.shapes = []
  · have : processPage doc lib page = [] := by
      unfold processPage pageElements
      rw [hne]
      rfl
    rw [this]
    exact List.Pairwise.nil
  · have := gu_pairwise (c71_segments_cut doc lib hl hn hx page hp hne)
    rwa [List.pairwise_map] at this

theorem gu_parsed (l u r w : ℤ) (h1 : l ≤ r) (h2 : u ≤ w) :
    ParsedBox 1 { pageNum := 1, leftX := (l : ℚ), upperY := (u : ℚ), rightX := (r : ℚ), lowerY := (w : ℚ) } := by
  have hr : ∀ z : ℤ, (∃ x, ((z : ℤ) : ℚ) = roundTo x 1) := by
    intro z
    refine ⟨z, ?_⟩
    rw [roundTo_eq]
    have : ((z : ℚ) * 10 ^ 1) = ((z * 10 : ℤ) : ℚ) := by push_cast; ring
    rw [this, stdRound_int]; push_cast; ring
  refine ⟨⟨hr l, hr u, hr r, hr w⟩, ?_, ?_, ?_⟩
  · simp [Upright]
  · simpa using h1
  · simpa using h2

/-- Non-vacuity: a page with a headline and two columns meets the hypotheses of C71; it is cut into three segments. -/
example : (∀ e ∈ samplePage.words ++ samplePage.figures ++ samplePage.graphics ++ samplePage.shapes, ParsedBox 1 e.pos) ∧
    LibContract PElem.pos (refLib PElem.pos) ∧ tol < 2 * (2 : ℚ) ∧
    samplePage.words ++ samplePage.figures ++ samplePage.graphics ++ samplePage.shapes ≠ [] ∧
    (processPage { avgCharWidth := 1, avgCharHeight := 1, mostFreqWordDistance := 2 } (refLib PElem.pos) samplePage).length = 3 := by
  refine ⟨?_, refLib_contract _, by norm_num [tol], by simp [samplePage], by decide +kernel⟩
  intro e he
  simp only [samplePage, List.append_nil, List.mem_cons, List.not_mem_nil, or_false] at he
  rcases he with rfl | rfl | rfl
  · exact_mod_cast gu_parsed 10 10 110 20 (by norm_num) (by norm_num)
  · exact_mod_cast gu_parsed 10 30 50 60 (by norm_num) (by norm_num)
  · exact_mod_cast gu_parsed 70 30 110 60 (by norm_num) (by norm_num)

end Verif.Props
