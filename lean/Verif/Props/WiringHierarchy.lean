import Verif.Props.WiringPage

/-!
# C69: references between the lines of the finished document
-/

namespace Verif.Props

open Verif.Math Verif.Elements Verif.Spec Verif.Words Verif.TextLines Verif.Pipeline Verif.Counter Verif.Statistics
open Verif.ReadingOrder (RElem Role)
open Verif.Cli (Stage StageConfig Env Config)

/-- Later statistics keep those of the characters. -/
theorem wi_wordStats_keep {h : HashOrder} {s s' : Stats} {ps : List (List Word)} (hs : wordStatistics h s ps = .ok s') :
    s'.avgCharWidth = s.avgCharWidth ∧ s'.avgCharHeight = s.avgCharHeight ∧ s'.mostFreqFontSize = s.mostFreqFontSize ∧ s'.mostFreqFontName = s.mostFreqFontName ∧
    s'.mostFreqLineDistance = s.mostFreqLineDistance ∧ s'.mostFreqLineDistancePerFontSize = s.mostFreqLineDistancePerFontSize := by
  unfold wordStatistics at hs
  obtain ⟨_, _, hs⟩ := wi_bind hs
  obtain ⟨_, _, hs⟩ := wi_bind hs
  obtain ⟨_, _, hs⟩ := wi_bind hs
  cases hs
  exact ⟨rfl, rfl, rfl, rfl, rfl, rfl⟩

theorem wi_lineStats_keep {lib : LineLib} {s s' : Stats} {ps : List (List BasedLine)} (hs : lineStatistics lib s ps = .ok s') :
    s'.avgCharWidth = s.avgCharWidth ∧ s'.avgCharHeight = s.avgCharHeight ∧ s'.mostFreqFontSize = s.mostFreqFontSize ∧ s'.mostFreqFontName = s.mostFreqFontName ∧
    s'.mostFreqWordDistance = s.mostFreqWordDistance ∧ s'.mostFreqEstimatedLineDistance = s.mostFreqEstimatedLineDistance ∧ s'.mostFreqWordHeight = s.mostFreqWordHeight := by
  unfold lineStatistics at hs
  obtain ⟨_, _, hs⟩ := wi_bind hs
  obtain ⟨_, _, hs⟩ := wi_bind hs
  cases hs
  exact ⟨rfl, rfl, rfl, rfl, rfl, rfl, rfl⟩

section

variable {lib : Pipeline.Lib} {n : ℕ} {d0 d' : Document} {s1 s4 : Stats} {ps2 ps3 ps6 : List Page} {ls6 : List TextLine}
  {bst : TextBlocks.State} {bss : List (List TextBlocks.Block)} {rs : List Role}

/-- The segments of a page. -/
theorem wi_segment (hp : ParsedDoc n d0) (h : WholeRun lib d0 d' s1 s4 ps2 ps3 ps6 ls6 bst bss rs) {k : ℕ} {p' p0 p2 p3 p6 : Page} {bs : List TextBlocks.Block}
    (hf : FinishedPage lib d0 d' s4 ps2 ps3 ps6 bss rs k p' p0 p2 p3 p6 bs) (s : Segment) (hs : s ∈ p'.segments) : SegmentInOrder d' p' s := by
  obtain ⟨m, t1, hl, ho, _, hd⟩ := wi_pageLines hp h hf
  obtain ⟨s0, hs0, pre, ls, post, e1, e2⟩ := wi_linesOfSegments ho s hs
  obtain ⟨g1, g2, g3, g4, g5, g6, g7⟩ := wi_linesOfSegment (hl s0 hs0) e2
  have hw : p'.words = p3.words := by rw [hf.page, hf.only6]
  have hat : ∀ (i : ℕ) (l : TextLine), ls[i]? = some l → ∃ x, d'.lines[m + pre.length + i]? = some x ∧ x.line.pos = l.line.pos ∧ x.prevLine = l.prevLine ∧
      x.nextLine = l.nextLine ∧ x.seg = l.seg := by
    intro i l hi
    have hlt := (List.getElem?_eq_some_iff.mp hi).1
    have : t1[pre.length + i]? = some l := by
      rw [e1, List.append_assoc, List.getElem?_append_right (by omega), Nat.add_sub_cancel_left, List.getElem?_append_left hlt, hi]
    have := hd _ _ this
    rw [← Nat.add_assoc] at this
    exact ⟨_, this, rfl, rfl, rfl, rfl⟩
  have hmem : ∀ i, i ∈ s.lines → ∃ (j : ℕ) (l : TextLine), i = m + pre.length + j ∧ ls[j]? = some l := by
    intro i hi
    rw [g1, List.mem_range'_1] at hi
    refine ⟨i - (m + pre.length), ls[i - (m + pre.length)]'(by omega), by omega, List.getElem?_eq_getElem _⟩
  have hrange : ∀ j, j < ls.length → m + pre.length + j ∈ s.lines := by
    intro j hj; rw [g1, List.mem_range'_1]; omega
  have hbox : s.lines.map (fun i => roundTo (lineBox d' i).getRotRightX 0) = ls.map fun l => roundTo l.line.pos.getRotRightX 0 := by
    apply List.ext_getElem?
    intro i
    rw [List.getElem?_map, List.getElem?_map, g1]
    by_cases hi : i < ls.length
    · rw [List.getElem?_range' hi]
      obtain ⟨x, hx, hx1, _⟩ := hat i (ls[i]'hi) (List.getElem?_eq_getElem hi)
      rw [List.getElem?_eq_getElem hi]
      simp only [Option.map_some, lineBox, Nat.one_mul, hx, Option.getD_some, hx1]
    · rw [List.getElem?_eq_none (by simpa using hi), List.getElem?_eq_none (by simpa using hi)]
      rfl
  refine ⟨⟨_, _, g1⟩, ?_, ?_, ?_, ?_, ?_, ?_⟩
  · intro i hi
    obtain ⟨j, l, rfl, hj⟩ := hmem i hi
    obtain ⟨x, hx, _, h2, _⟩ := hat j l hj
    refine ⟨x, hx, ?_⟩
    beta_reduce
    rw [h2]
    have hlt := (List.getElem?_eq_some_iff.mp hj).1
    rcases (g4 j l hj).2.1 with h | ⟨h, h'⟩
    · exact .inl h
    · right
      refine ⟨by omega, ?_, h'⟩
      have := hrange (j - 1) (by omega)
      rwa [show m + pre.length + j - 1 = m + pre.length + (j - 1) by omega]
  · intro i hi
    obtain ⟨j, l, rfl, hj⟩ := hmem i hi
    obtain ⟨x, hx, _, _, h3, _⟩ := hat j l hj
    refine ⟨x, hx, ?_⟩
    beta_reduce
    rw [h3]
    rcases (g4 j l hj).2.2 with h | ⟨h, h'⟩
    · exact .inl h
    · exact .inr ⟨hrange (j + 1) h, h'⟩
  · intro i hi hi'
    obtain ⟨j, l, rfl, hj⟩ := hmem i hi
    rw [g1, List.mem_range'_1] at hi'
    have hlt : j + 1 < ls.length := by omega
    obtain ⟨x, hx, _, _, h3, _⟩ := hat j l hj
    obtain ⟨y, hy, _, h2, _⟩ := hat (j + 1) _ (List.getElem?_eq_getElem hlt)
    refine ⟨x, hx, y, hy, ?_⟩
    beta_reduce
    rw [h3, h2]
    exact g5 j l _ hj (List.getElem?_eq_getElem hlt)
  · intro r hr i hi hi'
    obtain ⟨j, l, rfl, hj⟩ := hmem i hi
    rw [g1, List.mem_range'_1] at hi'
    have hlt : j + 1 < ls.length := by omega
    obtain ⟨x, hx, _, _, h3, _⟩ := hat j l hj
    obtain ⟨y, hy, _, h2, _⟩ := hat (j + 1) _ (List.getElem?_eq_getElem hlt)
    have := g6 r (by
      intro w hw'
      unfold Segment.words Segment.wordIds at hw'
      obtain ⟨u, hu, hw'⟩ := List.mem_filterMap.mp hw'
      obtain ⟨el, hel, rfl⟩ := List.mem_map.mp hu
      rw [List.mem_filter] at hel
      refine hr el (by rw [g2]; exact hel.1) (by simpa using hel.2) w ?_
      rw [hw]; exact hw') j l _ hj (List.getElem?_eq_getElem hlt)
    exact ⟨⟨x, hx, by beta_reduce; rw [h3]; exact this.1⟩, ⟨y, hy, by beta_reduce; rw [h2]; exact this.2⟩⟩
  · intro i hi
    obtain ⟨j, l, rfl, hj⟩ := hmem i hi
    obtain ⟨x, hx, _, _, _, h4⟩ := hat j l hj
    refine ⟨x, hx, ?_⟩
    beta_reduce
    rw [h4, (g4 j l hj).1]; rfl
  · intro hne hlt
    have hlen : s.lines.length = ls.length := by rw [g1]; simp
    obtain ⟨r, f, t1', t2, t3⟩ := g7 (by intro hc; apply hne; rw [g1, hc]; rfl) (by omega)
    refine ⟨r, f, by rw [g3]; exact t1', by rw [hbox]; exact t2, ?_⟩
    rw [hbox, hlen, g3]; exact t3

/-- The hierarchy of the lines of a page. -/
theorem wi_hierarchy (hp : ParsedDoc n d0) (h : WholeRun lib d0 d' s1 s4 ps2 ps3 ps6 ls6 bst bss rs) {k : ℕ} {p' p0 p2 p3 p6 : Page} {bs : List TextBlocks.Block}
    (hf : FinishedPage lib d0 d' s4 ps2 ps3 ps6 bss rs k p' p0 p2 p3 p6 bs) : HierarchyInOrder d' d'.stats.avgCharWidth p' := by
  obtain ⟨m, t1, _, _, hr, hd⟩ := wi_pageLines hp h hf
  rw [(wi_lineStats_keep h.lineStats).1]
  generalize hP : (fun (i : ℕ) => ((t1[i]?).map fun (l : TextLine) => l.line.pos).getD ({} : Box)) = pos at hd
  have hbox : ∀ i, i < t1.length → lineBox d' (m + i) = pos i := by
    intro i hi
    have e := List.getElem?_eq_getElem hi
    have := hd i _ e
    unfold lineBox
    rw [this, ← hP]
    simp only [Option.map_some, Option.getD_some, e]
    rfl
  have hlink : ∀ i, i < t1.length → lineLink d' (m + i) = Link.shift m (computeTextLineHierarchy pos s4.avgCharWidth t1.length i) := by
    intro i hi
    have := hd i _ (List.getElem?_eq_getElem hi)
    unfold lineLink
    rw [this]
    rfl
  have hmem : ∀ i, i ∈ lineNumbers p' ↔ ∃ j, j < t1.length ∧ i = m + j := by
    intro i
    rw [hr, List.mem_range'_1]
    exact ⟨fun hi => ⟨i - m, by omega, by omega⟩, fun ⟨j, h1, h2⟩ => by omega⟩
  have hshift : ∀ (o : Option ℕ) (q : ℕ), o.map (· + m) = some q ↔ ∃ a, o = some a ∧ q = m + a := by
    intro o q
    cases o with
    | none => simp
    | some a => simp only [Option.map_some, Option.some.injEq]; exact ⟨fun h => ⟨a, rfl, by omega⟩, fun ⟨b, h1, h2⟩ => by omega⟩
  generalize hT : s4.avgCharWidth = thr at hlink hd
  obtain ⟨F1, _⟩ := c28_forest pos thr t1.length
  have hnone : ∀ o : Option ℕ, o.map (· + m) = none ↔ o = none := by intro o; cases o <;> simp
  have hout : ∀ j a, (computeTextLineHierarchy pos thr t1.length j).nextSibling = some a → a < t1.length := by
    intro j a ha
    obtain ⟨u, v⟩ := c28_siblings pos thr t1.length j a
    exact (v (u.mp ha)).2.1
  refine ⟨?_, ?_, ?_, ?_, ?_, ?_, ?_⟩
  · intro i hi q hq
    obtain ⟨j, hj, rfl⟩ := (hmem i).mp hi
    rw [hlink j hj] at hq
    obtain ⟨a, ha, rfl⟩ := (hshift _ _).mp hq
    obtain ⟨_, g2, g3⟩ := F1 j a ha
    exact ⟨(hmem _).mpr ⟨a, by omega, rfl⟩, by omega, by rw [hbox a (by omega), hbox j hj]; exact g3⟩
  · intro i hi i' hi'
    obtain ⟨j, hj, rfl⟩ := (hmem i).mp hi
    obtain ⟨j', hj', rfl⟩ := (hmem i').mp hi'
    rw [hlink j hj, hlink j' hj']
    have := (c28_siblings pos thr t1.length j j').1
    unfold Link.shift
    simp only [hshift, Nat.add_left_cancel_iff, exists_eq_right']
    exact this
  · intro i hi q hq
    obtain ⟨j, hj, rfl⟩ := (hmem i).mp hi
    rw [hlink j hj] at hq
    obtain ⟨a, ha, rfl⟩ := (hshift _ _).mp hq
    exact (hmem _).mpr ⟨a, hout j a ha, rfl⟩
  · intro i' hi' i hq
    obtain ⟨j', hj', rfl⟩ := (hmem i').mp hi'
    rw [hlink j' hj'] at hq
    obtain ⟨a, ha, rfl⟩ := (hshift _ _).mp hq
    obtain ⟨g1, g2, g3, g4, g5⟩ := (c28_siblings pos thr t1.length a j').2 ha
    have haa : a < t1.length := by omega
    refine ⟨(hmem _).mpr ⟨a, haa, rfl⟩, by omega, ?_, ?_, ?_⟩
    · rw [hlink a haa, hlink j' hj']; unfold Link.shift; simp only [g3]
    · rw [hbox a haa, hbox j' hj']; exact g4
    · rw [hbox a haa, hbox j' hj']; exact g5
  · intro i hi q hq hnp
    obtain ⟨j, hj, rfl⟩ := (hmem i).mp hi
    rw [hlink j hj] at hq hnp
    obtain ⟨a, ha, rfl⟩ := (hshift _ _).mp hq
    have hlt := (F1 j a ha).2.1
    rw [hbox a (by omega), hbox j hj]
    exact c28_parent_less_indented_partial pos thr t1.length a j ha ((hnone _).mp hnp)
  · intro i hi hi' hrot hw hgap
    obtain ⟨j, hj, rfl⟩ := (hmem i).mp hi
    obtain ⟨j', hj', e⟩ := (hmem _).mp hi'
    have : j' = j + 1 := by omega
    subst this
    rw [e] at hrot hw hgap ⊢
    rw [hbox j hj, hbox _ hj'] at hrot hw hgap
    obtain ⟨g1, g2⟩ := c28_distance_resets pos thr t1.length j hj' hrot hw hgap
    rw [hlink _ hj']
    exact ⟨(hnone _).mpr g1, (hnone _).mpr g2⟩
  · intro hw hdown i hi hi' hgap
    obtain ⟨j, hj, rfl⟩ := (hmem i).mp hi
    obtain ⟨j', hj', e⟩ := (hmem _).mp hi'
    have : j' = j + 1 := by omega
    subst this
    rw [e] at hgap ⊢
    rw [hbox j hj, hbox _ hj'] at hgap
    have hD : Downwards pos t1.length := by
      intro a b hab hb
      have := hdown (m + a) ((hmem _).mpr ⟨a, by omega, rfl⟩) (m + b) ((hmem _).mpr ⟨b, hb, rfl⟩) (by omega)
      rw [hbox a (by omega), hbox b hb] at this
      exact this
    obtain ⟨g1, g2⟩ := c28_consecutive_lines pos thr hw t1.length j hj' hD hgap
    rw [hlink j hj, hlink _ hj', hbox j hj, hbox _ hj']
    unfold Link.shift
    refine ⟨fun hx => ?_, fun hx => ?_⟩
    · obtain ⟨a1, a2, a3⟩ := g1 hx
      simp only [a1, a2, a3, Option.map_some, Option.some.injEq]
      exact ⟨by omega, by omega, trivial⟩
    · simp only [g2 hx, Option.map_some, Option.some.injEq]; omega

end

end Verif.Props
