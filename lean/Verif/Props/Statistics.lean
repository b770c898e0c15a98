import Verif.Model.Statistics
import Verif.Spec.Statistics
import Verif.Spec.Frequency
import Verif.Lemmas.Math
import Verif.Props.Words
import Verif.Props.TextLines

/-!
# C53, C58: statistics of glyphs, words and lines
-/

namespace Verif.Props

open Verif.Math Verif.Elements Verif.Words Verif.TextLines Verif.Statistics Verif.Spec Verif.Counter

theorem glyphStep_fold (cs : List Glyph) : ∀ s : GlyphSums,
    cs.foldl glyphStep s =
      { fontSizes := s.fontSizes ++ cs.map (·.fontSize)
        fontNames := s.fontNames ++ cs.map (·.fontName)
        sumWidths := s.sumWidths + (cs.map fun c => c.pos.rightX - c.pos.leftX).sum
        sumHeights := s.sumHeights + (cs.map fun c => c.pos.lowerY - c.pos.upperY).sum
        numGlyphs := s.numGlyphs + cs.length } := by
  induction cs with
  | nil => intro s; simp
  | cons c cs ih =>
    intro s
    rw [List.foldl_cons, ih]
    simp only [glyphStep, Box.getWidth, Box.getHeight, GlyphSums.mk.injEq, List.map_cons,
      List.append_assoc, List.singleton_append, List.sum_cons, List.length_cons]
    refine ⟨trivial, trivial, by ring, by ring, by omega⟩

theorem foldl_pages {α β : Type} (f : β → α → β) (pages : List (List α)) (s : β) :
    pages.foldl (fun s page => page.foldl f s) s = pages.flatten.foldl f s := by
  induction pages generalizing s with
  | nil => rfl
  | cons p ps ih => simp [List.foldl_append, ih]

/-- C53: the calculation of the glyph statistics never fails; it leaves a document without characters
unchanged, and otherwise sets the averages to the arithmetic means of the widths and heights of all
characters and the font size and name to most frequent ones, and changes nothing else. -/
theorem c53_glyph_statistics (h : HashOrder) (doc : Stats) (pages : List (List Glyph))
    (hlen : pages.flatten.length < 2 ^ 32) :
    (pages.flatten = [] → glyphStatistics h doc pages = .ok doc) ∧
    (pages.flatten ≠ [] → ∃ r, glyphStatistics h doc pages = .ok r ∧
      r.avgCharWidth = mean (pages.flatten.map fun c => c.pos.rightX - c.pos.leftX) ∧
      r.avgCharHeight = mean (pages.flatten.map fun c => c.pos.lowerY - c.pos.upperY) ∧
      IsMostFrequent (pages.flatten.map (·.fontSize)) r.mostFreqFontSize ∧
      IsMostFrequent (pages.flatten.map (·.fontName)) r.mostFreqFontName ∧
      { r with avgCharWidth := doc.avgCharWidth, avgCharHeight := doc.avgCharHeight,
               mostFreqFontSize := doc.mostFreqFontSize,
               mostFreqFontName := doc.mostFreqFontName } = doc) := by
  unfold glyphStatistics
  simp only
  rw [foldl_pages, glyphStep_fold]
  refine ⟨?_, ?_⟩
  · intro he
    simp [he]
  · intro hne
    have hpos : 0 < pages.flatten.length := List.length_pos_iff.mpr hne
    simp only [Nat.zero_add, List.nil_append, zero_add]
    rw [if_neg (by omega)]
    obtain ⟨fs, h1, h2⟩ := mostFreqOr_spec h (0 : ℚ) 0 (pages.flatten.map (·.fontSize))
    obtain ⟨fn, h3, h4⟩ := mostFreqOr_spec h ([] : Verif.Text.Str) [] (pages.flatten.map (·.fontName))
    rw [h1, h3]
    refine ⟨_, rfl, ?_, ?_, h2 (by simpa using hne) (by rw [List.length_map]; exact hlen),
      h4 (by simpa using hne) (by rw [List.length_map]; exact hlen), by cases doc; rfl⟩
    · unfold mean; rw [List.length_map]
    · unfold mean; rw [List.length_map]

/-! ### Words -/

/-- The word is not written in a font smaller than the dominant one. -/
def bigWord (mf : ℚ) (w : Word) : Bool := decide (mf - 1 ≤ w.fontSize)

/-- Two consecutive words whose distance is counted: same rotation and writing mode, the second one
not smaller than the dominant font, the first one in the dominant font. -/
def comparableWords (mf : ℚ) (p : Word × Word) : Bool :=
  bigWord mf p.2 && decide (p.1.pos.rotation = p.2.pos.rotation) &&
    decide (p.1.pos.wMode = p.2.pos.wMode) && decide (|p.1.fontSize - mf| ≤ 1)

/-- The share of the heights in which two words overlap (the larger of the two). -/
def yShare (p : Word × Word) : ℚ :=
  max (computeYOverlapRatios p.1.pos p.2.pos).1 (computeYOverlapRatios p.1.pos p.2.pos).2

/-- Two words side by side: at least half of one of them is covered by the other, vertically. -/
def sameLine (p : Word × Word) : Bool := decide (1 / 2 - tol ≤ yShare p)

/-- Two words that do not overlap vertically. -/
def otherLine (p : Word × Word) : Bool := decide (yShare p ≤ tol)

/-- The horizontal gaps between words side by side on a page. -/
def pageHGaps (mf : ℚ) (page : List Word) : List ℚ :=
  (((consecutive page).filter (comparableWords mf)).filter sameLine).map
    fun p => computeHorizontalGap p.1.pos p.2.pos

/-- The vertical gaps between words of different lines on a page. -/
def pageVGaps (mf : ℚ) (page : List Word) : List ℚ :=
  (((consecutive page).filter (comparableWords mf)).filter otherLine).map
    fun p => computeVerticalGap p.1.pos p.2.pos

/-- The heights of the words on a page. -/
def pageHeights (mf : ℚ) (page : List Word) : List ℚ :=
  (page.filter (bigWord mf)).map fun w => w.pos.lowerY - w.pos.upperY

theorem wordStep_none (mf : ℚ) (w : Word) (k : WordCounts) :
    wordStep mf none w k = { k with heights := k.heights ++ pageHeights mf [w] } := by
  unfold wordStep pageHeights
  by_cases h : smaller w.fontSize mf 1 = true
  · rw [if_pos h]
    rw [smaller_iff] at h
    have hb : bigWord mf w = false := by unfold bigWord; exact decide_eq_false (not_le.mpr h)
    simp [List.filter_cons, hb]
  · rw [if_neg h]
    rw [smaller_iff, not_lt] at h
    have hb : bigWord mf w = true := by unfold bigWord; exact decide_eq_true h
    simp [List.filter_cons, hb, Box.getHeight]

theorem wordStep_some (mf : ℚ) (p w : Word) (k : WordCounts) :
    wordStep mf (some p) w k =
      { hGaps := k.hGaps ++ pageHGaps mf [p, w]
        vGaps := k.vGaps ++ pageVGaps mf [p, w]
        heights := k.heights ++ pageHeights mf [w] } := by
  unfold wordStep pageHeights pageHGaps pageVGaps
  have hc : consecutive [p, w] = [(p, w)] := rfl
  rw [hc]
  by_cases h : smaller w.fontSize mf 1 = true
  · rw [if_pos h]
    rw [smaller_iff] at h
    have hb : bigWord mf w = false := by unfold bigWord; exact decide_eq_false (not_le.mpr h)
    simp [List.filter_cons, hb, comparableWords]
  · rw [if_neg h]
    rw [smaller_iff, not_lt] at h
    have hb : bigWord mf w = true := by simp [bigWord, h]
    simp only [List.filter_cons, List.filter_nil, hb, if_true, comparableWords, Bool.true_and]
    by_cases h1 : p.pos.rotation = w.pos.rotation
    swap
    · simp [h1, Box.getHeight]
    by_cases h2 : p.pos.wMode = w.pos.wMode
    swap
    · simp [h1, h2, Box.getHeight]
    by_cases h3 : equal p.fontSize mf 1 = true
    swap
    · have h3' := h3
      rw [equal_iff] at h3'
      simp [h1, h2, h3, h3', Box.getHeight]
    have h3' := h3
    rw [equal_iff] at h3'
    have hr : computeMaxYOverlapRatio p.pos w.pos = yShare (p, w) := by
      simp [computeMaxYOverlapRatio, yShare, maximum_eq_max]
    simp only [h1, h2, h3, h3', ne_eq, not_true, if_false, Bool.not_true, Bool.false_eq_true,
      decide_true, Bool.and_self, if_true, hr]
    have e1 : equalOrLarger (yShare (p, w)) (1 / 2) tol = sameLine (p, w) := by
      simp [sameLine, equalOrLarger]
    have e2 : equalOrSmaller (yShare (p, w)) 0 tol = otherLine (p, w) := by
      simp [otherLine, equalOrSmaller]
    rw [e1, e2]
    cases hs : sameLine (p, w) <;> cases ho : otherLine (p, w) <;>
      simp [List.filter_cons, Box.getHeight, hs, ho]

theorem wordLoop_some (mf : ℚ) (ws : List Word) : ∀ (p : Word) (k : WordCounts),
    wordLoop mf (some p) ws k =
      { hGaps := k.hGaps ++ pageHGaps mf (p :: ws)
        vGaps := k.vGaps ++ pageVGaps mf (p :: ws)
        heights := k.heights ++ pageHeights mf ws } := by
  induction ws with
  | nil => intro p k; simp [wordLoop, pageHGaps, pageVGaps, pageHeights, consecutive]
  | cons w ws ih =>
    intro p k
    rw [wordLoop, ih, wordStep_some]
    have c1 : consecutive (p :: w :: ws) = consecutive [p, w] ++ consecutive (w :: ws) := rfl
    have c2 : pageHeights mf (w :: ws) = pageHeights mf [w] ++ pageHeights mf ws := by
      unfold pageHeights; rw [← List.map_append, ← List.filter_append]; rfl
    rw [c2]
    simp only [pageHGaps, pageVGaps, c1, List.filter_append, List.map_append, List.append_assoc]

theorem wordLoop_none (mf : ℚ) (ws : List Word) (k : WordCounts) :
    wordLoop mf none ws k =
      { hGaps := k.hGaps ++ pageHGaps mf ws
        vGaps := k.vGaps ++ pageVGaps mf ws
        heights := k.heights ++ pageHeights mf ws } := by
  cases ws with
  | nil => simp [wordLoop, pageHGaps, pageVGaps, pageHeights, consecutive]
  | cons w ws =>
    rw [wordLoop, wordLoop_some, wordStep_none]
    have c2 : pageHeights mf (w :: ws) = pageHeights mf [w] ++ pageHeights mf ws := by
      unfold pageHeights; rw [← List.map_append, ← List.filter_append]; rfl
    rw [c2]
    simp

theorem wordLoop_pages (mf : ℚ) (pages : List (List Word)) : ∀ k : WordCounts,
    pages.foldl (fun k page => wordLoop mf none page k) k =
      { hGaps := k.hGaps ++ pages.flatMap (pageHGaps mf)
        vGaps := k.vGaps ++ pages.flatMap (pageVGaps mf)
        heights := k.heights ++ pages.flatMap (pageHeights mf) } := by
  induction pages with
  | nil => intro k; simp
  | cons p ps ih =>
    intro k
    rw [List.foldl_cons, ih, wordLoop_none]
    simp

/-- `v` is a most frequent value of `xs`, or the old value if there is none. -/
def MostFrequentOr {α : Type} [DecidableEq α] (old : α) (xs : List α) (v : α) : Prop :=
  (xs = [] → v = old) ∧ (xs ≠ [] → IsMostFrequent xs v)

theorem mostFreqOr_full {κ : Type} [DecidableEq κ] (h : HashOrder) (zero dflt : κ) (xs : List κ)
    (hlen : xs.length < 2 ^ 32) :
    ∃ k, mostFreqOr h zero dflt xs = .ok k ∧ MostFrequentOr dflt xs k := by
  obtain ⟨k, h1, h2⟩ := mostFreqOr_spec h zero dflt xs
  refine ⟨k, h1, ?_, fun hne => h2 hne hlen⟩
  rintro rfl
  have h3 := c07_sumCounts ([] : List κ) _ (h.perm κ (countAll []))
  unfold mostFreqOr at h1
  simp only at h1
  rw [h3] at h1
  simpa using h1.symm

/-- C58 (words): the word height, the word distance and the estimated line distance of the document
are most frequent heights of words, horizontal gaps between words side by side and vertical gaps
between consecutive words of different lines; a statistic without any data keeps its value, and
nothing else changes. -/
theorem c58_word_statistics (h : HashOrder) (doc : Stats) (pages : List (List Word))
    (hlen : pages.flatten.length < 2 ^ 32) :
    ∃ r, wordStatistics h doc pages = .ok r ∧
      MostFrequentOr doc.mostFreqWordHeight (pages.flatMap (pageHeights doc.mostFreqFontSize))
        r.mostFreqWordHeight ∧
      MostFrequentOr doc.mostFreqWordDistance (pages.flatMap (pageHGaps doc.mostFreqFontSize))
        r.mostFreqWordDistance ∧
      MostFrequentOr doc.mostFreqEstimatedLineDistance
        (pages.flatMap (pageVGaps doc.mostFreqFontSize)) r.mostFreqEstimatedLineDistance ∧
      { r with mostFreqWordHeight := doc.mostFreqWordHeight,
               mostFreqWordDistance := doc.mostFreqWordDistance,
               mostFreqEstimatedLineDistance := doc.mostFreqEstimatedLineDistance } = doc := by
  have hle : ∀ (f : List Word → List ℚ), (∀ p, (f p).length ≤ p.length) →
      (pages.flatMap f).length < 2 ^ 32 := by
    intro f hf
    refine lt_of_le_of_lt ?_ hlen
    rw [List.length_flatMap, List.length_flatten]
    induction pages with
    | nil => simp
    | cons p ps ih =>
      have := ih (by rw [List.flatten_cons, List.length_append] at hlen; omega)
      simp only [List.map_cons, List.sum_cons]
      have := hf p
      omega
  have hcl : ∀ p : List Word, (consecutive p).length ≤ p.length := by
    intro p; simp [consecutive]
  have l1 := hle (pageHeights doc.mostFreqFontSize) (fun p => by
    unfold pageHeights; rw [List.length_map]; exact List.length_filter_le _ _)
  have l2 := hle (pageHGaps doc.mostFreqFontSize) (fun p => by
    unfold pageHGaps; rw [List.length_map]
    exact ((List.length_filter_le _ _).trans (List.length_filter_le _ _)).trans (hcl p))
  have l3 := hle (pageVGaps doc.mostFreqFontSize) (fun p => by
    unfold pageVGaps; rw [List.length_map]
    exact ((List.length_filter_le _ _).trans (List.length_filter_le _ _)).trans (hcl p))
  unfold wordStatistics
  simp only
  rw [wordLoop_pages]
  simp only [List.nil_append]
  obtain ⟨a, a1, a2⟩ := mostFreqOr_full h 0 doc.mostFreqWordHeight _ l1
  obtain ⟨b, b1, b2⟩ := mostFreqOr_full h 0 doc.mostFreqWordDistance _ l2
  obtain ⟨c, c1, c2⟩ := mostFreqOr_full h 0 doc.mostFreqEstimatedLineDistance _ l3
  rw [a1, b1, c1]
  exact ⟨_, rfl, a2, b2, c2, by cases doc; rfl⟩

/-! ### Lines -/

/-- Consecutive lines of a segment with the same rotation and writing mode. -/
def comparableLines (seg : List BasedLine) : List (BasedLine × BasedLine) :=
  (consecutive seg).filter fun p => decide (p.1.1.pos.rotation = p.2.1.pos.rotation) &&
    decide (p.1.1.pos.wMode = p.2.1.pos.wMode)

/-- The gap between the base boxes of two lines, rounded to one decimal and at least 0. -/
def baseGap (p : BasedLine × BasedLine) : ℚ := max 0 (roundTo (p.2.2.upperY - p.1.2.lowerY) 1)

/-- The gaps between lines of (almost) the same font size, the second of them of size `fs`. -/
def gapsOfSize (fs : ℚ) (pairs : List (BasedLine × BasedLine)) : List ℚ :=
  (pairs.filter fun p => decide (|p.1.1.fontSize - p.2.1.fontSize| ≤ 1) &&
    decide (p.2.1.fontSize = fs)).map baseGap

/-- The state of the counters after counting the given pairs. -/
structure LineInv (pairs : List (BasedLine × BasedLine)) (k : LineCounts) : Prop where
  dists : k.dists = pairs.map baseGap
  nodup : (k.perSize.map (·.1)).Nodup
  found : ∀ e ∈ k.perSize, e.2 = gapsOfSize e.1 pairs
  nonempty : ∀ e ∈ k.perSize, e.2 ≠ []
  missing : ∀ fs, fs ∉ k.perSize.map (·.1) → gapsOfSize fs pairs = []

theorem addDistance_keys (fs d : ℚ) (m : List (ℚ × List ℚ)) :
    (addDistance fs d m).map (·.1) =
      if fs ∈ m.map (·.1) then m.map (·.1) else m.map (·.1) ++ [fs] := by
  induction m with
  | nil => simp [addDistance]
  | cons e es ih =>
    unfold addDistance
    by_cases h : e.1 = fs
    · rw [if_pos h]
      simp [h]
    · rw [if_neg h, List.map_cons, ih]
      have h' : ¬ fs = e.1 := fun g => h g.symm
      by_cases g : fs ∈ es.map (·.1)
      · rw [if_pos g, if_pos (by simp only [List.map_cons, List.mem_cons]; exact Or.inr g)]; rfl
      · rw [if_neg g, if_neg (by simp only [List.map_cons, List.mem_cons]; exact not_or.mpr ⟨h', g⟩)]; rfl

theorem addDistance_mem (fs d : ℚ) (m : List (ℚ × List ℚ)) (hnd : (m.map (·.1)).Nodup) :
    ∀ e ∈ addDistance fs d m, (e.1 ≠ fs ∧ e ∈ m) ∨
      (e.1 = fs ∧ ((∃ l, (fs, l) ∈ m ∧ e.2 = l ++ [d]) ∨ (fs ∉ m.map (·.1) ∧ e.2 = [d]))) := by
  induction m with
  | nil => intro e he; simp [addDistance] at he; subst he; simp
  | cons x xs ih =>
    intro e he
    unfold addDistance at he
    rw [List.map_cons, List.nodup_cons] at hnd
    by_cases h : x.1 = fs
    · rw [if_pos h] at he
      rcases List.mem_cons.mp he with rfl | he
      · right
        refine ⟨h, Or.inl ⟨x.2, ?_, rfl⟩⟩
        rw [← h]; simp
      · left
        refine ⟨?_, by simp [he]⟩
        intro g
        apply hnd.1
        rw [h, ← g]
        exact List.mem_map.mpr ⟨e, he, rfl⟩
    · rw [if_neg h] at he
      rcases List.mem_cons.mp he with rfl | he
      · exact Or.inl ⟨h, by simp⟩
      · rcases ih hnd.2 e he with ⟨g1, g2⟩ | ⟨g1, ⟨l, g2, g3⟩ | ⟨g2, g3⟩⟩
        · exact Or.inl ⟨g1, by simp [g2]⟩
        · exact Or.inr ⟨g1, Or.inl ⟨l, by simp [g2], g3⟩⟩
        · refine Or.inr ⟨g1, Or.inr ⟨?_, g3⟩⟩
          simp only [List.map_cons, List.mem_cons, not_or]
          exact ⟨fun h' => h h'.symm, g2⟩

theorem lineStep_inv {pairs : List (BasedLine × BasedLine)} {k : LineCounts} (hk : LineInv pairs k)
    (p c : BasedLine) : LineInv (pairs ++ comparableLines [p, c]) (lineStep p c k) := by
  have hc : consecutive [p, c] = [(p, c)] := rfl
  unfold lineStep comparableLines
  rw [hc]
  by_cases h1 : p.1.pos.rotation = c.1.pos.rotation
  swap
  · simpa [h1] using hk
  by_cases h2 : p.1.pos.wMode = c.1.pos.wMode
  swap
  · simpa [h1, h2] using hk
  simp only [h1, h2, ne_eq, not_true, if_false, List.filter_cons, decide_true, Bool.and_self, if_true,
    List.filter_nil]
  have hd : lineDistance p c = baseGap (p, c) := by simp [lineDistance, baseGap, maximum_eq_max]
  rw [hd]
  by_cases h3 : equal p.1.fontSize c.1.fontSize 1 = true
  · rw [if_pos h3]
    rw [equal_iff] at h3
    have hg : ∀ fs, gapsOfSize fs (pairs ++ [(p, c)]) =
        if c.1.fontSize = fs then gapsOfSize fs pairs ++ [baseGap (p, c)] else gapsOfSize fs pairs := by
      intro fs
      unfold gapsOfSize
      by_cases g : c.1.fontSize = fs
      · subst g
        rw [if_pos rfl, List.filter_append, List.map_append]
        simp only [List.filter_cons, List.filter_nil, h3, decide_true, Bool.and_self, if_true, List.map_cons,
          List.map_nil]
      · rw [if_neg g, List.filter_append, List.map_append]
        simp only [List.filter_cons, List.filter_nil, g, decide_false, Bool.and_false, Bool.false_eq_true, if_false,
          List.map_nil, List.append_nil]
    constructor
    · simp [hk.dists]
    · change ((addDistance _ _ _).map (·.1)).Nodup
      rw [addDistance_keys]
      split
      · exact hk.nodup
      · next g => exact List.nodup_append.mpr ⟨hk.nodup, by simp, by
          intro a ha b hb; rw [List.mem_singleton] at hb; rintro rfl; rw [hb] at ha; exact g ha⟩
    · intro e he
      rcases addDistance_mem _ _ _ hk.nodup e he with ⟨g1, g2⟩ | ⟨g1, ⟨l, g2, g3⟩ | ⟨g2, g3⟩⟩
      · rw [hg, if_neg (fun g => g1 g.symm)]; exact hk.found e g2
      · rw [hg, if_pos g1.symm, g3, show l = _ from hk.found _ g2, g1]
      · rw [hg, if_pos g1.symm, g3, g1, hk.missing _ g2]; rfl
    · intro e he
      rcases addDistance_mem _ _ _ hk.nodup e he with ⟨g1, g2⟩ | ⟨g1, ⟨l, g2, g3⟩ | ⟨g2, g3⟩⟩
      · exact hk.nonempty e g2
      · simp [g3]
      · simp [g3]
    · intro fs hfs
      change fs ∉ (addDistance _ _ _).map (·.1) at hfs
      rw [addDistance_keys] at hfs
      rw [hg]
      split at hfs
      · next g =>
        rw [if_neg (by rintro rfl; exact hfs g)]
        exact hk.missing fs hfs
      · rw [List.mem_append, not_or] at hfs
        rw [if_neg (by rintro rfl; simp at hfs)]
        exact hk.missing fs hfs.1
  · rw [if_neg h3]
    rw [equal_iff] at h3
    have hg : ∀ fs, gapsOfSize fs (pairs ++ [(p, c)]) = gapsOfSize fs pairs := by
      intro fs
      unfold gapsOfSize
      simp [List.filter_append, List.filter_cons, h3]
    exact ⟨by simp [hk.dists], hk.nodup, fun e he => by rw [hg]; exact hk.found e he, hk.nonempty,
      fun fs hfs => by rw [hg]; exact hk.missing fs hfs⟩

theorem lineLoop_inv (seg : List BasedLine) : ∀ (pairs : List (BasedLine × BasedLine)) (k : LineCounts),
    LineInv pairs k → LineInv (pairs ++ comparableLines seg) (lineLoop seg k) := by
  induction seg with
  | nil => intro pairs k hk; simpa [comparableLines, consecutive, lineLoop] using hk
  | cons p rest ih =>
    intro pairs k hk
    cases rest with
    | nil => simpa [comparableLines, consecutive, lineLoop] using hk
    | cons c rest =>
      have := ih _ _ (lineStep_inv hk p c)
      have c1 : comparableLines (p :: c :: rest) = comparableLines [p, c] ++ comparableLines (c :: rest) := by
        unfold comparableLines
        rw [← List.filter_append]
        rfl
      rw [c1, ← List.append_assoc]
      exact this

theorem lineLoop_segments (segs : List (List BasedLine)) :
    ∀ (pairs : List (BasedLine × BasedLine)) (k : LineCounts), LineInv pairs k →
      LineInv (pairs ++ segs.flatMap comparableLines) (segs.foldl (fun k seg => lineLoop seg k) k) := by
  induction segs with
  | nil => intro pairs k hk; simpa using hk
  | cons s ss ih =>
    intro pairs k hk
    have := ih _ _ (lineLoop_inv s pairs k hk)
    simpa using this

theorem perSizeLoop_spec (h : HashOrder) (es : List (ℚ × List ℚ)) (hnd : (es.map (·.1)).Nodup)
    (hne : ∀ e ∈ es, e.2 ≠ []) (hlen : ∀ e ∈ es, e.2.length < 2 ^ 32) : ∀ m : ℚ → Option ℚ,
    ∃ r, perSizeLoop h es m = .ok r ∧
      (∀ e ∈ es, ∃ d, r e.1 = some d ∧ IsMostFrequent e.2 d) ∧
      (∀ fs, fs ∉ es.map (·.1) → r fs = m fs) := by
  induction es with
  | nil => intro m; exact ⟨m, rfl, by simp, by simp⟩
  | cons e es ih =>
    intro m
    rw [List.map_cons, List.nodup_cons] at hnd
    obtain ⟨d, hd1, hd2⟩ := mostFreqOr_spec h (0 : ℚ) 0 e.2
    have hd2 := hd2 (hne e (by simp)) (hlen e (by simp))
    have hsum : sumCounts (h.order ℚ (countAll e.2)) > 0 := by
      rw [c07_sumCounts _ _ (h.perm ℚ (countAll e.2)), Nat.mod_eq_of_lt (hlen e (by simp))]
      exact List.length_pos_iff.mpr (hne e (by simp))
    unfold mostFreqOr at hd1
    simp only at hd1
    rw [if_pos hsum] at hd1
    obtain ⟨r, h1, h2, h3⟩ := ih hnd.2 (fun x hx => hne x (by simp [hx]))
      (fun x hx => hlen x (by simp [hx])) (fun fs => if fs = e.1 then some d else m fs)
    refine ⟨r, ?_, ?_, ?_⟩
    · unfold perSizeLoop
      simp only
      rw [if_pos hsum, hd1]
      exact h1
    · intro x hx
      rcases List.mem_cons.mp hx with rfl | hx
      · refine ⟨d, ?_, hd2⟩
        rw [h3 _ hnd.1]; simp
      · exact h2 x hx
    · intro fs hfs
      rw [List.map_cons, List.mem_cons, not_or] at hfs
      rw [h3 fs hfs.2]
      simp [hfs.1]

/-- C58 (lines): the line distance of the document is a most frequent gap between the base boxes of
consecutive lines of a segment with the same rotation and writing mode (rounded to one decimal, at
least 0); the line distance for a font size is a most frequent gap among the pairs of lines of almost
equal font size whose second line has that size.  A statistic without any data keeps its value, and
nothing else changes. -/
theorem c58_line_statistics (lib : LineLib) (doc : Stats) (segments : List (List BasedLine))
    (hlen : segments.flatten.length < 2 ^ 32) :
    ∃ r, lineStatistics lib doc segments = .ok r ∧
      MostFrequentOr doc.mostFreqLineDistance ((segments.flatMap comparableLines).map baseGap)
        r.mostFreqLineDistance ∧
      (∀ fs, (gapsOfSize fs (segments.flatMap comparableLines) = [] →
          r.mostFreqLineDistancePerFontSize fs = doc.mostFreqLineDistancePerFontSize fs) ∧
        (gapsOfSize fs (segments.flatMap comparableLines) ≠ [] →
          ∃ d, r.mostFreqLineDistancePerFontSize fs = some d ∧
            IsMostFrequent (gapsOfSize fs (segments.flatMap comparableLines)) d)) ∧
      { r with mostFreqLineDistance := doc.mostFreqLineDistance,
               mostFreqLineDistancePerFontSize := doc.mostFreqLineDistancePerFontSize } = doc := by
  have hinv : LineInv ([] ++ segments.flatMap comparableLines)
      (segments.foldl (fun k seg => lineLoop seg k) {}) := by
    apply lineLoop_segments
    exact ⟨rfl, by simp, by simp, by simp, fun fs _ => rfl⟩
  rw [List.nil_append] at hinv
  have hpl : (segments.flatMap comparableLines).length < 2 ^ 32 := by
    refine lt_of_le_of_lt ?_ hlen
    rw [List.length_flatMap, List.length_flatten]
    clear hinv hlen
    induction segments with
    | nil => simp
    | cons p ps ih =>
      simp only [List.map_cons, List.sum_cons]
      have : (comparableLines p).length ≤ p.length := by
        unfold comparableLines
        exact (List.length_filter_le _ _).trans (by simp [consecutive])
      omega
  have hgl : ∀ fs, (gapsOfSize fs (segments.flatMap comparableLines)).length < 2 ^ 32 := by
    intro fs
    unfold gapsOfSize
    rw [List.length_map]
    exact lt_of_le_of_lt (List.length_filter_le _ _) hpl
  unfold lineStatistics
  simp only
  generalize segments.foldl (fun k seg => lineLoop seg k) {} = k at hinv ⊢
  have hp := lib.iterPerm _ k.perSize
  obtain ⟨a, a1, a2⟩ := mostFreqOr_full lib.hash 0 doc.mostFreqLineDistance k.dists
    (by rw [hinv.dists, List.length_map]; exact hpl)
  obtain ⟨m, m1, m2, m3⟩ := perSizeLoop_spec lib.hash (lib.iter _ k.perSize)
    ((hp.map _).nodup_iff.mpr hinv.nodup) (fun e he => hinv.nonempty e (hp.subset he))
    (fun e he => by rw [hinv.found e (hp.subset he)]; exact hgl e.1) doc.mostFreqLineDistancePerFontSize
  rw [a1, m1]
  refine ⟨_, rfl, by rw [← hinv.dists]; exact a2, ?_, by cases doc; rfl⟩
  intro fs
  change (_ → m fs = _) ∧ (_ → ∃ d, m fs = some d ∧ _)
  by_cases hfs : fs ∈ k.perSize.map (·.1)
  · obtain ⟨e, he, rfl⟩ := List.mem_map.mp hfs
    refine ⟨fun h => absurd (hinv.found e he ▸ h) (hinv.nonempty e he), fun _ => ?_⟩
    obtain ⟨d, d1, d2⟩ := m2 e (hp.mem_iff.mpr he)
    exact ⟨d, d1, by rw [← hinv.found e he]; exact d2⟩
  · refine ⟨fun _ => m3 fs (fun h => hfs ((hp.map _).subset h)), fun h => absurd (hinv.missing fs hfs) h⟩

/-- A limit of the line statistics (the distance is always measured along the y-axis): in a segment in
which all lines are turned by 90 degrees and each line begins (on the page) above the lower end of
the line before - as in every paragraph turned by 90 degrees - every counted distance is 0, however
far the lines are apart from each other. -/
theorem c58_turned_lines_distance_zero (lib : LineLib) (doc : Stats) (segments : List (List BasedLine))
    (hlen : segments.flatten.length < 2 ^ 32)
    (hy : ∀ seg ∈ segments, ∀ p ∈ consecutive seg, p.2.2.upperY ≤ p.1.2.lowerY)
    (hne : segments.flatMap comparableLines ≠ []) :
    ∃ r, lineStatistics lib doc segments = .ok r ∧ r.mostFreqLineDistance = 0 := by
  obtain ⟨r, h1, h2, _⟩ := c58_line_statistics lib doc segments hlen
  refine ⟨r, h1, ?_⟩
  obtain ⟨p, hp, hp2⟩ := List.mem_map.mp (h2.2 (by simpa using hne)).1
  rw [← hp2]
  obtain ⟨seg, hs, hps⟩ := List.mem_flatMap.mp hp
  have h3 := hy seg hs p (List.mem_filter.mp hps).1
  unfold baseGap
  refine max_eq_left ?_
  rw [roundTo_eq]
  apply div_nonpos_of_nonpos_of_nonneg _ (by norm_num)
  have h4 : stdRound ((p.2.2.upperY - p.1.2.lowerY) * 10 ^ 1) ≤ 0 := by
    unfold stdRound
    split
    · next h =>
      have : (p.2.2.upperY - p.1.2.lowerY) * 10 ^ 1 = 0 := by linarith
      rw [this]; norm_num
    · rw [neg_nonpos]
      apply Int.floor_nonneg.mpr
      linarith
  exact_mod_cast h4

/-! ### Examples -/

/-- Three characters on two pages meet the hypotheses of `c53_glyph_statistics`. -/
example : (let pages := [[sampleGlyph 0 10 'a', sampleGlyph 1 20 'b'], [sampleGlyph 2 10 'c']]
    pages.flatten ≠ [] ∧ pages.flatten.length < 2 ^ 32) := by
  decide +kernel

/-- Two words side by side and one in the next line: every list of `c58_word_statistics` has data. -/
example : (let pages := [[wordAt 10 20 "a", wordAt 30 20 "b", wordAt 10 35 "c"]]
    pages.flatMap (pageHGaps 10) = [10] ∧ pages.flatMap (pageVGaps 10) = [5] ∧
      pages.flatMap (pageHeights 10) = [10, 10, 10]) := by
  decide +kernel

/-- Three lines with gaps 2, 2 in one segment: the lists of `c58_line_statistics` have data. -/
example : (let line := fun y : ℚ => (({ words := [], fontSize := 10 } : Line),
      ({ upperY := y, lowerY := y + 10, leftX := 10, rightX := 100 } : Box))
    let segments := [[line 10, line 22, line 34]]
    (segments.flatMap comparableLines).map baseGap = [2, 2] ∧
      gapsOfSize 10 (segments.flatMap comparableLines) = [2, 2]) := by
  decide +kernel

/-- Two lines turned by 90 degrees, 20 units apart from each other: the hypotheses of
`c58_turned_lines_distance_zero` hold. -/
example : (let line := fun x : ℚ => (({ words := [], fontSize := 10, pos := { rotation := 1 } } : Line),
      ({ upperY := 50, lowerY := 300, leftX := x, rightX := x + 10 } : Box))
    let segments := [[line 100, line 70]]
    (∀ seg ∈ segments, ∀ p ∈ consecutive seg, p.2.2.upperY ≤ p.1.2.lowerY) ∧
      (segments.flatMap comparableLines).length = 1) := by
  decide +kernel

end Verif.Props
