import Verif.Spec.BlockShape
import Verif.Props.Geometry
import Verif.Props.LineHierarchy
import Verif.Props.TextLines

/-!
# C66: what block detection finds out about a block

Centering, hanging indent, footnote labels: the functions return what the specification says.
-/

namespace Verif.Props

open Verif.Math Verif.Elements Verif.Spec Verif.Words Verif.TextLines Verif.TextBlocks Verif.Counter

/-! ## Centered lines -/

theorem bs_centeredPair_iff (d : Doc) (a b : Line) :
    computeIsCentered d a b = true ↔ CenteredPair d.avgCharWidth a.pos b.pos := by
  unfold computeIsCentered CenteredPair
  rw [(c04_elements a.pos b.pos).2.2.1, (c04_elements a.pos b.pos).1, c04_value]
  simp only
  rw [show tol = 1 / 10000 from rfl]
  split
  · next h => rw [smaller_iff] at h; simp only [Bool.false_eq_true, false_iff, not_and]; intro h'; linarith
  · next h =>
    rw [smaller_iff, not_lt] at h
    rw [equal_iff]
    exact ⟨fun h' => ⟨h, h'⟩, fun h' => h'.2⟩

theorem bs_staggered_iff (d : Doc) (a b : Line) :
    largeOffset d a b = true ↔ Staggered d.avgCharWidth a b := by
  unfold largeOffset Staggered containsFormula
  simp only [Bool.and_eq_true, Bool.not_eq_true', Bool.or_eq_false_iff, Bool.or_eq_true, larger_iff,
    List.contains_eq_mem, decide_eq_false_iff_not, gt_iff_lt]
  rw [show tol = 1 / 10000 from rfl]
  unfold leftDist rightDist computeLeftXOffset computeRightXOffset
  tauto

open Classical in
theorem bs_centeredLoop (d : Doc) (ls : List Line) : ∀ (prev : Line) (b : Bool) (n : ℕ),
    centeredLoop d prev b n ls = true ↔
      (∀ p ∈ pairs (prev :: ls), CenteredPair d.avgCharWidth p.1.pos p.2.pos) ∧
      (b = true ∨ ∃ p ∈ pairs (prev :: ls), Staggered d.avgCharWidth p.1 p.2) ∧
      n + ((pairs (prev :: ls)).filter fun p => decide (¬ Staggered d.avgCharWidth p.1 p.2)).length ≤ 5 := by
  induction ls with
  | nil => intro prev b n; simp [centeredLoop, pairs]
  | cons l ls ih =>
    intro prev b n
    have hp : pairs (prev :: l :: ls) = (prev, l) :: pairs (l :: ls) := rfl
    rw [centeredLoop, hp]
    by_cases hc : computeIsCentered d prev l = true
    · rw [if_neg (by simp [hc])]
      have hc' := (bs_centeredPair_iff d prev l).mp hc
      by_cases hs : largeOffset d prev l = true
      · have hs' := (bs_staggered_iff d prev l).mp hs
        rw [if_pos hs, ih]
        simp [hc', hs']
      · have hs' := mt (bs_staggered_iff d prev l).mpr hs
        rw [if_neg hs, ih]
        simp only [List.forall_mem_cons, hc', true_and, List.exists_mem_cons_iff, hs', false_or,
          List.filter_cons, not_false_eq_true, decide_true, if_true, List.length_cons]
        rw [show n + 1 + (List.filter (fun p => decide (¬Staggered d.avgCharWidth p.1 p.2)) (pairs (l :: ls))).length
          = n + ((List.filter (fun p => decide (¬Staggered d.avgCharWidth p.1 p.2)) (pairs (l :: ls))).length + 1) by omega]
    · rw [if_pos (by simpa using hc)]
      have hc' := mt (bs_centeredPair_iff d prev l).mpr hc
      simp [hc']

/-- C66: the lines of a block count as centered exactly when all consecutive lines are centered, some
pair visibly (and without a formula), and at most five pairs are not. -/
theorem c66_lines_centered (d : Doc) (ls : List Line) :
    computeIsTextLinesCentered d ls = true ↔ LinesCentered d.avgCharWidth ls := by
  cases ls with
  | nil => simp [computeIsTextLinesCentered, LinesCentered, pairs]
  | cons l ls =>
    rw [computeIsTextLinesCentered, bs_centeredLoop]
    simp [LinesCentered]

/-! ## Footnote labels -/

theorem bs_alphabet : footnoteAlphabet = specialLabelBytes := by decide +kernel

theorem bs_labelChar_iff (c : Glyph) (x : Char) (t : Text.Str) (h : c.text = x :: t) :
    (footnoteAlphabet.contains x || (c.isSuperscript && isAlnumC x)) = true ↔ LabelChar c := by
  rw [bs_alphabet]
  unfold LabelChar isAlnumC isAlphaC Text.isUpperC
  simp only [h, List.head?_cons, Option.some.injEq, exists_eq_left', Bool.or_eq_true, Bool.and_eq_true,
    List.contains_eq_mem, decide_eq_true_eq, Char.le_def, UInt32.le_iff_toNat_le]
  simp only [show ('A' : Char).val.toNat = 65 from rfl, show ('Z' : Char).val.toNat = 90 from rfl,
    show ('a' : Char).val.toNat = 97 from rfl, show ('z' : Char).val.toNat = 122 from rfl,
    show ('0' : Char).val.toNat = 48 from rfl, show ('9' : Char).val.toNat = 57 from rfl]
  have : x.toNat = x.val.toNat := rfl
  rw [this]
  tauto

/-- The maximal runs of label characters in a list, if the list is preceded by the run `pre`. -/
def RunIn (pre cs : List Glyph) (label : Text.Str) : Prop :=
  ∃ a run b, pre ++ cs = a ++ run ++ b ∧ run ≠ [] ∧ (∀ c ∈ run, LabelChar c) ∧
    (∀ x, a.getLast? = some x → ¬ LabelChar x) ∧ (∀ x, b.head? = some x → ¬ LabelChar x) ∧
    label = (run.map (·.text)).flatten

theorem bs_runIn_labels (pre : List Glyph) (h : ∀ c ∈ pre, LabelChar c) (label : Text.Str) :
    RunIn pre [] label ↔ pre ≠ [] ∧ label = (pre.map (·.text)).flatten := by
  constructor
  · rintro ⟨a, run, b, h1, h2, h3, h4, h5, rfl⟩
    rw [List.append_nil] at h1
    have ha : a = [] := by
      rcases List.eq_nil_or_concat a with rfl | ⟨a', x, rfl⟩
      · rfl
      · exact absurd (h x (by rw [h1]; simp)) (h4 x (by simp))
    have hb : b = [] := by
      cases b with
      | nil => rfl
      | cons x b => exact absurd (h x (by rw [h1]; simp)) (h5 x rfl)
    subst ha hb
    simp only [List.nil_append, List.append_nil] at h1
    subst h1
    exact ⟨h2, rfl⟩
  · rintro ⟨h1, rfl⟩
    exact ⟨[], pre, [], by simp, h1, h, by simp, by simp, rfl⟩

/-- A character that is no label character ends the run. -/
theorem bs_runIn_cut (pre : List Glyph) (h : ∀ c ∈ pre, LabelChar c) (c : Glyph) (hc : ¬ LabelChar c)
    (cs : List Glyph) (label : Text.Str) :
    RunIn pre (c :: cs) label ↔ (pre ≠ [] ∧ label = (pre.map (·.text)).flatten) ∨ RunIn [] cs label := by
  constructor
  · rintro ⟨a, run, b, h1, h2, h3, h4, h5, rfl⟩
    rw [List.append_assoc] at h1
    rcases List.append_eq_append_iff.mp h1 with ⟨u, hu, hv⟩ | ⟨u, hu, hv⟩
    · -- a = pre ++ u, c :: cs = u ++ (run ++ b)
      cases u with
      | nil =>
        rw [List.nil_append] at hv
        cases run with
        | nil => exact absurd rfl h2
        | cons r run =>
          simp only [List.cons_append, List.cons.injEq] at hv
          exact absurd (h3 r (by simp)) (by rw [← hv.1]; exact hc)
      | cons y u =>
        simp only [List.cons_append, List.cons.injEq] at hv
        obtain ⟨rfl, hv⟩ := hv
        right
        refine ⟨u, run, b, by rw [hv]; simp, h2, h3, ?_, h5, rfl⟩
        intro x hx
        apply h4 x
        rw [hu, List.getLast?_append]
        rw [List.getLast?_cons, hx]
        rfl
    · -- pre = a ++ u, run ++ b = u ++ c :: cs
      have ha : a = [] := by
        rcases List.eq_nil_or_concat a with rfl | ⟨a', x, rfl⟩
        · rfl
        · exact absurd (h x (by rw [hu]; simp)) (h4 x (by simp))
      subst ha
      rw [List.nil_append] at hu
      subst hu
      rcases List.append_eq_append_iff.mp hv with ⟨w, hw, hw'⟩ | ⟨w, hw, hw'⟩
      · -- u = run ++ w, b = w ++ c :: cs
        have hwn : w = [] := by
          cases w with
          | nil => rfl
          | cons x w => exact absurd (h x (by rw [hw]; simp)) (h5 x (by rw [hw']; rfl))
        subst hwn
        rw [List.append_nil] at hw
        subst hw
        exact Or.inl ⟨h2, rfl⟩
      · -- run = u ++ w, c :: cs = w ++ b
        cases w with
        | nil =>
          rw [List.append_nil] at hw
          subst hw
          exact Or.inl ⟨h2, rfl⟩
        | cons x w =>
          simp only [List.cons_append, List.cons.injEq] at hw'
          exact absurd (h3 x (by rw [hw]; simp)) (by rw [← hw'.1]; exact hc)
  · rintro (⟨h1, rfl⟩ | ⟨a, run, b, h1, h2, h3, h4, h5, rfl⟩)
    · exact ⟨[], pre, c :: cs, by simp, h1, h, by simp, by simpa using hc, rfl⟩
    · refine ⟨pre ++ c :: a, run, b, ?_, h2, h3, ?_, h5, rfl⟩
      · rw [List.nil_append] at h1; rw [h1]; simp
      · intro x hx
        rw [List.getLast?_append, List.getLast?_cons] at hx
        cases hl : a.getLast? with
        | none => rw [hl] at hx; simp at hx; subst hx; exact hc
        | some y => rw [hl] at hx; simp at hx; subst hx; exact h4 y hl

theorem bs_insertLabel (labels : List Text.Str) (label t : Text.Str) :
    t ∈ insertLabel labels label ↔ t ∈ labels ∨ (label ≠ [] ∧ t = label) := by
  unfold insertLabel
  cases label with
  | nil => simp
  | cons x l => simp; tauto

theorem bs_flatten_ne {pre : List Glyph} (h : ∀ c ∈ pre, LabelChar c) :
    (pre.map (·.text)).flatten ≠ [] ↔ pre ≠ [] := by
  cases pre with
  | nil => simp
  | cons c pre =>
    obtain ⟨x, hx, _⟩ := h c (by simp)
    cases ht : c.text with
    | nil => rw [ht] at hx; cases hx
    | cons y t => simp [ht]

theorem bs_labelLoop_seen (cs : List Glyph) : ∀ (pre : List Glyph) (labels : List Text.Str),
    (∀ c ∈ pre, LabelChar c) → ∀ t,
    t ∈ labelLoop true (pre.map (·.text)).flatten labels cs ↔
      t ∈ labels ∨ RunIn pre (cs.filter fun c => !c.text.isEmpty) t := by
  induction cs with
  | nil =>
    intro pre labels h t
    rw [labelLoop, bs_insertLabel, bs_flatten_ne h, List.filter_nil, bs_runIn_labels pre h]
  | cons c cs ih =>
    intro pre labels h t
    rw [labelLoop]
    simp only [Bool.not_true, Bool.false_and, Bool.false_eq_true, if_false]
    cases hct : c.text with
    | nil => simp only [List.filter_cons, hct, List.isEmpty_nil, Bool.not_true, Bool.false_eq_true, if_false]; exact ih pre labels h t
    | cons x tx =>
      simp only [List.filter_cons, hct, List.isEmpty_cons, Bool.not_false, if_true]
      by_cases hl : LabelChar c
      · rw [if_pos ((bs_labelChar_iff c x tx hct).mpr hl)]
        have := ih (pre ++ [c]) labels (by
          intro y hy
          rw [List.mem_append, List.mem_singleton] at hy
          rcases hy with hy | rfl
          · exact h y hy
          · exact hl) t
        rw [List.map_append, List.flatten_append] at this
        simp only [List.map_cons, List.map_nil, List.flatten_cons, List.flatten_nil, List.append_nil, hct] at this
        rw [this, RunIn, RunIn]
        simp only [List.append_assoc, List.singleton_append]
      · rw [if_neg (mt (bs_labelChar_iff c x tx hct).mp hl)]
        have := ih [] (insertLabel labels (pre.map (·.text)).flatten) (by simp) t
        rw [List.map_nil, List.flatten_nil] at this
        rw [this, bs_insertLabel, bs_flatten_ne h, bs_runIn_cut pre h c hl]
        tauto

theorem bs_labelLoop (cs : List Glyph) (labels : List Text.Str) (t : Text.Str) :
    t ∈ labelLoop false [] labels cs ↔ t ∈ labels ∨ RunIn [] (behindBase cs) t := by
  induction cs with
  | nil =>
    rw [labelLoop, bs_insertLabel]
    simp [behindBase, RunIn]
  | cons c cs ih =>
    rw [labelLoop]
    by_cases hn : c.isSubscript = false ∧ c.isSuperscript = false
    · rw [if_pos (by simp [hn])]
      have := bs_labelLoop_seen cs [] labels (by simp) t
      rw [List.map_nil, List.flatten_nil] at this
      rw [this]
      simp [behindBase, List.dropWhile_cons, hn]
    · rw [if_neg (by simpa using hn), if_pos (by simp), ih]
      have : (c.isSubscript || c.isSuperscript) = true := by
        cases h1 : c.isSubscript <;> cases h2 : c.isSuperscript <;> simp_all
      simp only [behindBase, List.dropWhile_cons, this, if_true]

theorem bs_fold_labels (ws : List Word) : ∀ (labels : List Text.Str) (t : Text.Str),
    t ∈ computePotentialFootnoteLabels ws labels ↔ t ∈ labels ∨ ∃ w ∈ ws, LabelOf w t := by
  induction ws with
  | nil => intro labels t; simp [computePotentialFootnoteLabels]
  | cons w ws ih =>
    intro labels t
    have := ih (labelLoop false [] labels w.chars) t
    unfold computePotentialFootnoteLabels at this ⊢
    rw [List.foldl_cons, this, bs_labelLoop, List.exists_mem_cons_iff]
    have : RunIn [] (behindBase w.chars) t ↔ LabelOf w t := by
      unfold RunIn LabelOf; rw [List.nil_append]
    rw [this, or_assoc]

/-- C66: the footnote labels collected from a line are the old ones and, for every word of the line,
the longest runs of label characters behind its first normal character. -/
theorem c66_footnote_labels (ws : List Word) (labels : List Text.Str) (t : Text.Str) :
    t ∈ computePotentialFootnoteLabels ws labels ↔ t ∈ labels ∨ ∃ w ∈ ws, LabelOf w t :=
  bs_fold_labels ws labels t

/-! ## Hanging indents -/

theorem mostFreqAndCount_spec (h : HashOrder) (xs : List ℚ) :
    ∃ p, (if sumCounts (h.order ℚ (countAll xs)) > 0 then
        mostFreqAndCount 0 (h.order ℚ (countAll xs)) else Outcome.ok (0, 0)) = .ok p ∧
      (xs.length % 2 ^ 32 = 0 ∧ p = (0, 0) ∨ IsMostFrequent xs p.1 ∧ p.2 = occurrences xs p.1) := by
  have hocc : ∀ y, occurrences xs y = xs.count y := by
    intro y
    rw [occurrences, List.count_eq_length_filter]
    rfl
  have hp := h.perm ℚ (countAll xs)
  obtain ⟨h1, h2⟩ := c07_most_frequent_element 0 xs _ hp
  rw [c07_sumCounts xs _ hp]
  split
  · next hpos =>
    have hne : xs ≠ [] := by rintro rfl; simp at hpos
    cases hm : mostFreqAndCount 0 (h.order ℚ (countAll xs)) with
    | ok p =>
      obtain ⟨g1, g2, g3⟩ := h2 p.1 p.2 hm
      exact ⟨p, rfl, Or.inr ⟨⟨g1, by simpa [hocc] using g3⟩, by rw [hocc]; exact g2⟩⟩
    | throw m => exact absurd (h1.mp (by rw [hm]; rfl)) hne
    | ub m =>
      unfold mostFreqAndCount at hm
      simp only at hm
      split at hm <;> cases hm
  · next hpos =>
    exact ⟨(0, 0), rfl, Or.inl ⟨by omega, rfl⟩⟩

/-- The tests of the second loop of `computeHangingIndent`. -/
def hangRel (d : Doc) (l r : ℕ → ℚ) (i : ℕ) : Bool :=
  decide (3 ≤ (d.line i).text.length) && !(equal (l i) (r i) d.avgCharWidth && larger (l i) d.avgCharWidth tol)

def hangInd (d : Doc) (l : ℕ → ℚ) (m : ℚ) (i : ℕ) : Bool := equal (l i) m d.avgCharWidth

def hangNon (d : Doc) (l : ℕ → ℚ) (i : ℕ) : Bool := equal (l i) 0 d.avgCharWidth

def hangLow (d : Doc) (i : ℕ) : Bool := ((d.line i).text.head?.map isLowerC).getD false

def hangName (d : Doc) (i : ℕ) : Bool :=
  ((d.line i).words.head?.map fun w => lastNamePrefixes.contains w.text).getD false

theorem bs_hangStep (d : Doc) (s : State) (m : ℚ) (c : HangCounts) (k i : ℕ) :
    hangStep d s m c k i = if hangRel d s.leftMargin s.rightMargin i then
      { isFirstLineIndented := if k = 0 then hangInd d s.leftMargin m i else c.isFirstLineIndented
        hasFirstLineCapacity := if k = 1 then computeHasPrevLineCapacity d s (s.prevLine i) i
          else c.hasFirstLineCapacity
        isAllOtherLinesIndented := if 0 < k then c.isAllOtherLinesIndented && hangInd d s.leftMargin m i
          else c.isAllOtherLinesIndented
        numLowercasedNonIndented := if hangLow d i && !hangName d i && hangNon d s.leftMargin i
          then c.numLowercasedNonIndented + 1 else c.numLowercasedNonIndented
        numLowercasedIndented := if hangLow d i && hangInd d s.leftMargin m i
          then c.numLowercasedIndented + 1 else c.numLowercasedIndented
        numNonIndented := if hangNon d s.leftMargin i then c.numNonIndented + 1 else c.numNonIndented
        numIndented := if hangInd d s.leftMargin m i then c.numIndented + 1 else c.numIndented }
    else c := by
  unfold hangStep hangRel
  simp only
  by_cases h1 : (d.line i).text.length < 3
  · rw [if_pos h1, if_neg (by simp; intro h; omega)]
  · rw [if_neg h1]
    have h1' : decide (3 ≤ (d.line i).text.length) = true := by simp; omega
    rw [h1', Bool.true_and]
    cases h2 : (equal (s.leftMargin i) (s.rightMargin i) d.avgCharWidth && larger (s.leftMargin i) d.avgCharWidth tol)
    · simp only [Bool.false_eq_true, if_false, Bool.not_false, if_true]
      rfl
    · simp

/-- The counts after the lines. -/
structure HangCounted (d : Doc) (l r : ℕ → ℚ) (m : ℚ) (lines : List ℕ) (c c' : HangCounts) : Prop where
  lowNon : c'.numLowercasedNonIndented = c.numLowercasedNonIndented +
    lines.countP fun i => hangRel d l r i && (hangLow d i && !hangName d i && hangNon d l i)
  lowInd : c'.numLowercasedIndented = c.numLowercasedIndented +
    lines.countP fun i => hangRel d l r i && (hangLow d i && hangInd d l m i)
  non : c'.numNonIndented = c.numNonIndented + lines.countP fun i => hangRel d l r i && hangNon d l i
  ind : c'.numIndented = c.numIndented + lines.countP fun i => hangRel d l r i && hangInd d l m i

theorem bs_hangLoop_counts (d : Doc) (s : State) (m : ℚ) (lines : List ℕ) : ∀ (k : ℕ) (c : HangCounts),
    HangCounted d s.leftMargin s.rightMargin m lines c (hangLoop d s m k lines c) := by
  induction lines with
  | nil => intro k c; constructor <;> simp [hangLoop]
  | cons i is ih =>
    intro k c
    rw [hangLoop]
    obtain ⟨h1, h2, h3, h4⟩ := ih (k + 1) (hangStep d s m c k i)
    constructor
    · rw [h1, bs_hangStep, List.countP_cons]
      cases hangRel d s.leftMargin s.rightMargin i <;> cases hangLow d i <;> cases hangName d i <;>
        cases hangNon d s.leftMargin i <;> simp <;> omega
    · rw [h2, bs_hangStep, List.countP_cons]
      cases hangRel d s.leftMargin s.rightMargin i <;> cases hangLow d i <;>
        cases hangInd d s.leftMargin m i <;> simp <;> omega
    · rw [h3, bs_hangStep, List.countP_cons]
      cases hangRel d s.leftMargin s.rightMargin i <;>
        cases hangNon d s.leftMargin i <;> simp <;> omega
    · rw [h4, bs_hangStep, List.countP_cons]
      cases hangRel d s.leftMargin s.rightMargin i <;>
        cases hangInd d s.leftMargin m i <;> simp <;> omega

theorem bs_hangLoop_rest (d : Doc) (s : State) (m : ℚ) (lines : List ℕ) : ∀ (k : ℕ) (c : HangCounts),
    2 ≤ k →
    (hangLoop d s m k lines c).isFirstLineIndented = c.isFirstLineIndented ∧
    (hangLoop d s m k lines c).hasFirstLineCapacity = c.hasFirstLineCapacity ∧
    (hangLoop d s m k lines c).isAllOtherLinesIndented = (c.isAllOtherLinesIndented &&
      lines.all fun i => !hangRel d s.leftMargin s.rightMargin i || hangInd d s.leftMargin m i) := by
  induction lines with
  | nil => intro k c _; simp [hangLoop]
  | cons i is ih =>
    intro k c hk
    rw [hangLoop]
    obtain ⟨h1, h2, h3⟩ := ih (k + 1) (hangStep d s m c k i) (by omega)
    rw [h1, h2, h3, bs_hangStep, List.all_cons]
    have e0 : ¬ k = 0 := by omega
    have e1 : ¬ k = 1 := by omega
    have e2 : 0 < k := by omega
    cases hangRel d s.leftMargin s.rightMargin i
    · simp
    · simp [e0, e1, e2, Bool.and_assoc]

/-- The flags after all lines. -/
theorem bs_hangLoop_flags (d : Doc) (s : State) (m : ℚ) (i : ℕ) (is : List ℕ) :
    (hangLoop d s m 0 (i :: is) {}).isFirstLineIndented =
      (hangRel d s.leftMargin s.rightMargin i && hangInd d s.leftMargin m i) ∧
    (hangLoop d s m 0 (i :: is) {}).hasFirstLineCapacity = ((is.head?.map fun j =>
      hangRel d s.leftMargin s.rightMargin j && computeHasPrevLineCapacity d s (s.prevLine j) j).getD false) ∧
    (hangLoop d s m 0 (i :: is) {}).isAllOtherLinesIndented =
      (is.all fun j => !hangRel d s.leftMargin s.rightMargin j || hangInd d s.leftMargin m j) := by
  rw [hangLoop]
  cases is with
  | nil =>
    rw [hangLoop, bs_hangStep]
    cases hangRel d s.leftMargin s.rightMargin i <;> simp
  | cons j js =>
    rw [hangLoop]
    obtain ⟨h1, h2, h3⟩ := bs_hangLoop_rest d s m js (0 + 1 + 1)
      (hangStep d s m (hangStep d s m {} 0 i) (0 + 1) j) (by omega)
    rw [h1, h2, h3, bs_hangStep, bs_hangStep]
    simp only [List.head?_cons, Option.map_some, Option.getD_some, List.all_cons]
    cases hangRel d s.leftMargin s.rightMargin i <;> cases hangRel d s.leftMargin s.rightMargin j <;> simp

/-- The margins are those of the functions `l` and `r`. -/
structure MarginsAre (s : State) (l r : ℕ → ℚ) (lines : List ℕ) : Prop where
  left : ∀ i ∈ lines, s.leftMargin i = l i
  right : ∀ i ∈ lines, s.rightMargin i = r i

theorem bs_considered (d : Doc) (s : State) (l r : ℕ → ℚ) (lines : List ℕ) (hm : MarginsAre s l r lines)
    (i : ℕ) (hi : i ∈ lines) :
    hangRel d s.leftMargin s.rightMargin i = true ↔ Considered d l r i := by
  unfold hangRel Considered
  rw [hm.left i hi, hm.right i hi, Bool.and_eq_true, decide_eq_true_eq, Bool.not_eq_true',
    ← Bool.not_eq_true, Bool.and_eq_true, equal_iff, larger_iff]
  rfl

theorem bs_startsLower (d : Doc) (i : ℕ) : hangLow d i = true ↔ StartsLower d i := by
  unfold hangLow StartsLower
  cases (d.line i).text with
  | nil => simp
  | cons c t =>
    simp only [List.head?_cons, Option.map_some, Option.getD_some, Option.some.injEq, exists_eq_left',
      isLowerC, Bool.and_eq_true, decide_eq_true_eq, Char.le_def, UInt32.le_iff_toNat_le,
      show ('a' : Char).val.toNat = 97 from rfl, show ('z' : Char).val.toNat = 122 from rfl]
    rfl

theorem bs_namePrefix (d : Doc) (i : ℕ) : hangName d i = true ↔ StartsWithNamePrefix d i := by
  unfold hangName StartsWithNamePrefix
  cases (d.line i).words with
  | nil => simp
  | cons w t =>
    simp only [List.head?_cons, Option.map_some, Option.getD_some, Option.some.injEq, exists_eq_left',
      lastNamePrefixes, List.contains_eq_mem, decide_eq_true_eq, List.mem_cons, List.not_mem_nil, or_false]
    rfl

theorem bs_capacity (d : Doc) (s : State) (p i : ℕ) :
    computeHasPrevLineCapacity d s (some p) i = true ↔ ∃ w, (d.line i).words.head? = some w ∧
      w.pos.rightX - w.pos.leftX + 2 * d.avgCharWidth < s.rightMargin p := by
  unfold computeHasPrevLineCapacity
  cases hw : (d.line i).words with
  | nil => simp
  | cons w ws => simp [larger_iff, Box.getWidth]

theorem bs_occ_half {xs : List ℚ} {a b : ℚ} (hab : a ≠ b) :
    occurrences xs a + occurrences xs b ≤ xs.length := by
  unfold occurrences
  induction xs with
  | nil => simp
  | cons x xs ih =>
    rw [List.filter_cons, List.filter_cons, List.length_cons]
    by_cases h1 : x = a
    · have h2 : x ≠ b := by rw [h1]; exact hab
      simp [h1, hab] at ih ⊢; omega
    · by_cases h2 : x = b
      · simp [h1, h2, Ne.symm hab] at ih ⊢; omega
      · simp [h1, h2] at ih ⊢; omega

/-- There is at most one margin of the majority. -/
theorem bs_majority_unique {cw : ℚ} {l : ℕ → ℚ} {lines : List ℕ} {a b : ℚ}
    (ha : MajorityMargin cw l lines a) (hb : MajorityMargin cw l lines b) : a = b := by
  by_contra hab
  have := bs_occ_half (xs := largeMargins cw l lines) hab
  unfold MajorityMargin at ha hb
  have h : ((occurrences (largeMargins cw l lines) a : ℚ) + occurrences (largeMargins cw l lines) b) ≤
      (largeMargins cw l lines).length := by exact_mod_cast this
  linarith

theorem bs_hanging_ok (h : HashOrder) (d : Doc) (s : State) (lines : List ℕ) :
    ∃ hi, computeHangingIndent h d s lines = .ok hi := by
  obtain ⟨p, hp, _⟩ := mostFreqAndCount_spec h
    ((lines.filter fun i => equalOrLarger (s.leftMargin i) d.avgCharWidth tol).map s.leftMargin)
  unfold computeHangingIndent
  simp only
  rw [hp]
  simp only [Outcome.bind]
  generalize hangLoop d s p.1 0 lines {} = C
  split_ifs <;> exact ⟨_, rfl⟩

open Classical in
/-- C66: the hanging indent of a block.  `l` and `r` are the margins of its lines, and the second
line refers to the first one as the line before; there are less than 2^32 lines (the counter of
margins overflows otherwise). -/
theorem c66_hanging_indent (h : HashOrder) (d : Doc) (s : State) (l r : ℕ → ℚ) (lines : List ℕ)
    (hm : MarginsAre s l r lines) (hbound : lines.length < 2 ^ 32)
    (hprev : ∀ i j, lines[0]? = some i → lines[1]? = some j → s.prevLine j = some i) :
    ∃ hi, computeHangingIndent h d s lines = .ok hi ∧ HangingIndentIs d l r lines hi := by
  have hfilter : (lines.filter fun i => equalOrLarger (s.leftMargin i) d.avgCharWidth tol).map
      s.leftMargin = largeMargins d.avgCharWidth l lines := by
    unfold largeMargins
    rw [List.filter_map, ← List.map_congr_left (f := s.leftMargin) (g := l)]
    · congr 1
      apply List.filter_congr
      intro i hi
      simp only [Function.comp, ← hm.left i hi]
      rw [Bool.eq_iff_iff, eol_iff, decide_eq_true_eq, ge_iff_le]
      rfl
    · intro i hi
      exact hm.left i (List.mem_filter.mp hi).1
  obtain ⟨p, hp, hspec⟩ := mostFreqAndCount_spec h
    ((lines.filter fun i => equalOrLarger (s.leftMargin i) d.avgCharWidth tol).map s.leftMargin)
  have hlen : (lines.filter fun i => equalOrLarger (s.leftMargin i) d.avgCharWidth tol).length
      = (largeMargins d.avgCharWidth l lines).length := by
    rw [← hfilter, List.length_map]
  rw [hfilter] at hspec
  have hspec : largeMargins d.avgCharWidth l lines = [] ∧ p = (0, 0) ∨
      IsMostFrequent (largeMargins d.avgCharWidth l lines) p.1 ∧
        p.2 = occurrences (largeMargins d.avgCharWidth l lines) p.1 := by
    refine hspec.imp_left fun hh => ⟨?_, hh.2⟩
    have hle : (largeMargins d.avgCharWidth l lines).length ≤ lines.length := by
      rw [← hlen]; exact List.length_filter_le _ _
    rw [Nat.mod_eq_of_lt (by omega)] at hh
    exact List.length_eq_zero_iff.mp hh.1
  unfold computeHangingIndent
  simp only
  rw [hp]
  simp only [Outcome.bind]
  -- the margin of the majority
  have hmaj : (¬ equalOrSmaller p.2 (1 / 2 * (lines.filter fun i =>
      equalOrLarger (s.leftMargin i) d.avgCharWidth tol).length) tol = true ↔
      MajorityMargin d.avgCharWidth l lines p.1) ∧
      ∀ m, MajorityMargin d.avgCharWidth l lines m → m = p.1 := by
    have h1 : ∀ m, MajorityMargin d.avgCharWidth l lines m → m = p.1 := by
      intro m hmm
      rcases hspec with ⟨hnil, rfl⟩ | ⟨hmf, hcnt⟩
      · exfalso
        unfold MajorityMargin at hmm
        rw [hnil] at hmm
        norm_num [occurrences] at hmm
      · by_contra hne
        have hge : occurrences (largeMargins d.avgCharWidth l lines) m ≤
            occurrences (largeMargins d.avgCharWidth l lines) p.1 := by
          by_cases hin : m ∈ largeMargins d.avgCharWidth l lines
          · exact hmf.2 m hin
          · have : occurrences (largeMargins d.avgCharWidth l lines) m = 0 := by
              unfold occurrences
              rw [List.length_eq_zero_iff, List.filter_eq_nil_iff]
              intro x hx
              simp only [decide_eq_true_eq]
              rintro rfl
              exact hin hx
            omega
        refine hne (bs_majority_unique hmm ?_)
        unfold MajorityMargin at hmm ⊢
        have : (occurrences (largeMargins d.avgCharWidth l lines) m : ℚ) ≤
            occurrences (largeMargins d.avgCharWidth l lines) p.1 := by exact_mod_cast hge
        linarith
    refine ⟨?_, h1⟩
    rw [eos_iff, not_le, hlen]
    unfold MajorityMargin
    rw [show tol = 1 / 10000 from rfl]
    rcases hspec with ⟨hnil, rfl⟩ | ⟨hmf, hcnt⟩
    · rw [hnil]; norm_num [occurrences]
    · rw [hcnt]
      constructor <;> intro hh <;> linarith
  split
  · next he =>
    refine ⟨0, rfl, Or.inr ⟨rfl, fun m hmm => ?_⟩⟩
    have := hmaj.2 m hmm
    subst this
    exact absurd he (hmaj.1.mpr hmm)
  · next he =>
    have hM := hmaj.1.mp he
    -- the flags and counts
    have hcount := bs_hangLoop_counts d s p.1 lines 0 {}
    have hcons := bs_considered d s l r lines hm
    have hnon : ∀ i ∈ lines, (hangNon d s.leftMargin i = true ↔ |l i| ≤ d.avgCharWidth) := by
      intro i hi
      unfold hangNon
      rw [equal_iff, hm.left i hi, sub_zero]
    have hind : ∀ i ∈ lines, (hangInd d s.leftMargin p.1 i = true ↔ |l i - p.1| ≤ d.avgCharWidth) := by
      intro i hi
      unfold hangInd
      rw [equal_iff, hm.left i hi]
    have c1 : (hangLoop d s p.1 0 lines {}).numIndented = 0 ↔
        ¬ ∃ i ∈ lines, Considered d l r i ∧ |l i - p.1| ≤ d.avgCharWidth := by
      rw [hcount.ind]
      simp only [Nat.zero_add, List.countP_eq_zero, Bool.and_eq_true, not_exists, not_and]
      refine forall₂_congr fun i hi => ?_
      rw [hcons i hi, hind i hi]
    have c2 : (hangLoop d s p.1 0 lines {}).numLowercasedNonIndented > 0 ↔
        ¬ ∀ i ∈ lines, Considered d l r i ∧ |l i| ≤ d.avgCharWidth → StartsLower d i →
          StartsWithNamePrefix d i := by
      rw [hcount.lowNon]
      simp only [Nat.zero_add, gt_iff_lt, List.countP_pos_iff, Bool.and_eq_true, Bool.not_eq_true',
        ← Bool.not_eq_true, not_forall]
      constructor
      · rintro ⟨i, hi, q1, ⟨q2, q3⟩, q4⟩
        exact ⟨i, hi, ⟨(hcons i hi).mp q1, (hnon i hi).mp q4⟩, (bs_startsLower d i).mp q2,
          mt (bs_namePrefix d i).mpr q3⟩
      · rintro ⟨i, hi, ⟨q1, q4⟩, q2, q3⟩
        exact ⟨i, hi, (hcons i hi).mpr q1, ⟨(bs_startsLower d i).mpr q2, mt (bs_namePrefix d i).mp q3⟩,
          (hnon i hi).mpr q4⟩
    have c3 : (hangLoop d s p.1 0 lines {}).numNonIndented =
        (lines.filter fun i => decide (Considered d l r i ∧ |l i| ≤ d.avgCharWidth)).length := by
      rw [hcount.non, Nat.zero_add, List.countP_eq_length_filter]
      congr 1
      apply List.filter_congr
      intro i hi
      rw [Bool.eq_iff_iff, Bool.and_eq_true, decide_eq_true_eq, hcons i hi, hnon i hi]
    have c4 : 1 ≤ (hangLoop d s p.1 0 lines {}).numLowercasedIndented ↔
        ∃ i ∈ lines, (Considered d l r i ∧ |l i - p.1| ≤ d.avgCharWidth) ∧ StartsLower d i := by
      rw [hcount.lowInd]
      simp only [Nat.zero_add, Nat.one_le_iff_ne_zero, ← Nat.pos_iff_ne_zero, List.countP_pos_iff,
        Bool.and_eq_true]
      constructor
      · rintro ⟨i, hi, q1, q2, q3⟩
        exact ⟨i, hi, ⟨(hcons i hi).mp q1, (hind i hi).mp q3⟩, (bs_startsLower d i).mp q2⟩
      · rintro ⟨i, hi, ⟨q1, q3⟩, q2⟩
        exact ⟨i, hi, (hcons i hi).mpr q1, (bs_startsLower d i).mpr q2, (hind i hi).mpr q3⟩
    have c5 : lines ≠ [] → ((!(hangLoop d s p.1 0 lines {}).isFirstLineIndented &&
          !(hangLoop d s p.1 0 lines {}).hasFirstLineCapacity &&
          (hangLoop d s p.1 0 lines {}).isAllOtherLinesIndented) = true ↔
        ((∀ i, lines[0]? = some i → ¬ (Considered d l r i ∧ |l i - p.1| ≤ d.avgCharWidth)) ∧
        (∀ i j, lines[0]? = some i → lines[1]? = some j → Considered d l r j →
          ¬ ∃ w, (d.line j).words.head? = some w ∧ w.pos.rightX - w.pos.leftX + 2 * d.avgCharWidth < r i) ∧
        (∀ i ∈ lines.tail, Considered d l r i → (Considered d l r i ∧ |l i - p.1| ≤ d.avgCharWidth)))) := by
      intro hne
      cases lines with
      | nil => exact absurd rfl hne
      | cons i is =>
        obtain ⟨f1, f2, f3⟩ := bs_hangLoop_flags d s p.1 i is
        rw [f1, f2, f3]
        simp only [Bool.and_eq_true, Bool.not_eq_true', List.all_eq_true, Bool.or_eq_true]
        rw [and_assoc]
        refine and_congr ?_ (and_congr ?_ ?_)
        · rw [← Bool.not_eq_true, Bool.and_eq_true, hcons i (by simp), hind i (by simp)]
          simp
        · cases is with
          | nil => simp
          | cons j js =>
            have hj : j ∈ i :: j :: js := by simp
            simp only [List.head?_cons, Option.map_some, Option.getD_some, List.getElem?_cons_zero,
              List.getElem?_cons_succ, Option.some.injEq]
            rw [← Bool.not_eq_true, Bool.and_eq_true, hcons j hj, hprev i j rfl rfl, bs_capacity,
              hm.right i (by simp)]
            constructor
            · rintro hh i' j' rfl rfl hc hw
              exact hh ⟨hc, hw⟩
            · rintro hh ⟨hc, hw⟩
              exact hh i j rfl rfl hc hw
        · rw [List.tail_cons]
          refine forall₂_congr fun j hj => ?_
          have hj' : j ∈ i :: is := List.mem_cons_of_mem _ hj
          rw [← Bool.not_eq_true, hcons j hj', hind j hj']
          clear * -
          constructor
          · rintro (hh | hh) hc
            · exact absurd hc hh
            · exact ⟨hc, hh⟩
          · intro hh
            by_cases hc : Considered d l r j
            · exact Or.inr (hh hc).2
            · exact Or.inl hc
    clear hcount
    generalize hangLoop d s p.1 0 lines {} = C at c1 c2 c3 c4 c5 ⊢
    by_cases hI : ∃ i ∈ lines, Considered d l r i ∧ |l i - p.1| ≤ d.avgCharWidth
    swap
    · rw [if_pos (c1.mpr hI)]
      refine ⟨0, rfl, Or.inr ⟨rfl, fun m hmm => ?_⟩⟩
      rw [hmaj.2 m hmm]
      exact fun hh => hI hh.1
    rw [if_neg (mt c1.mp (not_not_intro hI))]
    by_cases hL : ∀ i ∈ lines, Considered d l r i ∧ |l i| ≤ d.avgCharWidth → StartsLower d i →
          StartsWithNamePrefix d i
    swap
    · rw [if_pos (c2.mpr hL)]
      refine ⟨0, rfl, Or.inr ⟨rfl, fun m hmm => ?_⟩⟩
      rw [hmaj.2 m hmm]
      exact fun hh => hL hh.2.1
    rw [if_neg (mt c2.mp (not_not_intro hL))]
    have hz : C.numLowercasedNonIndented ≤ 0 := by
      by_contra hh
      exact c2.mp (by omega) hL
    have hne : lines ≠ [] := by
      rintro rfl
      obtain ⟨i, hi, _⟩ := hI
      simp at hi
    have c5' := c5 hne
    split
    · next hf => exact ⟨p.1, rfl, Or.inl ⟨hM, hI, hL, Or.inl (c5'.mp hf)⟩⟩
    · next hf =>
      split
      · next hg => exact ⟨p.1, rfl, Or.inl ⟨hM, hI, hL, Or.inr (Or.inl (by rw [← c3]; exact hg.1))⟩⟩
      · next hg =>
        split
        · next hk => exact ⟨p.1, rfl, Or.inl ⟨hM, hI, hL, Or.inr (Or.inr ⟨hk.1, c4.mp hk.2⟩)⟩⟩
        · next hk =>
          refine ⟨0, rfl, Or.inr ⟨rfl, fun m hmm => ?_⟩⟩
          rw [hmaj.2 m hmm]
          rintro ⟨_, _, hA | hB | hC⟩
          · exact hf (c5'.mpr hA)
          · exact hg ⟨by rw [c3]; exact hB, hz⟩
          · exact hk ⟨hC.1, c4.mpr hC.2⟩

end Verif.Props
