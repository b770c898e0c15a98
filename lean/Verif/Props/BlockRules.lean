import Verif.Spec.Blocks
import Verif.Props.TextBlocks

/-! # C31: block start rules -/

namespace Verif.Props

open Verif.Math Verif.Elements Verif.Spec Verif.TextBlocks Verif.Words Verif.TextLines Verif.Counter

theorem tol_eq : tol = 1 / 10000 := rfl

/-! ## The ingredients -/

theorem halfCovered_iff (s1 e1 s2 e2 : ℚ) :
    equalOrLarger (computeOverlapRatios s1 e1 s2 e2).1 (1 / 2) tol = true ↔ HalfCovered s1 e1 s2 e2 := by
  rw [c04_value, eol_iff, HalfCovered, tol_eq]

theorem overlapsFigure_eq (e : Box) (fs : List Box) :
    computeOverlapsFigure e fs = fs.findIdx? fun f =>
      equalOrLarger (computeOverlapRatios e.leftX e.rightX f.leftX f.rightX).1 (1 / 2) tol &&
      equalOrLarger (computeOverlapRatios e.upperY e.lowerY f.upperY f.lowerY).1 (1 / 2) tol := rfl

/-- The search for a figure finds the first figure in which the element lies. -/
theorem overlapsFigure_iff (e : Box) (fs : List Box) (k : ℕ) :
    computeOverlapsFigure e fs = some k ↔
      ∃ f : Box, fs[k]? = some f ∧ InFigure e f ∧
        ∀ (j : ℕ) (g : Box), j < k → fs[j]? = some g → ¬ InFigure e g := by
  have hin : ∀ f : Box, (equalOrLarger (computeOverlapRatios e.leftX e.rightX f.leftX f.rightX).1 (1 / 2) tol &&
      equalOrLarger (computeOverlapRatios e.upperY e.lowerY f.upperY f.lowerY).1 (1 / 2) tol) = true ↔
      InFigure e f := by
    intro f
    rw [Bool.and_eq_true, halfCovered_iff, halfCovered_iff, InFigure]
  rw [overlapsFigure_eq, List.findIdx?_eq_some_iff_getElem]
  constructor
  · rintro ⟨hk, h1, h2⟩
    refine ⟨fs[k], by simp, (hin _).mp h1, ?_⟩
    intro j g hj hg
    obtain ⟨hlt, rfl⟩ := List.getElem?_eq_some_iff.mp hg
    intro hc
    exact h2 j hj ((hin _).mpr hc)
  · rintro ⟨f, hf, h1, h2⟩
    obtain ⟨hk, rfl⟩ := List.getElem?_eq_some_iff.mp hf
    refine ⟨hk, (hin _).mpr h1, fun j hj hc => ?_⟩
    exact h2 j _ hj (List.getElem?_eq_getElem (by omega)) ((hin _).mp hc)

theorem sameFigure_iff (fs : List Box) (a b : Box) :
    ((computeOverlapsFigure a fs).isSome &&
      decide (computeOverlapsFigure a fs = computeOverlapsFigure b fs)) = true ↔ SameFigure fs a b := by
  rw [Bool.and_eq_true, decide_eq_true_eq]
  constructor
  · rintro ⟨h1, h2⟩
    obtain ⟨k, hk⟩ := Option.isSome_iff_exists.mp h1
    rw [hk] at h2
    obtain ⟨f, hf, h3, h4⟩ := (overlapsFigure_iff a fs k).mp hk
    obtain ⟨f', hf', h5, h6⟩ := (overlapsFigure_iff b fs k).mp h2.symm
    rw [hf] at hf'
    cases hf'
    exact ⟨k, f, hf, h3, h5, fun j g hj hg => ⟨h4 j g hj hg, h6 j g hj hg⟩⟩
  · rintro ⟨k, f, hf, h3, h5, h6⟩
    have h1 := (overlapsFigure_iff a fs k).mpr ⟨f, hf, h3, fun j g hj hg => (h6 j g hj hg).1⟩
    have h2 := (overlapsFigure_iff b fs k).mpr ⟨f, hf, h5, fun j g hj hg => (h6 j g hj hg).2⟩
    rw [h1, h2]
    simp

theorem hadRoom_iff (d : Doc) (s : State) (p i : ℕ) :
    computeHasPrevLineCapacity d s (some p) i = true ↔ HadRoom d s p i := by
  unfold computeHasPrevLineCapacity HadRoom
  cases hw : (d.line i).words with
  | nil => simp
  | cons w ws => simp [larger_iff, Box.getWidth]

theorem hasItemLabel_iff (d : Doc) (i : ℕ) : computeIsPrefixedByItemLabel d i = true ↔ HasItemLabel d i := by
  unfold computeIsPrefixedByItemLabel HasItemLabel
  cases hw : (d.line i).words with
  | nil => simp
  | cons w ws =>
    cases hc : w.chars with
    | nil => simp [hc]
    | cons c cs =>
      have hinf : (superItemLabelAlphabet.tails.any ((beforeZero c.text).isPrefixOf ·)) = true ↔
          beforeZero c.text <:+: superItemLabelAlphabet := by
        rw [List.any_eq_true]
        simp only [List.mem_tails, List.isPrefixOf_iff_prefix]
        constructor
        · rintro ⟨t, h1, h2⟩
          exact h2.isInfix.trans h1.isInfix
        · intro h
          obtain ⟨t, h1, h2⟩ := List.infix_iff_prefix_suffix.mp h
          exact ⟨t, h2, h1⟩
      simp only [hc, Bool.or_eq_true, Bool.and_eq_true, hinf]
      constructor
      · intro h
        exact ⟨w, c, rfl, by rw [hc]; rfl, h⟩
      · rintro ⟨w', c', h1, h2, h3⟩
        simp only [List.head?_cons, Option.some.injEq] at h1
        subst h1
        rw [hc] at h2
        simp only [List.head?_cons, Option.some.injEq] at h2
        subst h2
        exact h3

theorem hasFootnoteLabel_iff (d : Doc) (labels : Option (List Text.Str)) (i : ℕ) :
    computeIsPrefixedByFootnoteLabel d i labels = true ↔ HasFootnoteLabel d labels i := by
  unfold computeIsPrefixedByFootnoteLabel HasFootnoteLabel frontSuperscripts
  cases hw : (d.line i).words with
  | nil => simp
  | cons w ws =>
    cases labels with
    | none => simp [superScriptPrefix]
    | some ls => simp [superScriptPrefix]

theorem continuesSentence_iff (d : Doc) (s : State) (i : ℕ) :
    continuesText d s i = true ↔ ContinuesSentence d s i := by
  unfold continuesText ContinuesSentence
  cases hp : s.prevLine i with
  | none => simp
  | some p =>
    simp only [Bool.and_eq_true, Bool.not_eq_true', decide_eq_true_eq, hasEqualFontSize, equal_iff,
      eos_iff, computeHasEqualLeftX, Option.some.injEq, tol_eq, zero_add]
    rw [← Bool.not_eq_true, hasItemLabel_iff]
    constructor
    · rintro ⟨⟨⟨⟨⟨h1, h2⟩, h3⟩, h4⟩, h5⟩, h6⟩
      exact ⟨p, rfl, h1, h2, h3, h4, h5, h6⟩
    · rintro ⟨q, rfl, h1, h2, h3, h4, h5, h6⟩
      exact ⟨⟨⟨⟨⟨h1, h2⟩, h3⟩, h4⟩, h5⟩, h6⟩

theorem siblingIsItem_iff (d : Doc) (i : ℕ) (sib : Option ℕ) :
    siblingIsItem d i sib = true ↔ ∃ j, sib = some j ∧ LabelledAlike d i j := by
  cases sib with
  | none => simp [siblingIsItem]
  | some j =>
    simp only [Option.some.injEq, exists_eq_left']
    unfold siblingIsItem LabelledAlike
    cases hi : (d.line i).words with
    | nil => simp
    | cons w ws =>
      cases hj : (d.line j).words with
      | nil => simp [hj]
      | cons w' ws' =>
        simp only [hj, Bool.and_eq_true, decide_eq_true_eq, hasItemLabel_iff, hasEqualFontSize, equal_iff,
          List.head?_cons, Option.some.injEq]
        constructor
        · rintro ⟨⟨h1, h2⟩, h3⟩
          exact ⟨h1, w, w', rfl, rfl, h2, h3⟩
        · rintro ⟨h1, v, v', rfl, rfl, h2, h3⟩
          exact ⟨⟨h1, h2⟩, h3⟩

/-- C31: when a line counts as the first line of an item. -/
theorem c31_first_line_of_item (d : Doc) (s : State) (i : ℕ) (labels : Option (List Text.Str)) :
    computeIsFirstLineOfItem d s i labels = true ↔ StartsItem d s labels i := by
  unfold computeIsFirstLineOfItem StartsItem
  rw [← hasItemLabel_iff, ← hasFootnoteLabel_iff, ← continuesSentence_iff]
  have hs : (∃ j, ((d.link i).prevSibling = some j ∨ (d.link i).nextSibling = some j) ∧ LabelledAlike d i j) ↔
      siblingIsItem d i (d.link i).prevSibling = true ∨ siblingIsItem d i (d.link i).nextSibling = true := by
    rw [siblingIsItem_iff, siblingIsItem_iff]
    constructor
    · rintro ⟨j, h | h, h'⟩
      · exact Or.inl ⟨j, h, h'⟩
      · exact Or.inr ⟨j, h, h'⟩
    · rintro (⟨j, h, h'⟩ | ⟨j, h, h'⟩)
      · exact ⟨j, Or.inl h, h'⟩
      · exact ⟨j, Or.inr h, h'⟩
  rw [hs]
  cases hw : (d.line i).words with
  | nil => simp
  | cons w ws =>
    cases computeIsPrefixedByItemLabel d i <;> cases computeIsPrefixedByFootnoteLabel d i labels <;>
      cases continuesText d s i <;> cases siblingIsItem d i (d.link i).prevSibling <;>
      cases siblingIsItem d i (d.link i).nextSibling <;> simp

/-- C31: a line counts as the continuation of an item exactly when one of its ancestors in the line
hierarchy is the first line of an item (parents are earlier lines, C28). -/
theorem c31_continuation_of_item (d : Doc) (s : State) (labels : Option (List Text.Str))
    (hpar : ∀ i p, (d.link i).parent = some p → p < i) (i : ℕ) :
    computeIsContinuationOfItem d s labels i = true ↔ ContinuesItem d s labels i := by
  have key : ∀ fuel i, i < fuel → (continuationLoop d s labels fuel i = true ↔
      ContinuesItem d s labels i) := by
    intro fuel
    induction fuel with
    | zero => intro i h; omega
    | succ n ih =>
      intro i hi
      unfold continuationLoop ContinuesItem
      cases hp : (d.link i).parent with
      | none =>
        simp only [Bool.false_eq_true, false_iff]
        rintro ⟨a, ha, _⟩
        obtain ⟨b, hb, _⟩ := Relation.TransGen.head'_iff.mp ha
        rw [hp] at hb
        cases hb
      | some p =>
        have hlt := hpar i p hp
        simp only [Bool.or_eq_true]
        rw [c31_first_line_of_item, ih p (by omega)]
        constructor
        · rintro (h | ⟨a, ha, h⟩)
          · exact ⟨p, .single hp, h⟩
          · exact ⟨a, .head hp ha, h⟩
        · rintro ⟨a, ha, h⟩
          obtain ⟨b, hb, hba⟩ := Relation.TransGen.head'_iff.mp ha
          rw [hp] at hb
          cases hb
          rcases Relation.reflTransGen_iff_eq_or_transGen.mp hba with he | ht
          · subst he; exact Or.inl h
          · exact Or.inr ⟨a, ht, h⟩
  exact key (i + 1) i (by omega)

theorem char_le_iff (a b : Char) : a ≤ b ↔ a.toNat ≤ b.toNat := by
  rw [Char.le_def, UInt32.le_iff_toNat_le]; rfl

theorem emphasizedText_iff (d : Doc) (fontName : Text.Str) (fontSize : ℚ) (text : Text.Str) :
    computeIsEmphasized d fontName fontSize text = true ↔ EmphasizedText d fontName fontSize text := by
  unfold computeIsEmphasized EmphasizedText
  cases h1 : d.fontInfos d.mostFreqFontName with
  | none => simp
  | some df =>
    cases h2 : d.fontInfos fontName with
    | none => simp
    | some f =>
      have hup : allAlphaUpper text = true ↔
          ((∃ c ∈ text, 'A' ≤ c ∧ c ≤ 'Z') ∧ ∀ c ∈ text, ¬ ('a' ≤ c ∧ c ≤ 'z')) := by
        unfold allAlphaUpper
        rw [Bool.and_eq_true, List.any_eq_true, List.all_eq_true]
        have hl : ∀ c : Char, isLowerC c = true ↔ ('a' ≤ c ∧ c ≤ 'z') := by
          intro c
          rw [char_le_iff, char_le_iff]
          simp [isLowerC]
        have hu : ∀ c : Char, isAlphaC c = true ↔ ('A' ≤ c ∧ c ≤ 'Z') ∨ ('a' ≤ c ∧ c ≤ 'z') := by
          intro c
          rw [← hl, char_le_iff, char_le_iff]
          simp [isAlphaC, Text.isUpperC, isLowerC]
        have hn : (∀ c ∈ text, (!isLowerC c) = true) ↔ ∀ c ∈ text, ¬ ('a' ≤ c ∧ c ≤ 'z') := by
          simp only [Bool.not_eq_true', ← Bool.not_eq_true, hl]
        rw [hn]
        simp only [hu]
        constructor
        · rintro ⟨⟨c, hc, h⟩, h'⟩
          exact ⟨⟨c, hc, h.resolve_right (h' c hc)⟩, h'⟩
        · rintro ⟨⟨c, hc, h⟩, h'⟩
          exact ⟨⟨c, hc, Or.inl h⟩, h'⟩
      simp only [Bool.or_eq_true, Bool.and_eq_true, larger_iff, eol_iff, Option.some.injEq, hup]
      constructor
      · rintro (((h | h) | h) | h)
        · exact ⟨df, f, rfl, rfl, Or.inl h⟩
        · exact ⟨df, f, rfl, rfl, Or.inr (Or.inl ⟨h.1, Or.inl h.2⟩)⟩
        · exact ⟨df, f, rfl, rfl, Or.inr (Or.inl ⟨h.1, Or.inr h.2⟩)⟩
        · exact ⟨df, f, rfl, rfl, Or.inr (Or.inr h)⟩
      · rintro ⟨_, _, rfl, rfl, h | ⟨h, h' | h'⟩ | h⟩
        · exact Or.inl (Or.inl (Or.inl h))
        · exact Or.inl (Or.inl (Or.inr ⟨h, h'⟩))
        · exact Or.inl (Or.inr ⟨h, h'⟩)
        · exact Or.inr h

theorem emphasized_iff (d : Doc) (l : Line) :
    computeIsEmphasized d l.fontName l.fontSize l.text = true ↔ Emphasized d l :=
  emphasizedText_iff d l.fontName l.fontSize l.text

theorem offsetFits_iff (d : Doc) (p i : ℕ) :
    offsetInTolerance d (d.line p) (d.line i) = true ↔ OffsetFits d p i := by
  unfold offsetInTolerance OffsetFits between computeLeftXOffset
  rw [Bool.and_eq_true, eol_iff, eos_iff, tol_eq]

/-! ## The chain -/

/-- The first rule with an answer decides. -/
theorem decideChain_iff (rs : List Trool) (qs : List (Prop × Prop))
    (h : List.Forall₂ (fun r q => (r = .true ↔ q.1) ∧ (r = .false → q.2) ∧ (q.2 → q.1 ∨ r = .false)) rs qs) :
    decideChain rs = true ↔ FirstAnswer qs := by
  induction h with
  | nil => simp [decideChain, FirstAnswer]
  | @cons r q rs qs hr _ ih =>
    obtain ⟨h1, h2, h3⟩ := hr
    cases r with
    | none =>
      have hq1 : ¬ q.1 := fun h => by simpa using h1.mpr h
      have hq2 : ¬ q.2 := fun h => by
        rcases h3 h with h | h
        · exact hq1 h
        · cases h
      simp [decideChain, FirstAnswer, hq1, hq2, ih]
    | false =>
      have hq1 : ¬ q.1 := fun h => by simpa using h1.mpr h
      simp [decideChain, FirstAnswer, hq1, h2 rfl]
    | true => simp [decideChain, FirstAnswer, h1.mp rfl]

/-- A rule with the outcome `if a then true else none`. -/
theorem rule_true {a : Prop} [Decidable a] {q : Prop} (h : a ↔ q) :
    ((if a then Trool.true else .none) = .true ↔ q) ∧
      ((if a then Trool.true else .none) = .false → False) ∧
      (False → q ∨ (if a then Trool.true else .none) = .false) := by
  by_cases ha : a
  · simp [ha, h.mp ha]
  · simp [ha, mt h.mpr ha]

theorem rule_false {a : Prop} [Decidable a] {q : Prop} (h : a ↔ q) :
    ((if a then Trool.false else .none) = .true ↔ False) ∧
      ((if a then Trool.false else .none) = .false → q) ∧
      (q → False ∨ (if a then Trool.false else .none) = .false) := by
  by_cases ha : a
  · simp [ha, h.mp ha]
  · simp [ha, mt h.mpr ha]

theorem usualDistance_eq (d : Doc) (l : Line) : expectedLineDistance d l = usualDistance d l.fontSize := by
  unfold expectedLineDistance usualDistance
  cases d.lineDistancePerFontSize l.fontSize with
  | none => simp [maximum_eq_max]
  | some x => simp [maximum_eq_max]

/-- C31, first pass: a line starts a (preliminary) block exactly when there is no line before it in
its segment, or the first rule of the chain with an answer says so. -/
theorem c31_first_pass (d : Doc) (s : State) (i : ℕ) :
    startsPreliminaryBlock d s i = true ↔
      s.prevLine i = none ∨ ∃ p, s.prevLine i = some p ∧ FirstPass d s p i := by
  unfold startsPreliminaryBlock
  cases hp : s.prevLine i with
  | none => simp [decideChain, existsPrevLine]
  | some p =>
    simp only [reduceCtorEq, Option.some.injEq, exists_eq_left', false_or]
    rw [show decideChain [existsPrevLine (some p), sameFigure d (d.line p) (d.line i),
      rotationRule (d.line p) (d.line i), wModeRule (d.line p) (d.line i),
      fontSizeRule (d.line p) (d.line i), lineDistanceRule d (d.line p) (d.line i),
      increasedLineDistance d ((s.prevLine p).map d.line) (d.line p) (d.line i)] =
      decideChain [sameFigure d (d.line p) (d.line i),
      rotationRule (d.line p) (d.line i), wModeRule (d.line p) (d.line i),
      fontSizeRule (d.line p) (d.line i), lineDistanceRule d (d.line p) (d.line i),
      increasedLineDistance d ((s.prevLine p).map d.line) (d.line p) (d.line i)] from rfl]
    refine decideChain_iff _ _ (.cons ?_ (.cons ?_ (.cons ?_ (.cons ?_ (.cons ?_ (.cons ?_ .nil))))))
    · exact rule_false (sameFigure_iff _ _ _)
    · exact rule_true Iff.rfl
    · exact rule_true Iff.rfl
    · apply rule_true
      rw [Bool.and_eq_true, Bool.not_eq_true', Bool.not_eq_true', equal_false, equal_false]
    · unfold lineDistanceRule
      simp only [eos_iff, larger_iff, usualDistance_eq, maximum_eq_max, tol_eq, zero_add]
      rw [show (1 / 10 : ℚ) * usualDistance d (d.line i).fontSize = usualDistance d (d.line i).fontSize / 10 by ring]
      generalize (1 / 10000 : ℚ) = t
      by_cases h1 : roundTo (computeVerticalGap (d.line p).pos (d.line i).pos) 1 ≤ t
      · simp [h1, not_lt.mpr h1]
      · simp only [h1, if_false, not_le.mp h1, true_and, false_imp_iff, and_true]
        by_cases h2 : roundTo (computeVerticalGap (d.line p).pos (d.line i).pos) 1 >
            usualDistance d (d.line i).fontSize + max 1 (usualDistance d (d.line i).fontSize / 10)
        · simp [h2]
        · simp only [h2, if_false, reduceCtorEq, false_imp_iff, and_true]
    · unfold increasedLineDistance
      cases hpp : s.prevLine p with
      | none => simp
      | some pp =>
        simp only [Option.map_some, Option.some.injEq, exists_eq_left', larger_iff]
        apply rule_true
        rw [gt_iff_lt, show (1 / 2 : ℚ) * d.mostFreqWordHeight = d.mostFreqWordHeight / 2 by ring]

/-- C31, second pass: a line of a preliminary block starts a block exactly when there is no line
before it or the first rule of the second chain with an answer says so. -/
theorem c31_second_pass (d : Doc) (centered : Bool) (hi : ℚ) (s : State) (i : ℕ)
    (hcw : 0 ≤ d.avgCharWidth) (hpar : ∀ i p, (d.link i).parent = some p → p < i) :
    startsBlock d centered hi s i = true ↔
      s.prevLine i = none ∨ ∃ p, s.prevLine i = some p ∧ SecondPass d centered hi s p i := by
  unfold startsBlock
  cases hp : s.prevLine i with
  | none => simp [decideChain, existsPrevLine]
  | some p =>
    simp only [reduceCtorEq, Option.some.injEq, exists_eq_left', false_or]
    rw [show decideChain [existsPrevLine (some p), centeredRule d s centered i, itemRule d s centered p i,
      emphasizedRule d (d.line p) (d.line i), hangingIndentRule d s hi p i, indentRule d s p i] =
      decideChain [centeredRule d s centered i, itemRule d s centered p i,
      emphasizedRule d (d.line p) (d.line i), hangingIndentRule d s hi p i, indentRule d s p i] from rfl]
    cases hc : centered with
    | true =>
      -- the first rule decides
      unfold SecondPass
      have e : decideChain [centeredRule d s true i, itemRule d s true p i,
          emphasizedRule d (d.line p) (d.line i), hangingIndentRule d s hi p i, indentRule d s p i] = true ↔
          StartsItem d s none i := by
        rw [← c31_first_line_of_item]
        unfold centeredRule
        cases computeIsFirstLineOfItem d s i none <;> simp [decideChain]
      rw [e]
      simp [FirstAnswer]
    | false =>
    refine decideChain_iff _ _ (.cons ?_ (.cons ?_ (.cons ?_ (.cons ?_ (.cons ?_ .nil)))))
    · simp [centeredRule]
    · unfold itemRule
      simp only [← c31_first_line_of_item, ← c31_continuation_of_item d s _ hpar, ← hadRoom_iff,
        ← offsetFits_iff]
      cases computeIsFirstLineOfItem d s i (some s.labels) <;>
        cases computeIsFirstLineOfItem d s p (some s.labels) <;>
        cases computeIsContinuationOfItem d s (some s.labels) i <;>
        cases computeIsContinuationOfItem d s (some s.labels) p <;>
        cases computeHasPrevLineCapacity d s (some p) i <;>
        cases offsetInTolerance d (d.line p) (d.line i) <;>
        cases Text.endsWithSentenceDelimiter (d.line p).text <;>
        cases Text.startsWithUpper (d.line i).text <;> simp
    · apply rule_false
      simp only [Bool.and_eq_true, decide_eq_true_eq, hasEqualFontSize, equal_iff]
      rw [emphasized_iff, emphasized_iff]
      tauto
    · unfold hangingIndentRule
      simp only [← hadRoom_iff, ← offsetFits_iff]
      simp only [eos_iff, smaller_iff, equal_iff, larger_iff, tol_eq, zero_add]
      generalize (1 / 10000 : ℚ) = t
      by_cases h0 : hi ≤ t
      · simp [h0, not_lt.mpr h0]
      · have h0' := not_le.mp h0
        simp only [h0, if_false, h0', true_and]
        by_cases h1 : s.leftMargin i < hi - d.avgCharWidth
        · simp [h1]
        · simp only [h1, if_false, false_or]
          have h1' := not_lt.mp h1
          by_cases h2 : hi + d.avgCharWidth < s.leftMargin i
          · have h3 : ¬ |s.leftMargin i - hi| ≤ d.avgCharWidth := by
              intro h; have := (abs_le.mp h).2; linarith
            by_cases h4 : hi + d.avgCharWidth < s.leftMargin p
            · cases offsetInTolerance d (d.line p) (d.line i) <;> simp [h2, h3, h4, not_le.mpr h4]
            · simp [h2, h3, h4, not_lt.mp h4]
          · have h3 : |s.leftMargin i - hi| ≤ d.avgCharWidth := by
              rw [abs_le]; constructor <;> linarith
            by_cases h4 : hi + d.avgCharWidth < s.leftMargin p
            · cases offsetInTolerance d (d.line p) (d.line i) <;> simp [h2, h3, h4, not_le.mpr h4]
            · cases computeHasPrevLineCapacity d s (some p) i <;> simp [h2, h3, h4, not_lt.mp h4]
    · unfold indentRule
      simp only [← hadRoom_iff]
      simp only [equal_iff, larger_iff, tol_eq, between, Bool.and_eq_true, eol_iff, eos_iff, sub_zero,
        abs_abs, computeLeftXOffset]
      generalize (1 / 10000 : ℚ) = t
      generalize |(d.line p).pos.leftX - (d.line i).pos.leftX| = o
      generalize s.leftMargin i = mi
      generalize s.leftMargin p = mp
      generalize 6 * d.avgCharWidth + t = far
      by_cases h1 : mi > far
      · by_cases h2 : o ≤ d.avgCharWidth
        · simp [h1, h2, not_lt.mpr h2]
        · simp [h1, h2, not_le.mp h2]
      · by_cases h3 : mp > far
        · by_cases h2 : o ≤ d.avgCharWidth
          · simp [h1, h3, h2, not_lt.mpr h2]
          · simp [h1, h3, h2, not_le.mp h2]
        · by_cases h4 : d.avgCharWidth - t ≤ mi
          · simp [h1, h3, h4, not_lt.mp h1, not_lt.mp h3]
          · cases computeHasPrevLineCapacity d s (some p) i <;>
              simp [h1, h3, h4, not_lt.mp h1, not_lt.mp h3]

/-! ## The boundaries of the blocks -/

/-- In a division of a sequence: an element with a predecessor either is the first of its group and
starts it, or is in the same group as its predecessor and does not. -/
theorem isSplitAt_cases {α : Type} {starts : α → Prop} {xs : List α} {gs : List (List α)}
    (h : IsSplitAt starts xs gs) (hn : xs.Nodup) {a e : List α} {p c : α} (hx : xs = a ++ p :: c :: e) :
    (starts c ∧ ∃ g ∈ gs, g.head? = some c) ∨
    (¬ starts c ∧ ∃ g ∈ gs, ∃ a' e', g = a' ++ p :: c :: e') := by
  have hc : c ∈ gs.flatten := by rw [h.flatten, hx]; simp
  obtain ⟨g, hg, hcg⟩ := List.mem_flatten.mp hc
  obtain ⟨G1, G2, rfl⟩ := List.append_of_mem hg
  obtain ⟨u, v, rfl⟩ := List.append_of_mem hcg
  have hfl : xs = (G1.flatten ++ u) ++ c :: (v ++ G2.flatten) := by
    rw [← h.flatten]; simp
  have hfl' : xs = (a ++ [p]) ++ c :: e := by rw [hx]; simp
  have hu : a ++ [p] = G1.flatten ++ u := (append_cons_inj_nodup (by rw [← hfl']; exact hn)
    (hfl'.symm.trans hfl)).1
  rcases List.eq_nil_or_concat u with rfl | ⟨u', q, rfl⟩
  · left
    refine ⟨?_, _, hg, rfl⟩
    cases G1 with
    | nil => simp at hu
    | cons g1 G1 => exact h.heads ([] ++ c :: v) (by simp) c rfl
  · right
    have hq : p = q := by
      have := congrArg List.getLast? hu
      simpa [List.concat_eq_append, ← List.append_assoc] using this
    subst hq
    refine ⟨h.inside _ hg c ?_, _, hg, u', v, by simp⟩
    cases u' <;> simp

theorem forall₂_mem_left {α β : Type} {R : α → β → Prop} {l : List α} {l' : List β}
    (h : List.Forall₂ R l l') {x : α} (hx : x ∈ l) : ∃ y ∈ l', R x y := by
  induction h with
  | nil => simp at hx
  | cons hab _ ih =>
    rcases List.mem_cons.mp hx with rfl | hx
    · exact ⟨_, by simp, hab⟩
    · obtain ⟨y, hy, hr⟩ := ih hx
      exact ⟨y, by simp [hy], hr⟩

theorem head_unique {gs : List (List ℕ)} (hn : gs.flatten.Nodup) {g g' : List ℕ} {x : ℕ}
    (hg : g ∈ gs) (hg' : g' ∈ gs) (hx : x ∈ g) (hx' : x ∈ g') : g = g' := by
  induction gs with
  | nil => simp at hg
  | cons g0 gs ih =>
    rw [List.flatten_cons, List.nodup_append] at hn
    rcases List.mem_cons.mp hg with rfl | h1 <;> rcases List.mem_cons.mp hg' with rfl | h2
    · rfl
    · exact absurd rfl (hn.2.2 x hx x (List.mem_flatten.mpr ⟨g', h2, hx'⟩))
    · exact absurd rfl (hn.2.2 x hx' x (List.mem_flatten.mpr ⟨g, h1, hx⟩))
    · exact ih hn.2.1 h1 h2

theorem not_heads {bs : List Block} (hnb : (bs.map (·.lines)).flatten.Nodup) {b : Block} (hb : b ∈ bs)
    {a e : List ℕ} {p c : ℕ} (hbl : b.lines = a ++ p :: c :: e) :
    ¬ ∃ b' ∈ bs, b'.lines.head? = some c := by
  rintro ⟨b', hb', hh⟩
  have hcb' : c ∈ b'.lines := List.mem_of_head? hh
  have heq : b'.lines = b.lines := head_unique hnb (List.mem_map_of_mem hb')
    (List.mem_map_of_mem hb) hcb' (by rw [hbl]; simp)
  have hnb' : b.lines.Nodup := (List.nodup_flatten.mp hnb).1 _ (List.mem_map_of_mem hb)
  rw [heq, hbl] at hh
  rw [hbl] at hnb'
  cases a with
  | nil =>
    simp only [List.nil_append, List.head?_cons, Option.some.injEq] at hh
    subst hh
    simp at hnb'
  | cons x a'' =>
    simp only [List.cons_append, List.head?_cons, Option.some.injEq] at hh
    subst hh
    simp at hnb'

theorem mem_foldl_addLabels (d : Doc) (is : List ℕ) (labels : List Text.Str) (t : Text.Str) :
    t ∈ is.foldl (addLabels d) labels ↔ t ∈ labels ∨ ∃ i ∈ is, ∃ w ∈ (d.line i).words, LabelOf w t := by
  induction is generalizing labels with
  | nil => simp
  | cons i is ih =>
    rw [List.foldl_cons, ih, addLabels, c66_footnote_labels]
    simp [or_assoc]

/-- What is known about a created block: its text and box are those of its lines (C32), its trim box is the
intersection of its box and the trim box of its segment, it is centered exactly if its lines are, and
emphasised exactly if its text is. -/
structure BlockFacts (d : Doc) (b : Block) : Prop where
  lines : b.lines ≠ []
  trim : ∀ f, b.lines.head? = some f →
      b.trimLeftX = max b.pos.leftX (d.seg f).trimLeftX ∧
      b.trimUpperY = max b.pos.upperY (d.seg f).trimUpperY ∧
      b.trimRightX = min b.pos.rightX (d.seg f).trimRightX ∧
      b.trimLowerY = min b.pos.lowerY (d.seg f).trimLowerY
  centered : b.isLinesCentered = true ↔ LinesCentered d.avgCharWidth (b.lines.map d.line)
  emphasized : b.isEmphasized = true ↔ EmphasizedText d b.fontName b.fontSize b.text

theorem Made.facts {d : Doc} {b : Block} (h : Made d b) : BlockFacts d b where
  lines := h.nonempty
  trim := h.trim
  centered := by rw [h.centered, c66_lines_centered]
  emphasized := by rw [h.emphasized, emphasizedText_iff]

/-- The preliminary blocks `pl` of the segment `seg`: `s0` is the state before block detection, `s1` the
one between the passes.  The segment is divided at the lines without previous line and at the lines that the
first chain of rules separates from their previous line; the lines are linked with their neighbours in the
preliminary block, and their margins (and its hanging indent) are those in the preliminary block. -/
structure PrelimSegment (d : Doc) (s0 s1 : State) (seg : List ℕ) (pl : List Block) : Prop where
  split : IsSplitAt (fun c => s0.prevLine c = none ∨ ∃ p, s0.prevLine c = some p ∧ FirstPass d s0 p c) seg
    (pl.map (·.lines))
  facts : ∀ b ∈ pl, BlockFacts d b
  linked : ∀ b ∈ pl, ∀ a c e, b.lines = a ++ c :: e →
    s1.prevLine c = a.getLast? ∧ s1.nextLine c = e.head?
  margins : ∀ b ∈ pl, Margins d s1 pl b
  numbered : BlocksLinked pl

theorem PrelimOf.segment {d : Doc} {s0 s1 : State} {seg : List ℕ} {pl : List Block}
    (h : PrelimOf d s0 s1 seg pl) (hin : InputLinked s0 seg) : PrelimSegment d s0 s1 seg pl where
  split := by
    have := h.split hin
    have e : (fun c => startsPreliminaryBlock d s0 c = true) =
        fun c => s0.prevLine c = none ∨ ∃ p, s0.prevLine c = some p ∧ FirstPass d s0 p c := by
      funext c
      rw [c31_first_pass]
    rwa [e] at this
  facts b hb := (h.made b hb).facts
  linked := h.linked
  margins := h.margins
  numbered := h.numbered

theorem pageOf_cover {d : Doc} {all : List ℕ} {s s1 s' : State} {pages : List (List (List ℕ))}
    {bss : List (List Block)} (h : List.Forall₂ (PageOf d all s s1 s') pages bss) :
    (bss.flatten.map (·.lines)).flatten = pages.flatten.flatten := by
  induction h with
  | nil => rfl
  | cons hab _ ih =>
    obtain ⟨pbs, hp, hf⟩ := hab
    have := hf.cover
    rw [prelim_cover hp, flatMap_lines] at this
    rw [List.flatten_cons, List.map_append, List.flatten_append, ih, this, List.flatten_cons,
      List.flatten_append]

/-- C31, whole stage: there are preliminary blocks (see `PrelimSegment`) such that the following holds.
Let `c` be a line with predecessor `p` in its segment.
* If the first chain of rules says so (or `c` has no previous line), `c` is the first line of a block.
* Otherwise `p` and `c` are in one preliminary block `pb`, and `c` is the first line of a block exactly
  when the second chain of rules says so, evaluated in the following state: the lines of the blocks of the
  document before the block of `p` have the neighbours and margins of the final blocks (those of the final
  state), the other lines have those of the preliminary blocks, and the known footnote labels are those of
  the lines of the document up to `c`.
In all other cases `c` directly follows `p` in its block. -/
theorem c31_boundaries (h : HashOrder) (d : Doc) (s : State) (pages : List (List (List ℕ)))
    (hn : pages.flatten.flatten.Nodup) (hin : ∀ page ∈ pages, ∀ seg ∈ page, InputLinked s seg)
    (hcw : 0 ≤ d.avgCharWidth) (hpar : ∀ i p, (d.link i).parent = some p → p < i) :
    ∃ s1 s' bss, process h d s pages = .ok (s', bss) ∧
      List.Forall₂ (fun page bs => ∃ pls, List.Forall₂ (PrelimSegment d s s1) page pls ∧
        ∀ seg pl, (seg, pl) ∈ page.zip pls → ∀ a p c e, seg = a ++ p :: c :: e →
        let Heads := ∃ b ∈ bs, b.lines.head? = some c
        (((s.prevLine c = none ∨ FirstPass d s p c) ∧ Heads) ∨
         ((s.prevLine c = some p ∧ ¬ FirstPass d s p c) ∧
          ∃ pb ∈ pl, ∃ (a' e' u v : List ℕ) (labels : List Text.Str) (B1 B2 : List Block) (b : Block),
            pb.lines = a' ++ p :: c :: e' ∧
            pages.flatten.flatten = u ++ c :: v ∧
            (∀ t, t ∈ labels ↔ t ∈ s.labels ∨ ∃ i ∈ u ++ [c], ∃ w ∈ (d.line i).words, LabelOf w t) ∧
            bss.flatten = B1 ++ b :: B2 ∧ p ∈ b.lines ∧
            (Heads ↔ SecondPass d pb.isLinesCentered pb.hangingIndent
              (stateAt (B1.flatMap (·.lines)) s1 s' labels) p c))) ∧
        (¬ Heads → ∃ b ∈ bs, ∃ a' e', b.lines = a' ++ p :: c :: e')) pages bss := by
  obtain ⟨s1, s', bss, h1, h2, _⟩ := process_spec h d s pages hn
  have hcovall := pageOf_cover h2
  refine ⟨s1, s', bss, h1, ?_⟩
  have h2' : List.Forall₂ (fun page bs => bs ∈ bss ∧ PageOf d pages.flatten.flatten s s1 s' page bs) pages bss := by
    have : ∀ (P : List (List (List ℕ))) (B : List (List Block)), (∀ bs ∈ B, bs ∈ bss) →
        List.Forall₂ (PageOf d pages.flatten.flatten s s1 s') P B →
        List.Forall₂ (fun page bs => bs ∈ bss ∧ PageOf d pages.flatten.flatten s s1 s' page bs) P B := by
      intro P B hB hx
      induction hx with
      | nil => exact .nil
      | cons hab _ ih => exact .cons ⟨hB _ (by simp), hab⟩ (ih fun bs hbs => hB bs (by simp [hbs]))
    exact this pages bss (fun _ h => h) h2
  refine forall₂_mem h2' ?_
  rintro page bs hpage ⟨hbsm, pbs, hp, hf⟩
  refine ⟨pbs, forall₂_mem hp fun seg pl hseg hx => hx.segment (hin page hpage seg hseg), ?_⟩
  intro seg pl hzip a p c e hse
  have hseg : seg ∈ page := (List.of_mem_zip hzip).1
  have hpl : pl ∈ pbs := (List.of_mem_zip hzip).2
  have hprel : PrelimOf d s s1 seg pl := by
    clear * - hp hzip
    induction hp with
    | nil => simp at hzip
    | cons hab _ ih =>
      rw [List.zip_cons_cons, List.mem_cons] at hzip
      rcases hzip with hz | hz
      · simp only [Prod.mk.injEq] at hz
        obtain ⟨rfl, rfl⟩ := hz
        exact hab
      · exact ih hz
  obtain ⟨gss, g1, g2⟩ := hf.split
  have hnp : page.flatten.Nodup := by
    rw [List.flatten_flatten] at hn
    exact (List.nodup_flatten.mp hn).1 _ (List.mem_map_of_mem hpage)
  have hns : seg.Nodup := (List.nodup_flatten.mp hnp).1 seg hseg
  have hnb : (bs.map (·.lines)).flatten.Nodup := by
    rw [← flatMap_lines, hf.cover, prelim_cover hp]; exact hnp
  obtain ⟨gl, hgl, hfin⟩ := forall₂_mem_left g2 hpl
  have hprev : s.prevLine c = none ∨ s.prevLine c = some p := by
    have := hin page hpage seg hseg (a ++ [p]) c e (by rw [hse]; simp)
    simpa using this
  have hfirst : startsPreliminaryBlock d s c = true ↔ s.prevLine c = none ∨ FirstPass d s p c := by
    rw [c31_first_pass]
    rcases hprev with h | h
    · simp [h]
    · simp [h]
  have hblock : ∀ g, (∃ gs ∈ gl, g ∈ gs) → ∃ b ∈ bs, b.lines = g := by
    rintro g ⟨gs, hgs, hg⟩
    have : g ∈ bs.map (·.lines) := by
      rw [g1, List.mem_flatten]
      exact ⟨gs, List.mem_flatten.mpr ⟨gl, hgl, hgs⟩, hg⟩
    obtain ⟨b, hb, rfl⟩ := List.mem_map.mp this
    exact ⟨b, hb, rfl⟩
  rcases isSplitAt_cases (hprel.split (hin page hpage seg hseg)) hns hse with ⟨hs, g, hg, hgc⟩ |
    ⟨hs, g, hg, a', e', hge⟩
  · -- the first pass starts a block
    obtain ⟨pb, hpb, rfl⟩ := List.mem_map.mp hg
    obtain ⟨gs, hgs, dec, _, _, hsp, _⟩ := forall₂_mem_left hfin hpb
    have hheads : ∃ b ∈ bs, b.lines.head? = some c := by
      cases gs with
      | nil =>
        have := hsp.flatten
        rw [List.flatten_nil] at this
        rw [← this] at hgc
        cases hgc
      | cons g0 gs =>
        obtain ⟨b, hb, hbl⟩ := hblock g0 ⟨_, hgs, by simp⟩
        refine ⟨b, hb, ?_⟩
        have hne := hsp.nonempty g0 (by simp)
        have := hsp.flatten
        rw [List.flatten_cons] at this
        cases g0 with
        | nil => exact absurd rfl hne
        | cons x g0 =>
          rw [hbl]
          rw [← this] at hgc
          simpa using hgc
    exact ⟨Or.inl ⟨hfirst.mp hs, hheads⟩, fun hc => absurd hheads hc⟩
  · obtain ⟨pb, hpb, rfl⟩ := List.mem_map.mp hg
    obtain ⟨gs, hgs, dec, before, after, hsp, hba, hdec⟩ := forall₂_mem_left hfin hpb
    obtain ⟨G1, g, G2, e1, e2, e3⟩ := hdec a' p c e' hge
    have hnpb : pb.lines.Nodup := by
      have : (pl.map (·.lines)).flatten.Nodup := by rw [hprel.cover]; exact hns
      exact (List.nodup_flatten.mp this).1 _ hg
    -- the block of `p`
    obtain ⟨b, hb, hbl⟩ := hblock g ⟨_, hgs, by rw [e1]; simp⟩
    obtain ⟨B1, B2, hB⟩ := List.append_of_mem (List.mem_flatten.mpr ⟨bs, hbsm, hb⟩)
    obtain ⟨g3, g4, hg34⟩ := List.append_of_mem e2
    have hB1 : B1.flatMap (·.lines) = before ++ G1.flatten := by
      have x1 : pages.flatten.flatten = (B1.flatMap (·.lines) ++ g3) ++ p :: (g4 ++ B2.flatMap (·.lines)) := by
        rw [← hcovall, hB, List.map_append, List.map_cons, List.flatten_append, List.flatten_cons, hbl,
          hg34, flatMap_lines, flatMap_lines]
        simp
      have x2 : pages.flatten.flatten = (before ++ G1.flatten ++ g3) ++ p :: (g4 ++ G2.flatten ++ after) := by
        rw [hba, ← hsp.flatten, e1, List.flatten_append, List.flatten_cons, hg34]
        simp
      have := (append_cons_inj_nodup (by rw [← x1]; exact hn) (x1.symm.trans x2)).1
      exact List.append_cancel_right this
    have hprevAt : ∀ L, (stateAt (B1.flatMap (·.lines)) s1 s' L).prevLine c = some p := by
      intro L
      have hcn : c ∉ B1.flatMap (·.lines) := by
        rw [hB1]
        have hn' := hn
        rw [hba, hge] at hn'
        rw [List.mem_append, not_or]
        constructor
        · intro hc
          rw [List.append_assoc, List.nodup_append] at hn'
          exact hn'.2.2 c hc c (by simp) rfl
        · intro hc
          have y1 : pb.lines = (G1.flatten ++ g3) ++ p :: (g4 ++ G2.flatten) := by
            rw [← hsp.flatten, e1, List.flatten_append, List.flatten_cons, hg34]
            simp
          have y2 := (append_cons_inj_nodup (by rw [← y1]; exact hnpb) (y1.symm.trans hge)).1
          have hca : c ∈ a' := by rw [← y2]; simp [hc]
          rw [hge] at hnpb
          rw [List.nodup_append] at hnpb
          exact hnpb.2.2 c hca c (by simp) rfl
      show (if c ∈ B1.flatMap (·.lines) then s'.prevLine c else s1.prevLine c) = some p
      rw [if_neg hcn, (hprel.linked pb hpb (a' ++ [p]) c e' (by rw [hge]; simp)).1]
      simp
    have hsec : dec c = true ↔ SecondPass d pb.isLinesCentered pb.hangingIndent
        (stateAt (B1.flatMap (·.lines)) s1 s' ((before ++ a' ++ [p, c]).foldl (addLabels d) s.labels)) p c := by
      rw [e3, ← hB1, c31_second_pass d _ _ _ c hcw hpar]
      simp [hprevAt]
    have hs' := mt hfirst.mpr hs
    rw [not_or] at hs'
    have hcase : (dec c = true ∧ ∃ b ∈ bs, b.lines.head? = some c) ∨
        (dec c ≠ true ∧ (¬ ∃ b ∈ bs, b.lines.head? = some c) ∧
          ∃ b ∈ bs, ∃ a' e', b.lines = a' ++ p :: c :: e') := by
      rcases isSplitAt_cases hsp hnpb hge with ⟨hd, g, hg, hgc⟩ | ⟨hd, g, hg, a'', e'', hge'⟩
      · left
        obtain ⟨b, hb, hbl⟩ := hblock g ⟨_, hgs, hg⟩
        exact ⟨hd, b, hb, by rw [hbl]; exact hgc⟩
      · right
        obtain ⟨b, hb, hbl⟩ := hblock g ⟨_, hgs, hg⟩
        exact ⟨hd, not_heads hnb hb (by rw [hbl]; exact hge'), b, hb, a'', e'', by rw [hbl]; exact hge'⟩
    refine ⟨Or.inr ⟨⟨hprev.resolve_left hs'.1, hs'.2⟩, pb, hpb, a', e', before ++ a' ++ [p], e' ++ after,
      (before ++ a' ++ [p, c]).foldl (addLabels d) s.labels, B1, B2, b, hge, ?_, ?_, hB, by rw [hbl]; exact e2, ?_⟩, ?_⟩
    · rw [hba, hge]; simp
    · intro t
      rw [mem_foldl_addLabels]
      simp [or_assoc]
    · rw [← hsec]
      rcases hcase with ⟨q1, q2⟩ | ⟨q1, q2, _⟩
      · exact ⟨fun _ => q1, fun _ => q2⟩
      · exact ⟨fun h => absurd h q2, fun h => absurd h q1⟩
    · intro hh
      rcases hcase with ⟨q1, q2⟩ | ⟨q1, q2, q3⟩
      · exact absurd q2 hh
      · exact q3

theorem forall₂_and {α β : Type} {R S : α → β → Prop} {l : List α} {l' : List β}
    (h : List.Forall₂ R l l') (h' : List.Forall₂ S l l') : List.Forall₂ (fun a b => R a b ∧ S a b) l l' := by
  induction h with
  | nil => exact .nil
  | cons hab _ ih =>
    cases h' with
    | cons hx hy => exact .cons ⟨hab, hx⟩ (ih hy)

theorem forall₂_mem_right {α β : Type} {R : α → β → Prop} {l : List α} {l' : List β}
    (h : List.Forall₂ R l l') {y : β} (hy : y ∈ l') : ∃ x ∈ l, R x y := by
  induction h with
  | nil => simp at hy
  | cons hab _ ih =>
    rcases List.mem_cons.mp hy with rfl | hy
    · exact ⟨_, by simp, hab⟩
    · obtain ⟨x, hx, hr⟩ := ih hy
      exact ⟨x, by simp [hx], hr⟩

theorem usualDistance_nonneg (d : Doc) (f : ℚ) : 0 ≤ usualDistance d f :=
  le_trans (le_max_left _ _) (le_max_left _ _)

/-- C31: two lines that follow each other in a block lie in the same figure, or they have the same
rotation and writing mode, their font sizes differ by at most 1 (the most frequent or the largest
ones), and their distance is not larger than usual. -/
theorem c31_homogeneous (h : HashOrder) (d : Doc) (s : State) (pages : List (List (List ℕ)))
    (hn : pages.flatten.flatten.Nodup) (hin : ∀ page ∈ pages, ∀ seg ∈ page, InputLinked s seg)
    (hcw : 0 ≤ d.avgCharWidth) (hpar : ∀ i p, (d.link i).parent = some p → p < i) :
    ∃ s' bss, process h d s pages = .ok (s', bss) ∧
      ∀ bs ∈ bss, ∀ b ∈ bs, ∀ a p c e, b.lines = a ++ p :: c :: e →
        SameFigure (d.figures (d.line c).pos.pageNum) (d.line p).pos (d.line c).pos ∨
        ((d.line p).pos.rotation = (d.line c).pos.rotation ∧
         (d.line p).pos.wMode = (d.line c).pos.wMode ∧
         (|(d.line p).fontSize - (d.line c).fontSize| ≤ 1 ∨
          |(d.line p).maxFontSize - (d.line c).maxFontSize| ≤ 1) ∧
         roundTo (computeVerticalGap (d.line p).pos (d.line c).pos) 1 ≤
           usualDistance d (d.line c).fontSize + max 1 (usualDistance d (d.line c).fontSize / 10)) := by
  obtain ⟨s1, s', bss, h1, h2⟩ := c31_boundaries h d s pages hn hin hcw hpar
  obtain ⟨s'', bss', h1', h3⟩ := c30_blocks_partition h d s pages hn
  rw [h1] at h1'
  simp only [Outcome.ok.injEq, Prod.mk.injEq] at h1'
  obtain ⟨rfl, rfl⟩ := h1'
  refine ⟨s', bss, h1, ?_⟩
  intro bs hbs b hb a p c e hbl
  obtain ⟨page, hpage, ⟨pls, hpls, hA⟩, ⟨parts, hparts, hsegs⟩, _⟩ := forall₂_mem_right (forall₂_and h2 h3) hbs
  have hcov : (bs.map (·.lines)).flatten = page.flatten := by
    rw [← hparts]
    clear * - hsegs
    induction hsegs with
    | nil => rfl
    | cons hab _ ih => rw [List.flatten_cons, List.map_append, List.flatten_append, ih, hab, List.flatten_cons]
  have hnp : page.flatten.Nodup := by
    rw [List.flatten_flatten] at hn
    exact (List.nodup_flatten.mp hn).1 _ (List.mem_map_of_mem hpage)
  have hnh := not_heads (by rw [hcov]; exact hnp) hb hbl
  -- the segment of the block
  rw [← hparts] at hb
  obtain ⟨part, hpart, hbp⟩ := List.mem_flatten.mp hb
  obtain ⟨seg, hseg, hsp⟩ := forall₂_mem_right hsegs hpart
  obtain ⟨P1, P2, rfl⟩ := List.append_of_mem hbp
  have hse : seg = ((P1.map (·.lines)).flatten ++ a) ++ p :: c :: (e ++ (P2.map (·.lines)).flatten) := by
    rw [← hsp, List.map_append, List.map_cons, List.flatten_append, List.flatten_cons, hbl]
    simp
  obtain ⟨pl, hpl⟩ : ∃ pl, (seg, pl) ∈ page.zip pls := by
    clear * - hpls hseg
    induction hpls with
    | nil => simp at hseg
    | cons hab _ ih =>
      rw [List.mem_cons] at hseg
      rcases hseg with rfl | hseg
      · exact ⟨_, by rw [List.zip_cons_cons]; exact List.mem_cons_self⟩
      · obtain ⟨pl, hpl⟩ := ih hseg
        exact ⟨pl, by rw [List.zip_cons_cons]; exact List.mem_cons_of_mem _ hpl⟩
  rcases (hA seg pl hpl _ p c _ hse).1 with ⟨_, hh⟩ | ⟨⟨_, hf⟩, _⟩
  · exact absurd hh hnh
  · have hu := usualDistance_nonneg d (d.line c).fontSize
    have hm := le_max_left (1 : ℚ) (usualDistance d (d.line c).fontSize / 10)
    by_cases hsf : SameFigure (d.figures (d.line c).pos.pageNum) (d.line p).pos (d.line c).pos
    · exact Or.inl hsf
    · right
      simp only [FirstPass, FirstAnswer, hsf, not_false_eq_true, true_and, false_or, or_false, not_or,
        not_and, not_lt, not_not, ne_eq, and_false, not_exists] at hf
      obtain ⟨f1, f2, f3, f4, _⟩ := hf
      refine ⟨f1, f2, ?_, ?_⟩
      · by_cases g : 1 < |(d.line p).fontSize - (d.line c).fontSize|
        · exact Or.inr (f3 g)
        · exact Or.inl (not_lt.mp g)
      · by_cases g : 1 / 10000 < roundTo (computeVerticalGap (d.line p).pos (d.line c).pos) 1
        · exact f4 g
        · have := not_lt.mp g
          linarith

/-! ## C32 -/

theorem lineText_eq (ws : List Word) : blockText.lineText ws = [' '].intercalate (ws.map (·.text)) := by
  induction ws with
  | nil => simp [blockText.lineText, List.intercalate]
  | cons w ws ih =>
    cases ws with
    | nil => simp [blockText.lineText, List.intercalate]
    | cons w' ws =>
      rw [blockText.lineText, ih]
      · simp [List.intercalate]
      · simp

theorem intercalate_append {sep : List Char} : ∀ {xs ys : List (List Char)}, xs ≠ [] → ys ≠ [] →
    sep.intercalate (xs ++ ys) = sep.intercalate xs ++ sep ++ sep.intercalate ys
  | [x], y :: ys, _, _ => by simp [List.intercalate]
  | x :: x' :: xs, ys, _, hy => by
    have := intercalate_append (sep := sep) (xs := x' :: xs) (ys := ys) (by simp) hy
    simp only [List.intercalate] at this ⊢
    simp only [List.cons_append] at this
    simp only [List.cons_append, List.intersperse_cons₂, List.flatten_cons, this]
    simp
  | [], _, h, _ => absurd rfl h
  | [_], [], _, h => absurd rfl h

theorem blockText_eq (ls : List Line) (h : ∀ l ∈ ls, l.words ≠ []) :
    blockText ls = [' '].intercalate ((ls.flatMap (·.words)).map (·.text)) := by
  induction ls with
  | nil => simp [blockText, List.intercalate]
  | cons l ls ih =>
    have ih := ih fun x hx => h x (by simp [hx])
    have hl := h l (by simp)
    cases ls with
    | nil => simp [blockText, lineText_eq]
    | cons l' ls =>
      have hl' := h l' (by simp)
      rw [show blockText (l :: l' :: ls) = blockText.lineText l.words ++ [' '] ++ blockText (l' :: ls) from rfl,
        ih, lineText_eq, List.flatMap_cons (x := l), List.map_append,
        intercalate_append (by simpa using hl) (by simp [hl'])]

/-- The box of a line with its corners sorted (lines of rotated text may have them exchanged). -/
def sortedBox (b : Box) : Box :=
  { b with leftX := min b.leftX b.rightX, rightX := max b.leftX b.rightX,
           upperY := min b.upperY b.lowerY, lowerY := max b.upperY b.lowerY }

theorem sortedBox_eq (b : Box) : sortedBox b = normBox b := by
  simp only [sortedBox, normBox, minimum_eq_min, maximum_eq_max, min_comm, max_comm]

/-- C32: every block has
* as text the texts of its words in line order, joined by single spaces (lines have words, C26);
* a box that contains the boxes of its lines, and if these have positive coordinates (C21), the
  smallest such box;
* the page, rotation and writing mode of its first line;
* a font name and font size that are most frequent among its lines. -/
theorem c32_block_content (h : HashOrder) (d : Doc) (s : State) (pages : List (List (List ℕ)))
    (hn : pages.flatten.flatten.Nodup) (hw : ∀ i ∈ pages.flatten.flatten, (d.line i).words ≠ [])
    (hlen : pages.flatten.flatten.length < 2 ^ 32) :
    ∃ s' bss, process h d s pages = .ok (s', bss) ∧ ∀ bs ∈ bss, ∀ b ∈ bs,
      b.text = [' '].intercalate (((b.lines.map d.line).flatMap (·.words)).map (·.text)) ∧
      (∀ i ∈ b.lines, b.pos.leftX ≤ (sortedBox (d.line i).pos).leftX ∧
        b.pos.upperY ≤ (sortedBox (d.line i).pos).upperY ∧
        (sortedBox (d.line i).pos).rightX ≤ b.pos.rightX ∧
        (sortedBox (d.line i).pos).lowerY ≤ b.pos.lowerY) ∧
      ((∀ i ∈ b.lines, PositiveBox (sortedBox (d.line i).pos)) →
        IsHull (b.lines.map fun i => sortedBox (d.line i).pos) b.pos) ∧
      (∃ f, b.lines.head? = some f ∧ b.pos.pageNum = (d.line f).pos.pageNum ∧
        b.pos.rotation = (d.line f).pos.rotation ∧ b.pos.wMode = (d.line f).pos.wMode) ∧
      IsMostFrequent (b.lines.map fun i => (d.line i).fontName) b.fontName ∧
      IsMostFrequent (b.lines.map fun i => (d.line i).fontSize) b.fontSize := by
  obtain ⟨s1, s', bss, h1, h2, _⟩ := process_spec h d s pages hn
  refine ⟨s', bss, h1, ?_⟩
  intro bs hbs b hb
  obtain ⟨page, hpage, pbs, hp, hf⟩ := forall₂_mem_right h2 hbs
  have hm := hf.made b hb
  have hsubl : b.lines.Sublist pages.flatten.flatten := by
    have e : bs.flatMap (·.lines) = page.flatten := by rw [hf.cover, prelim_cover hp]
    have a1 : b.lines.Sublist (bs.flatMap (·.lines)) := by
      rw [flatMap_lines]
      exact List.sublist_flatten_of_mem (List.mem_map_of_mem hb)
    rw [e] at a1
    refine a1.trans ?_
    rw [List.flatten_flatten]
    exact List.sublist_flatten_of_mem (List.mem_map_of_mem hpage)
  obtain ⟨f, hfl⟩ : ∃ f, b.lines.head? = some f := by
    cases hbl : b.lines with
    | nil => exact absurd hbl hm.nonempty
    | cons x xs => exact ⟨x, rfl⟩
  have hbox := hm.box f hfl
  have emap : (b.lines.map d.line).map (fun l => normBox l.pos) = b.lines.map fun i => sortedBox (d.line i).pos := by
    rw [List.map_map]
    exact List.map_congr_left fun i _ => (sortedBox_eq _).symm
  rw [emap] at hbox
  have hfont := hm.font (lt_of_le_of_lt hsubl.length_le hlen)
  rw [List.map_map, List.map_map] at hfont
  refine ⟨?_, ?_, ?_, ⟨f, hfl, ?_⟩, hfont⟩
  · rw [hm.text, blockText_eq]
    intro l hl
    obtain ⟨i, hi, rfl⟩ := List.mem_map.mp hl
    exact hw i (hsubl.subset hi)
  · intro i hi
    rw [hbox]
    exact extendAll_contains _ _ _ (List.mem_map_of_mem hi)
  · intro hpos
    rw [hbox]
    refine extendAll_isHull (by simpa using hm.nonempty) rfl rfl rfl rfl ?_
    intro e he
    obtain ⟨i, hi, rfl⟩ := List.mem_map.mp he
    exact hpos i hi
  · rw [hbox]
    obtain ⟨e1, e2, e3⟩ := extendAll_rest
      { pageNum := (d.line f).pos.pageNum, wMode := (d.line f).pos.wMode,
        rotation := (d.line f).pos.rotation } (b.lines.map fun i => sortedBox (d.line i).pos)
    exact ⟨e1, e2, e3⟩

/-! ## C66 -/

/-- C66, whole stage: every block of the result is centered exactly if its lines are centered, emphasised
exactly if its text is, has as trim box the intersection of its box and the trim box of its segment; the
left margins of its lines are measured from the left edge of the trim box, the right margins from
`rightEdge`, and (with less than 2^32 lines) its hanging indent is the one these margins determine; and the
footnote labels found are those of the words of the document. -/
theorem c66_blocks (h : HashOrder) (d : Doc) (s : State) (pages : List (List (List ℕ)))
    (hn : pages.flatten.flatten.Nodup) (hlen : pages.flatten.flatten.length < 2 ^ 32) :
    ∃ s' bss, process h d s pages = .ok (s', bss) ∧
      (∀ bs ∈ bss, ∀ b ∈ bs, BlockFacts d b ∧
        (∀ i ∈ b.lines, s'.leftMargin i = (d.line i).pos.leftX - b.trimLeftX) ∧
        (∀ i ∈ b.lines, s'.rightMargin i = rightEdge d bs b - (d.line i).pos.rightX) ∧
        HangingIndentIs d (fun i => (d.line i).pos.leftX - b.trimLeftX)
          (fun i => rightEdge d bs b - (d.line i).pos.rightX) b.lines b.hangingIndent) ∧
      (∀ t, t ∈ s'.labels ↔ t ∈ s.labels ∨
        ∃ i ∈ pages.flatten.flatten, ∃ w ∈ (d.line i).words, LabelOf w t) := by
  obtain ⟨s1, s', bss, h1, h2, h3⟩ := process_spec h d s pages hn
  refine ⟨s', bss, h1, ?_, ?_⟩
  · intro bs hbs b hb
    obtain ⟨page, hpage, pbs, hp, hf⟩ := forall₂_mem_right h2 hbs
    have hm := hf.margins b hb
    refine ⟨(hf.made b hb).facts, hm.left, hm.right, ?_⟩
    have hsubl : b.lines.Sublist pages.flatten.flatten := by
      rw [← pageOf_cover h2]
      exact List.sublist_flatten_of_mem (List.mem_map_of_mem (List.mem_flatten.mpr ⟨bs, hbs, hb⟩))
    exact hm.hanging (lt_of_le_of_lt hsubl.length_le hlen)
  · intro t
    rw [h3, mem_foldl_addLabels]

/-! ## Examples -/

/-- A line with one word. -/
def textLineAt (x y : ℚ) (t : String) : Line :=
  { words := [{ wordAt x y t with pos := { pageNum := 1, leftX := x, upperY := y, rightX := x + 10, lowerY := y + 10 } }]
    pos := { pageNum := 1, leftX := x, upperY := y, rightX := x + 100, lowerY := y + 10 }
    text := utf8 t, fontSize := 10, maxFontSize := 10, base := y + 8 }

/-- Two segments; in the first one three lines in normal distance, a rotated line and a line far
below. -/
def sampleBlocksDoc : Doc :=
  { line := fun i => if i = 0 then textLineAt 100 100 "one" else if i = 1 then textLineAt 100 112 "two"
      else if i = 2 then textLineAt 100 124 "three"
      else if i = 3 then { textLineAt 100 136 "four" with
        pos := { (textLineAt 100 136 "four").pos with rotation := 1 } }
      else if i = 4 then textLineAt 100 300 "five" else textLineAt 400 100 "six"
    seg := fun _ => { pos := { leftX := 100, upperY := 100, rightX := 200, lowerY := 310 },
                      trimLeftX := 100, trimUpperY := 100, trimRightX := 200, trimLowerY := 310 }
    avgCharWidth := 5, mostFreqWordHeight := 10, mostFreqLineDistance := 2 }

/-- The links text line detection sets. -/
def sampleBlocksState : State :=
  { prevLine := fun i => if i = 0 ∨ i = 5 then none else some (i - 1)
    nextLine := fun i => if i = 4 ∨ i = 5 then none else some (i + 1) }

/-- The line numbers of the blocks. -/
def blockLines (r : Outcome (State × List (List Block))) : Option (List (List (List ℕ))) :=
  match r with
  | .ok (_, bss) => some (bss.map (·.map (·.lines)))
  | _ => none

/-- Non-vacuity of C30-C32. -/
example : blockLines (process idOrder sampleBlocksDoc sampleBlocksState [[[0, 1, 2, 3, 4], [5]]]) =
    some [[[0, 1, 2], [3], [4], [5]]] := by
  decide +kernel

example : (∀ seg ∈ [[0, 1, 2, 3, 4], [5]], InputLinked sampleBlocksState seg) ∧
    0 ≤ sampleBlocksDoc.avgCharWidth := by
  refine ⟨?_, by decide +kernel⟩
  intro seg hs a c b h
  simp only [List.mem_cons, List.not_mem_nil, or_false] at hs
  rcases hs with rfl | rfl
  · rcases a with _ | ⟨a0, _ | ⟨a1, _ | ⟨a2, _ | ⟨a3, _ | ⟨a4, a⟩⟩⟩⟩⟩ <;> simp at h
    · obtain ⟨rfl, rfl⟩ := h; simp [sampleBlocksState]
    · obtain ⟨rfl, rfl, rfl⟩ := h; simp [sampleBlocksState]
    · obtain ⟨rfl, rfl, rfl, rfl⟩ := h; simp [sampleBlocksState]
    · obtain ⟨rfl, rfl, rfl, rfl, rfl⟩ := h; simp [sampleBlocksState]
    · obtain ⟨rfl, rfl, rfl, rfl, rfl, rfl⟩ := h; simp [sampleBlocksState]
  · rcases a with _ | ⟨a0, a⟩ <;> simp at h
    obtain ⟨rfl, rfl⟩ := h; simp [sampleBlocksState]

example : ∀ i ∈ [0, 1, 2, 3, 4, 5], PositiveBox (sortedBox (sampleBlocksDoc.line i).pos) := by
  have h : ∀ i ∈ [0, 1, 2, 3, 4, 5], (sortedBox (sampleBlocksDoc.line i).pos).leftX ≤ dblMax ∧
      (sortedBox (sampleBlocksDoc.line i).pos).upperY ≤ dblMax ∧
      dblMin ≤ (sortedBox (sampleBlocksDoc.line i).pos).rightX ∧
      dblMin ≤ (sortedBox (sampleBlocksDoc.line i).pos).lowerY := by decide +kernel
  intro i hi
  obtain ⟨h1, h2, h3, h4⟩ := h i hi
  exact ⟨h1, h2, h3, h4⟩

/-- A segment with three centered lines and one with a reference of three lines. -/
def shapedBlocksDoc : Doc :=
  let at_ (x w y : ℚ) (t : String) : Line :=
    { textLineAt x y t with pos := { pageNum := 1, leftX := x, upperY := y, rightX := x + w, lowerY := y + 10 } }
  { line := fun i => if i = 0 then at_ 100 100 100 "Centered" else if i = 1 then at_ 120 60 112 "in three"
      else if i = 2 then at_ 100 100 124 "lines"
      else if i = 3 then at_ 300 100 100 "Reference" else if i = 4 then at_ 320 80 112 "with a"
      else at_ 320 60 124 "hanging indent"
    seg := fun i => if i < 3
      then { pos := { leftX := 50, upperY := 100, rightX := 250, lowerY := 134 },
             trimLeftX := 50, trimUpperY := 100, trimRightX := 250, trimLowerY := 134 }
      else { pos := { leftX := 300, upperY := 100, rightX := 400, lowerY := 134 },
             trimLeftX := 300, trimUpperY := 100, trimRightX := 400, trimLowerY := 134 }
    avgCharWidth := 5, mostFreqWordHeight := 10, mostFreqLineDistance := 2 }

/-- The links text line detection sets. -/
def shapedBlocksState : State :=
  { prevLine := fun i => if i = 0 ∨ i = 3 then none else some (i - 1)
    nextLine := fun i => if i = 2 ∨ i = 5 then none else some (i + 1) }

/-- What C66 is about, per block: the lines, whether they are centered, the hanging indent and the margins. -/
def blockShapes (r : Outcome (State × List (List Block))) :
    Option (List (List (List ℕ × Bool × ℚ × List (ℚ × ℚ)))) :=
  match r with
  | .ok (s, bss) => some (bss.map (·.map fun b => (b.lines, b.isLinesCentered, b.hangingIndent,
      b.lines.map fun i => (s.leftMargin i, s.rightMargin i))))
  | _ => none

set_option synthInstance.maxSize 1000 in
set_option synthInstance.maxHeartbeats 200000 in
/-- Non-vacuity of C66: a centered block and a block with a hanging indent of 20. -/
example : blockShapes (process idOrder shapedBlocksDoc shapedBlocksState [[[0, 1, 2], [3, 4, 5]]]) =
    some [[([0, 1, 2], true, 0, [(0, 0), (20, 20), (0, 0)]),
      ([3, 4, 5], false, 20, [(0, 0), (20, 0), (20, 20)])]] := by
  decide +kernel

/-- Non-vacuity of `c66_footnote_labels`: the word "x" with the superscript "12", a comma and the superscript "a". -/
example :
    let g (t : String) (sup : Bool) : Glyph := { uid := 0, pos := {}, text := t.toList, isSuperscript := sup }
    computePotentialFootnoteLabels
      [{ wordAt 0 0 "x" with chars := [g "x" false, g "1" true, g "2" true, g "," false, g "a" true] }] [] =
      ["a".toList, "12".toList] := by
  decide +kernel

/-! ## Findings -/

/-- C31 (refuted part, finding): two lines in the same figure are not always kept together: the first
pass keeps them in one block, but the second pass may separate them because of an indentation. -/
theorem c31_same_figure_split : ∃ (d : Doc) (s : State),
    InputLinked s [0, 1] ∧ SameFigure (d.figures 1) (d.line 0).pos (d.line 1).pos ∧
    blockLines (process idOrder d s [[[0, 1]]]) = some [[[0], [1]]] := by
  refine ⟨{ sampleBlocksDoc with
      line := fun i => if i = 0 then textLineAt 100 100 "one" else textLineAt 110 112 "two"
      figures := fun _ => [{ leftX := 50, upperY := 50, rightX := 300, lowerY := 300 }] },
    { prevLine := fun i => if i = 1 then some 0 else none, nextLine := fun _ => none }, ?_, ?_, ?_⟩
  · intro a c b h
    rcases a with _ | ⟨a0, _ | ⟨a1, a⟩⟩ <;> simp at h
    · obtain ⟨rfl, rfl⟩ := h; simp
    · obtain ⟨rfl, rfl, rfl⟩ := h; simp
  · rw [← sameFigure_iff]
    decide +kernel
  · decide +kernel

/-- C31 (finding): a line that is indented further than the hanging indent while the line before is
not always starts a new block, although the program's own log says that it continues the block. -/
theorem c31_more_indented_starts (d : Doc) (s : State) (hi : ℚ) (p i : ℕ) (h0 : 1 / 10000 < hi)
    (hcw : 0 ≤ d.avgCharWidth)
    (hp : s.leftMargin p ≤ hi + d.avgCharWidth) (hc : hi + d.avgCharWidth < s.leftMargin i) :
    hangingIndentRule d s hi p i = .true := by
  unfold hangingIndentRule
  simp only [eos_iff, smaller_iff, equal_iff, larger_iff, tol_eq, zero_add, gt_iff_lt]
  rw [if_neg (not_le.mpr h0), if_neg (by linarith), if_neg, if_pos hc, if_neg (by linarith)]
  intro h
  have := (abs_le.mp h).2
  linarith

/-- The bytes of a UTF-8 text with code point U+2022 (bullet) begin with 0xE2. -/
def bullet : Text.Str := [Char.ofNat 0xE2, Char.ofNat 0x80, Char.ofNat 0xA2]

/-- C31 (finding): potential footnote labels are searched byte by byte, so that every character
whose encoding begins with the byte 0xE2 or 0xC2 (for example a bullet or a dash) behind a
character counts as a label, superscripted or not. -/
theorem c31_bullet_is_label (g b : Glyph) (hg : g.isSubscript = false ∧ g.isSuperscript = false)
    (hb : b.text = bullet) (labels : List Text.Str) :
    bullet ∈ labelLoop false [] labels [g, b] := by
  have hc : footnoteAlphabet.contains (Char.ofNat 0xE2) = true := by decide +kernel
  simp only [labelLoop, hg.1, hg.2, hb, bullet, hc, Bool.not_false, Bool.and_self, if_true,
    Bool.not_true, Bool.false_and, Bool.false_eq_true, if_false, Bool.true_or, List.nil_append,
    insertLabel, List.isEmpty_cons]
  simp

end Verif.Props
