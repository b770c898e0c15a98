import Verif.Model.Scripts
import Verif.Spec.Scripts
import Verif.Spec.Hull
import Verif.Spec.Frequency
import Verif.Lemmas.Math
import Verif.Lemmas.Hull
import Verif.Props.Words
import Verif.Props.TextLines

/-!
# C39: sub- and superscripts
-/

namespace Verif.Props

open Verif.Math Verif.Words Verif.TextLines Verif.Scripts Verif.Spec Verif.Counter

/-- The characters of a line. -/
def charsOfLine (l : Line) : List Glyph := l.words.flatMap (·.chars)

/-- The character is written in a smaller font than the one that dominates the document. -/
def SmallFont (mf : ℚ) (c : Glyph) : Prop := c.fontSize < mf - 9 / 10

/-- What has to hold for a character `c` of a line with base line `b` and the same character `c'`
afterwards. -/
structure Flagged (mf b : ℚ) (c c' : Glyph) : Prop where
  sup : c'.isSuperscript = true ↔ c.isSuperscript = true ∨ (SmallFont mf c ∧ c.base < b - 1 / 10)
  sub : c'.isSubscript = true ↔ c.isSubscript = true ∨ (SmallFont mf c ∧ c.base > b + 1 / 10)
  rest : { c' with isSuperscript := c.isSuperscript, isSubscript := c.isSubscript } = c

theorem scriptStep_flagged (mf b : ℚ) (box : Box) (c : Glyph) :
    Flagged mf b c (scriptStep mf b box c).1 := by
  unfold scriptStep
  split
  · next h =>
    simp only [Bool.and_eq_true, smaller_iff, fsTol, baseTol] at h
    refine ⟨⟨fun _ => Or.inr h, fun _ => rfl⟩, ⟨Or.inl, ?_⟩, by cases c; rfl⟩
    rintro (g | g)
    · exact g
    · have := h.2; have := g.2; linarith
  · next h =>
    split
    · next h' =>
      simp only [Bool.and_eq_true, smaller_iff, larger_iff, fsTol, baseTol] at h'
      refine ⟨⟨Or.inl, ?_⟩, ⟨fun _ => Or.inr h', fun _ => rfl⟩, by cases c; rfl⟩
      rintro (g | g)
      · exact g
      · have := h'.2; have := g.2; linarith
    · next h' =>
      simp only [Bool.and_eq_true, smaller_iff, larger_iff, fsTol, baseTol] at h h'
      refine ⟨⟨Or.inl, ?_⟩, ⟨Or.inl, ?_⟩, by cases c; rfl⟩
      · rintro (g | g)
        · exact g
        · exact absurd g h
      · rintro (g | g)
        · exact g
        · exact absurd g h'

/-- The character is set in a small font and away from the base line `b`. -/
def OffBase (mf b : ℚ) (c : Glyph) : Prop :=
  SmallFont mf c ∧ (c.base < b - 1 / 10 ∨ c.base > b + 1 / 10)

instance (mf b : ℚ) (c : Glyph) : Decidable (OffBase mf b c) := by
  unfold OffBase SmallFont; infer_instance

theorem scriptStep_box (mf b : ℚ) (box : Box) (c : Glyph) :
    (scriptStep mf b box c).2 = if OffBase mf b c then box else box.extend c.pos := by
  unfold scriptStep
  split
  · next h =>
    simp only [Bool.and_eq_true, smaller_iff, fsTol, baseTol] at h
    rw [if_pos ⟨h.1, Or.inl h.2⟩]
  · next h =>
    split
    · next h' =>
      simp only [Bool.and_eq_true, smaller_iff, larger_iff, fsTol, baseTol] at h'
      rw [if_pos ⟨h'.1, Or.inr h'.2⟩]
    · next h' =>
      simp only [Bool.and_eq_true, smaller_iff, larger_iff, fsTol, baseTol] at h h'
      rw [if_neg]
      rintro ⟨g1, g2 | g2⟩
      · exact h ⟨g1, g2⟩
      · exact h' ⟨g1, g2⟩

/-- The boxes of the characters that are on the base line or not small. -/
def onBase (mf b : ℚ) (cs : List Glyph) : List Box :=
  (cs.filter fun c => !decide (OffBase mf b c)).map (·.pos)

theorem scriptChars_spec (mf b : ℚ) (cs : List Glyph) : ∀ box : Box,
    List.Forall₂ (Flagged mf b) cs (scriptChars mf b box cs).1 ∧
    (scriptChars mf b box cs).2 = Box.extendAll box (onBase mf b cs) := by
  induction cs with
  | nil => intro box; exact ⟨List.Forall₂.nil, rfl⟩
  | cons c cs ih =>
    intro box
    obtain ⟨h1, h2⟩ := ih (scriptStep mf b box c).2
    refine ⟨List.Forall₂.cons (scriptStep_flagged mf b box c) h1, ?_⟩
    change (scriptChars mf b (scriptStep mf b box c).2 cs).2 = _
    rw [h2, scriptStep_box]
    unfold onBase
    by_cases h : OffBase mf b c <;> simp [h, Box.extendAll]

/-- What has to hold for a word of a line with base line `b` and the same word afterwards: only the
flags of its characters may have changed. -/
def WordFlagged (mf b : ℚ) (w w' : Word) : Prop :=
  { w' with chars := w.chars } = w ∧ List.Forall₂ (Flagged mf b) w.chars w'.chars

theorem scriptWords_spec (mf b : ℚ) (ws : List Word) : ∀ box : Box,
    List.Forall₂ (WordFlagged mf b) ws (scriptWords mf b box ws).1 ∧
    (scriptWords mf b box ws).2 = Box.extendAll box (onBase mf b (ws.flatMap (·.chars))) := by
  induction ws with
  | nil => intro box; exact ⟨List.Forall₂.nil, rfl⟩
  | cons w ws ih =>
    intro box
    obtain ⟨g1, g2⟩ := scriptChars_spec mf b w.chars box
    obtain ⟨h1, h2⟩ := ih (scriptChars mf b box w.chars).2
    refine ⟨List.Forall₂.cons ⟨by cases w; rfl, g1⟩ h1, ?_⟩
    change (scriptWords mf b (scriptChars mf b box w.chars).2 ws).2 = _
    rw [h2, g2]
    simp [onBase, Box.extendAll]

/-- C39 (in coordinates): after the detection every line has the same words with the same characters,
in which nothing but the two flags has changed; the superscript (subscript) flag is added exactly to
the characters whose font is more than 0.9 smaller than the document's dominant font and whose base
line has a coordinate smaller (larger) than that of the text line by more than 0.1. -/
theorem c39_exact (mf : ℚ) (lines : List Line) :
    List.Forall₂ (fun (l : Line) (r : Line × Box) => { r.1 with words := l.words } = l ∧
      List.Forall₂ (WordFlagged mf l.base) l.words r.1.words) lines (Scripts.process mf lines) := by
  unfold Scripts.process
  induction lines with
  | nil => exact List.Forall₂.nil
  | cons l ls ih =>
    exact List.Forall₂.cons ⟨by cases l; rfl, (scriptWords_spec mf l.base l.words {}).1⟩ ih

/-- The flags of a character that has not been flagged before, for the reader of text with the given
rotation. -/
theorem flags_reader (mf b : ℚ) (c c' : Glyph) (h : Flagged mf b c c') (h1 : c.isSuperscript = false)
    (h2 : c.isSubscript = false) (rot : ℤ) :
    (rot = 0 ∨ rot = 3 → (c'.isSuperscript = true ↔ SmallFont mf c ∧ Above rot (1 / 10) c.base b) ∧
      (c'.isSubscript = true ↔ SmallFont mf c ∧ Above rot (1 / 10) b c.base)) ∧
    (rot = 1 ∨ rot = 2 → (c'.isSuperscript = true ↔ SmallFont mf c ∧ Above rot (1 / 10) b c.base) ∧
      (c'.isSubscript = true ↔ SmallFont mf c ∧ Above rot (1 / 10) c.base b)) := by
  have e1 := h.sup
  have e2 := h.sub
  rw [h1] at e1
  rw [h2] at e2
  simp only [Bool.false_eq_true, false_or] at e1 e2
  have k0 : sign (lineDir 0) = 1 := by norm_num [sign, lineDir, readDir]
  have k1 : sign (lineDir 1) = -1 := by norm_num [sign, lineDir, readDir]
  have k2 : sign (lineDir 2) = -1 := by norm_num [sign, lineDir, readDir]
  have k3 : sign (lineDir 3) = 1 := by norm_num [sign, lineDir, readDir]
  refine ⟨?_, ?_⟩
  · rintro (rfl | rfl) <;> rw [e1, e2] <;> simp only [Above, k0, k3] <;>
      refine ⟨and_congr_right fun _ => ⟨fun h => by linarith, fun h => by linarith⟩,
        and_congr_right fun _ => ⟨fun h => by linarith, fun h => by linarith⟩⟩
  · rintro (rfl | rfl) <;> rw [e1, e2] <;> simp only [Above, k1, k2] <;>
      refine ⟨and_congr_right fun _ => ⟨fun h => by linarith, fun h => by linarith⟩,
        and_congr_right fun _ => ⟨fun h => by linarith, fun h => by linarith⟩⟩

/-- No character of the line has been flagged yet. -/
def Unflagged (l : Line) : Prop :=
  ∀ w ∈ l.words, ∀ c ∈ w.chars, c.isSuperscript = false ∧ c.isSubscript = false

theorem forall₂_mem_right {α β : Type} {R : α → β → Prop} {xs : List α} {ys : List β}
    (h : List.Forall₂ R xs ys) {y : β} (hy : y ∈ ys) : ∃ x ∈ xs, R x y := by
  induction h with
  | nil => simp at hy
  | cons hr _ ih =>
    rcases List.mem_cons.mp hy with rfl | hy
    · exact ⟨_, by simp, hr⟩
    · obtain ⟨x, hx, hxy⟩ := ih hy
      exact ⟨x, by simp [hx], hxy⟩

/-- C39 (upright and bottom-to-top text): in lines of rotation 0 or 3 the flagged characters are
exactly the small ones that the reader sees above (superscript) or below (subscript) the base line
of the text line.  Missing from the full property: rotations 1 and 2, where it is false, see
`c39_turned_text_swapped`. -/
theorem c39_reader_partial (mf : ℚ) (l : Line) (hu : Unflagged l)
    (hr : l.pos.rotation = 0 ∨ l.pos.rotation = 3) :
    List.Forall₂ (fun w w' => List.Forall₂ (fun (c c' : Glyph) =>
        (c'.isSuperscript = true ↔ SmallFont mf c ∧ Above l.pos.rotation (1 / 10) c.base l.base) ∧
        (c'.isSubscript = true ↔ SmallFont mf c ∧ Above l.pos.rotation (1 / 10) l.base c.base))
      w.chars w'.chars) l.words (scriptLine mf l).1.words := by
  have h := (scriptWords_spec mf l.base l.words {}).1
  rw [List.forall₂_iff_get] at h ⊢
  refine ⟨h.1, fun i hi hi' => ?_⟩
  have h' := (h.2 i hi hi').2
  rw [List.forall₂_iff_get] at h'
  rw [List.forall₂_iff_get]
  refine ⟨h'.1, fun j hj hj' => ?_⟩
  have hf := hu _ (List.get_mem l.words ⟨i, hi⟩) _ (List.get_mem _ ⟨j, hj⟩)
  exact (flags_reader mf l.base _ _ (h'.2 j hj hj') hf.1 hf.2 l.pos.rotation).1 hr

/-- C39 fails for text that is turned upside down or runs from top to bottom: there the flags are
swapped, a raised character is flagged as subscript and a lowered one as superscript. -/
theorem c39_turned_text_swapped (mf : ℚ) (l : Line) (hu : Unflagged l)
    (hr : l.pos.rotation = 1 ∨ l.pos.rotation = 2) :
    List.Forall₂ (fun w w' => List.Forall₂ (fun (c c' : Glyph) =>
        (c'.isSubscript = true ↔ SmallFont mf c ∧ Above l.pos.rotation (1 / 10) c.base l.base) ∧
        (c'.isSuperscript = true ↔ SmallFont mf c ∧ Above l.pos.rotation (1 / 10) l.base c.base))
      w.chars w'.chars) l.words (scriptLine mf l).1.words := by
  have h := (scriptWords_spec mf l.base l.words {}).1
  rw [List.forall₂_iff_get] at h ⊢
  refine ⟨h.1, fun i hi hi' => ?_⟩
  have h' := (h.2 i hi hi').2
  rw [List.forall₂_iff_get] at h'
  rw [List.forall₂_iff_get]
  refine ⟨h'.1, fun j hj hj' => ?_⟩
  have hf := hu _ (List.get_mem l.words ⟨i, hi⟩) _ (List.get_mem _ ⟨j, hj⟩)
  exact ((flags_reader mf l.base _ _ (h'.2 j hj hj') hf.1 hf.2 l.pos.rotation).2 hr).symm

/-- C39: no character is flagged as both, and a character that sits on the base line of its text line
(within 0.1) or is not small is not flagged. -/
theorem c39_never_both (mf : ℚ) (l : Line) (hu : Unflagged l) :
    ∀ w ∈ (scriptLine mf l).1.words, ∀ c ∈ w.chars,
      ¬ (c.isSuperscript = true ∧ c.isSubscript = true) ∧
      (|c.base - l.base| ≤ 1 / 10 ∨ mf - 9 / 10 ≤ c.fontSize →
        c.isSuperscript = false ∧ c.isSubscript = false) := by
  intro w' hw' c' hc'
  obtain ⟨w, hw, h1, h2⟩ := forall₂_mem_right (scriptWords_spec mf l.base l.words {}).1 hw'
  obtain ⟨c, hc, h3⟩ := forall₂_mem_right h2 hc'
  obtain ⟨f1, f2⟩ := hu w hw c hc
  have e1 := h3.sup
  have e2 := h3.sub
  have er := h3.rest
  rw [f1] at e1
  rw [f2] at e2
  simp only [Bool.false_eq_true, false_or, SmallFont] at e1 e2
  have eb : c'.base = c.base := by
    have := congrArg Glyph.base er; simpa using this
  have ef : c'.fontSize = c.fontSize := by
    have := congrArg Glyph.fontSize er; simpa using this
  refine ⟨?_, ?_⟩
  · rintro ⟨g1, g2⟩
    have := (e1.mp g1).2
    have := (e2.mp g2).2
    linarith
  · rw [eb, ef]
    intro g
    refine ⟨?_, ?_⟩
    · rw [← Bool.not_eq_true]
      intro g1
      obtain ⟨a1, a2⟩ := e1.mp g1
      rcases g with g | g
      · rw [abs_le] at g; linarith [g.1]
      · linarith
    · rw [← Bool.not_eq_true]
      intro g1
      obtain ⟨a1, a2⟩ := e2.mp g1
      rcases g with g | g
      · rw [abs_le] at g; linarith [g.2]
      · linarith

/-- C39 (base box): for every line created by text line detection (with at least one character), the
base box of the line afterwards is the smallest box around the characters that are not flagged - of
which there is always at least one, so the box is never left at its inverted start values. -/
theorem c39_base_box {lib : LineLib} {ws : List Word} {l : Line} (hne : ws ≠ [])
    (h : createTextLine lib ws = .ok l) (hc : charsOfLine l ≠ [])
    (hlen : (charsOfLine l).length < 2 ^ 32) (hp : ∀ c ∈ charsOfLine l, PositiveBox c.pos)
    (hu : Unflagged l) (mf : ℚ) :
    IsHull (((charsOfLine (scriptLine mf l).1).filter
        fun c => !c.isSuperscript && !c.isSubscript).map (·.pos)) (scriptLine mf l).2 := by
  have hsp := scriptWords_spec mf l.base l.words {}
  have hbox : (scriptLine mf l).2 = Box.extendAll {} (onBase mf l.base (charsOfLine l)) := hsp.2
  have hlist : ((charsOfLine (scriptLine mf l).1).filter
        fun c => !c.isSuperscript && !c.isSubscript).map (·.pos) = onBase mf l.base (charsOfLine l) := by
    have hgen : ∀ (cs cs' : List Glyph), List.Forall₂ (Flagged mf l.base) cs cs' →
        (∀ c ∈ cs, c.isSuperscript = false ∧ c.isSubscript = false) →
        (cs'.filter fun c => !c.isSuperscript && !c.isSubscript).map (·.pos) =
          onBase mf l.base cs := by
      intro cs cs' hf
      induction hf with
      | nil => intro _; rfl
      | @cons c c' cs cs' hcc hcs ih =>
        intro hun
        have ih := ih fun x hx => hun x (by simp [hx])
        obtain ⟨f1, f2⟩ := hun c (by simp)
        have e1 := hcc.sup
        have e2 := hcc.sub
        have ep : c'.pos = c.pos := by
          have := congrArg Glyph.pos hcc.rest; simpa using this
        rw [f1] at e1
        rw [f2] at e2
        simp only [Bool.false_eq_true, false_or] at e1 e2
        have hiff : (!c'.isSuperscript && !c'.isSubscript) = !decide (OffBase mf l.base c) := by
          have hoff : OffBase mf l.base c ↔ (c'.isSuperscript = true ∨ c'.isSubscript = true) := by
            rw [e1, e2, ← and_or_left]; rfl
          by_cases ho : OffBase mf l.base c
          · rcases hoff.mp ho with g | g <;> simp [g, ho]
          · have g1 : c'.isSuperscript = false := by
              rw [← Bool.not_eq_true]; exact fun g => ho (hoff.mpr (Or.inl g))
            have g2 : c'.isSubscript = false := by
              rw [← Bool.not_eq_true]; exact fun g => ho (hoff.mpr (Or.inr g))
            simp [g1, g2, ho]
        unfold onBase at ih ⊢
        rw [List.filter_cons, List.filter_cons, hiff]
        split
        · rw [List.map_cons, List.map_cons, ih, ep]
        · exact ih
    have hflat : List.Forall₂ (Flagged mf l.base) (charsOfLine l) (charsOfLine (scriptLine mf l).1) := by
      have h1 := hsp.1
      change List.Forall₂ (WordFlagged mf l.base) l.words (scriptLine mf l).1.words at h1
      unfold charsOfLine
      generalize (scriptLine mf l).1.words = ws' at h1 ⊢
      generalize l.words = ws at h1 ⊢
      induction h1 with
      | nil => exact List.Forall₂.nil
      | cons hr _ ih =>
        rw [List.flatMap_cons, List.flatMap_cons]
        exact List.rel_append hr.2 ih
    refine hgen _ _ hflat ?_
    intro c hc
    obtain ⟨w, hw, hcw⟩ := List.mem_flatMap.mp hc
    exact hu w hw c hcw
  rw [hlist, hbox]
  refine extendAll_isHull ?_ rfl rfl rfl rfl ?_
  · obtain ⟨_, _, _, h4⟩ := c26_line_content hne h
    obtain ⟨_, _, h5⟩ := h4 (List.length_pos_iff.mpr hc) hlen
    obtain ⟨c, hcm, hcb⟩ := List.mem_map.mp h5.1
    refine List.ne_nil_of_mem (a := c.pos) (List.mem_map.mpr ⟨c, List.mem_filter.mpr ⟨hcm, ?_⟩, rfl⟩)
    have : ¬ OffBase mf l.base c := by
      rintro ⟨_, g | g⟩ <;> rw [hcb] at g <;> linarith
    simp [this]
  · intro e he
    obtain ⟨c, hcm, rfl⟩ := List.mem_map.mp he
    exact hp c (List.mem_filter.mp hcm).1

/-! ### Examples -/

/-- A character at a base line with a font size, for examples. -/
def scriptGlyph (u : ℕ) (x base fs : ℚ) : Glyph :=
  { uid := u, pos := { pageNum := 1, leftX := x, upperY := base - fs, rightX := x + fs, lowerY := base },
    text := ['x'], fontSize := fs, base := base }

/-- A line with a raised 2 and a lowered i, for examples. -/
def scriptSample (rot : ℤ) : Line :=
  { words := [{ chars := [scriptGlyph 0 10 100 10, scriptGlyph 1 20 96 6, scriptGlyph 2 26 102 6],
                pos := {}, text := [], fontName := [], fontSize := 10 },
              { chars := [scriptGlyph 3 40 100 10, scriptGlyph 4 50 100 6],
                pos := {}, text := [], fontName := [], fontSize := 10 }]
    pos := { rotation := rot }, base := 100 }

/-- The sample line meets the hypotheses; the flags are set as expected. -/
example : Unflagged (scriptSample 0) ∧ (scriptSample 0).pos.rotation = 0 ∧
    ((scriptLine 10 (scriptSample 0)).1.words.flatMap (·.chars)).map
      (fun c => (c.isSuperscript, c.isSubscript)) =
      [(false, false), (true, false), (false, true), (false, false), (false, false)] ∧
    (scriptLine 10 (scriptSample 0)).2.upperY = 90 := by
  refine ⟨?_, rfl, by decide +kernel, by decide +kernel⟩
  unfold Unflagged
  decide +kernel

/-- The same line written upside down meets the hypotheses of `c39_turned_text_swapped`. -/
example : Unflagged (scriptSample 2) ∧ (scriptSample 2).pos.rotation = 2 := by
  refine ⟨?_, rfl⟩
  unfold Unflagged
  decide +kernel

/-- A line created from two words meets the hypotheses of `c39_base_box`. -/
example : ∃ l, createTextLine refLineLib [wordAt (10 : ℕ) (20 : ℕ) "a", wordAt (30 : ℕ) (20 : ℕ) "b"] = .ok l ∧
    charsOfLine l ≠ [] ∧ (charsOfLine l).length < 2 ^ 32 ∧ Unflagged l ∧
    ∀ c ∈ charsOfLine l, PositiveBox c.pos := by
  have h : (createTextLine refLineLib
      [wordAt (10 : ℕ) (20 : ℕ) "a", wordAt (30 : ℕ) (20 : ℕ) "b"]).bind (fun l => .ok l.words) =
      .ok [wordAt (10 : ℕ) (20 : ℕ) "a", wordAt (30 : ℕ) (20 : ℕ) "b"] := by decide +kernel
  cases hl : createTextLine refLineLib [wordAt (10 : ℕ) (20 : ℕ) "a", wordAt (30 : ℕ) (20 : ℕ) "b"] with
  | throw m => rw [hl] at h; cases h
  | ub m => rw [hl] at h; cases h
  | ok l =>
    rw [hl] at h
    simp only [Outcome.bind, Outcome.ok.injEq] at h
    have hw1 := wordAt_pageWord 10 20 (by norm_num) (by norm_num) (by norm_num) (by norm_num) "a"
    have hw2 := wordAt_pageWord 30 20 (by norm_num) (by norm_num) (by norm_num) (by norm_num) "b"
    have hb : ∀ w, PageWord 1 w → w.pos.leftX ≤ w.pos.rightX → w.pos.upperY ≤ w.pos.lowerY → PositiveBox w.pos := by
      intro w hw h1 h2
      have := normBox_positive hw
      have e : normBox w.pos = w.pos := by
        unfold normBox
        rw [minimum_eq_min, minimum_eq_min, maximum_eq_max, maximum_eq_max, min_eq_left h1, max_eq_right h1,
          min_eq_right h2, max_eq_left h2]
      rwa [e] at this
    have hp1 := hb _ hw1 (by simp [wordAt]) (by simp [wordAt])
    have hp2 := hb _ hw2 (by simp [wordAt]) (by simp [wordAt])
    refine ⟨l, rfl, ?_, ?_, ?_, ?_⟩
    · simp [charsOfLine, h, wordAt]
    · simp [charsOfLine, h, wordAt]
    · unfold Unflagged
      rw [h]
      decide +kernel
    · unfold charsOfLine
      rw [h]
      intro c hc
      simp only [wordAt, List.flatMap_cons, List.flatMap_nil, List.append_nil, List.cons_append,
        List.nil_append, List.mem_cons, List.not_mem_nil, or_false] at hc
      rcases hc with rfl | rfl
      · exact hp1
      · exact hp2

end Verif.Props
