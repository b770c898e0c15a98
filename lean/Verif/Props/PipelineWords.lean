import Verif.Model.Pipeline
import Verif.Props.Diacritics
import Verif.Props.PageSegmentation
import Verif.Props.Stacked
import Verif.Props.Statistics
import Verif.Props.TextLines

/-!
# C65: the stages up to the text lines do not fail and keep the text
-/

namespace Verif.Props

open Verif.Math Verif.Elements Verif.Spec Verif.Words Verif.TextLines Verif.Pipeline Verif.Counter
open Verif.PageSegmentation (PElem DocStats PageElems)

/-! ## Boxes on the page -/

/-- A coordinate on a page: a positive number. -/
def OnPage (x : ℚ) : Prop := dblMin ≤ x ∧ x ≤ dblMax

/-- A box on a page with coordinates rounded to `n` decimal places. -/
structure PageBox (n : ℕ) (b : Box) : Prop where
  rounded : RoundedBox n b
  left : OnPage b.leftX
  upper : OnPage b.upperY
  right : OnPage b.rightX
  lower : OnPage b.lowerY

theorem pl_pageWord {n : ℕ} {w : Word} (h : PageBox n w.pos) : PageWord n w :=
  ⟨h.rounded, h.left.1, h.right.1, h.upper.1, h.lower.1, h.left.2, h.right.2, h.upper.2, h.lower.2⟩

theorem pl_positive {n : ℕ} {b : Box} (h : PageBox n b) : PositiveBox b :=
  ⟨h.left.2, h.upper.2, h.right.1, h.lower.1⟩

theorem pl_onPage_min {a b : ℚ} (ha : OnPage a) (hb : OnPage b) : OnPage (min a b) := by
  rcases min_choice a b with h | h <;> rw [h] <;> assumption

theorem pl_onPage_max {a b : ℚ} (ha : OnPage a) (hb : OnPage b) : OnPage (max a b) := by
  rcases max_choice a b with h | h <;> rw [h] <;> assumption

theorem pl_rounded_min {n : ℕ} {a c : ℚ} (ha : ∃ x, a = roundTo x n) (hc : ∃ x, c = roundTo x n) :
    ∃ x, min a c = roundTo x n := by
  rcases min_choice a c with h | h <;> rw [h] <;> assumption

theorem pl_rounded_max {n : ℕ} {a c : ℚ} (ha : ∃ x, a = roundTo x n) (hc : ∃ x, c = roundTo x n) :
    ∃ x, max a c = roundTo x n := by
  rcases max_choice a c with h | h <;> rw [h] <;> assumption

theorem pl_extend {n : ℕ} {b e : Box} (hb : PageBox n b) (he : PageBox n e) : PageBox n (b.extend e) := by
  refine ⟨⟨?_, ?_, ?_, ?_⟩, ?_, ?_, ?_, ?_⟩ <;> simp only [Box.extend, minimum_eq_min, maximum_eq_max]
  · exact pl_rounded_min hb.rounded.1 he.rounded.1
  · exact pl_rounded_min hb.rounded.2.1 he.rounded.2.1
  · exact pl_rounded_max hb.rounded.2.2.1 he.rounded.2.2.1
  · exact pl_rounded_max hb.rounded.2.2.2 he.rounded.2.2.2
  · exact pl_onPage_min hb.left he.left
  · exact pl_onPage_min hb.upper he.upper
  · exact pl_onPage_max hb.right he.right
  · exact pl_onPage_max hb.lower he.lower

theorem pl_extendAll {n : ℕ} {es : List Box} : ∀ {b : Box}, PageBox n b → (∀ e ∈ es, PageBox n e) →
    PageBox n (Box.extendAll b es) := by
  induction es with
  | nil => intro b hb _; exact hb
  | cons e es ih =>
    intro b hb h
    exact ih (pl_extend hb (h e (by simp))) fun x hx => h x (by simp [hx])

theorem pl_norm {n : ℕ} {b : Box} (h : PageBox n b) : PageBox n (normBox b) := by
  refine ⟨normBox_rounded h.rounded, ?_, ?_, ?_, ?_⟩ <;> simp only [normBox, minimum_eq_min, maximum_eq_max]
  · exact pl_onPage_min h.left h.right
  · exact pl_onPage_min h.lower h.upper
  · exact pl_onPage_max h.left h.right
  · exact pl_onPage_max h.lower h.upper

/-- Only the four edges matter. -/
theorem pl_congr {n : ℕ} {b c : Box} (h : PageBox n b) (h1 : c.leftX = b.leftX) (h2 : c.upperY = b.upperY)
    (h3 : c.rightX = b.rightX) (h4 : c.lowerY = b.lowerY) : PageBox n c := by
  refine ⟨?_, ?_, ?_, ?_, ?_⟩
  · unfold RoundedBox; rw [h1, h2, h3, h4]; exact h.rounded
  · rw [h1]; exact h.left
  · rw [h2]; exact h.upper
  · rw [h3]; exact h.right
  · rw [h4]; exact h.lower

/-- The box around at least one box on the page, starting from the initial values of a box. -/
theorem pl_hull {n : ℕ} {b : Box} {es : List Box} (hne : es ≠ []) (h1 : b.leftX = dblMax) (h2 : b.upperY = dblMax)
    (h3 : b.rightX = dblMin) (h4 : b.lowerY = dblMin) (h : ∀ e ∈ es, PageBox n e) : PageBox n (Box.extendAll b es) := by
  cases es with
  | nil => exact absurd rfl hne
  | cons e es =>
    have he := h e (by simp)
    refine pl_extendAll (b := b.extend e) (pl_congr he ?_ ?_ ?_ ?_) fun x hx => h x (by simp [hx])
    · simp only [Box.extend, minimum_eq_min, h1]; exact min_eq_right he.left.2
    · simp only [Box.extend, minimum_eq_min, h2]; exact min_eq_right he.upper.2
    · simp only [Box.extend, maximum_eq_max, h3]; exact max_eq_right he.right.1
    · simp only [Box.extend, maximum_eq_max, h4]; exact max_eq_right he.lower.1

/-! ## Glyphs -/

/-- A glyph as the parser makes it, before or after merging diacritical marks: its box lies on the page, and it is not
tiny. -/
structure GoodGlyph (n : ℕ) (c : Glyph) : Prop where
  box : PageBox n c.pos
  size : dblMin + tol < c.fontSize

/-- A property of glyphs that merging a diacritical mark keeps. -/
structure KeptByMarks (P : Glyph → Prop) : Prop where
  mark : ∀ c x, P c → P { c with markOf := x }
  base : ∀ b c x t, P b → P c → P { b with pos := b.pos.extend c.pos, baseOf := x, textWithMark := t }

theorem pl_attach {P : Glyph → Prop} (hP : KeptByMarks P) (compose : List ℕ → Verif.Text.Str) {cs : List Glyph} {i b u : ℕ} {cur base : Glyph}
    (h : ∀ c ∈ cs, P c) (hc : P cur) (hb : P base) :
    ∀ c ∈ Diacritics.attach compose cs i b u cur base, P c := by
  intro c hc'
  unfold Diacritics.attach at hc'
  rcases List.mem_or_eq_of_mem_set hc' with h1 | rfl
  · rcases List.mem_or_eq_of_mem_set h1 with h2 | rfl
    · exact h c h2
    · exact hP.mark _ _ hc
  · exact hP.base _ _ _ _ hb hc

theorem pl_diacritics_step {P : Glyph → Prop} (hP : KeptByMarks P) (compose : List ℕ → Verif.Text.Str) {cs cs' : List Glyph} {i : ℕ}
    (h : ∀ c ∈ cs, P c) (hs : Diacritics.step compose cs i = .ok cs') : ∀ c ∈ cs', P c := by
  unfold Diacritics.step at hs
  split at hs
  · injection hs with hs; subst hs; exact h
  next cur hcur =>
  have hc := h cur (List.mem_of_getElem? hcur)
  simp only at hs
  have hprev : ∀ base, (if i > 0 then cs[i - 1]? else none) = some base → P base := by
    intro base hb
    split at hb
    · exact h base (List.mem_of_getElem? hb)
    · cases hb
  generalize (if i > 0 then cs[i - 1]? else none) = prev at hs hprev
  cases hm : Diacritics.markUnicode cur with
  | none => rw [hm] at hs; injection hs with hs; subst hs; exact h
  | some u =>
    rw [hm] at hs
    simp only at hs
    by_cases h1 : (equal (Diacritics.prevRatio prev cur) 0 tol && equal (Diacritics.nextRatio cur cs[i + 1]?) 0 tol) = true
    · rw [if_pos h1] at hs; injection hs with hs; subst hs; exact h
    · rw [if_neg h1] at hs
      by_cases h2 : larger (Diacritics.prevRatio prev cur) (Diacritics.nextRatio cur cs[i + 1]?) tol = true
      · rw [if_pos h2] at hs
        cases prev with
        | none => cases hs
        | some base =>
          injection hs with hs; subst hs
          exact pl_attach hP compose h hc (hprev base rfl)
      · rw [if_neg h2] at hs
        cases hb : cs[i + 1]? with
        | none => rw [hb] at hs; cases hs
        | some base =>
          rw [hb] at hs
          injection hs with hs; subst hs
          exact pl_attach hP compose h hc (h base (List.mem_of_getElem? hb))

theorem pl_diacritics_keep {P : Glyph → Prop} (hP : KeptByMarks P) (compose : List ℕ → Verif.Text.Str) (cs : List Glyph) (h : ∀ c ∈ cs, P c) :
    ∃ out, Diacritics.processPage compose cs = .ok out ∧ ∀ c ∈ out, P c := by
  have hrun : ∀ (k : ℕ) (out : List Glyph), Diacritics.run compose cs k = .ok out → ∀ c ∈ out, P c := by
    intro k
    induction k with
    | zero => intro out ho; simp only [Diacritics.run, Outcome.ok.injEq] at ho; subst ho; exact h
    | succ k ih =>
      intro out ho
      rw [Diacritics.run] at ho
      cases hr : Diacritics.run compose cs k with
      | ok s => rw [hr] at ho; exact pl_diacritics_step hP compose (ih s hr) ho
      | throw m => rw [hr] at ho; cases ho
      | ub m => rw [hr] at ho; cases ho
  have hok := (run_ok compose cs cs.length).1
  exact ⟨_, hok, hrun _ _ hok⟩

/-- Merging the diacritical marks of a page does not fail, and the glyphs stay on the page. -/
theorem pl_diacritics {n : ℕ} (compose : List ℕ → Verif.Text.Str) (cs : List Glyph) (h : ∀ c ∈ cs, GoodGlyph n c) :
    ∃ out, Diacritics.processPage compose cs = .ok out ∧ ∀ c ∈ out, GoodGlyph n c :=
  pl_diacritics_keep ⟨fun _ _ hc => ⟨hc.box, hc.size⟩, fun _ _ _ _ hb hc => ⟨pl_extend hb.box hc.box, hb.size⟩⟩ compose cs h

/-! ## Words -/

/-- Detected words lie on the page and are not tiny. -/
theorem pl_words {n : ℕ} (h : HashOrder) (a : Active) (pn : ℤ) (cs : List Glyph) (hg : ∀ c ∈ cs, GoodGlyph n c) :
    ∃ ws a', detectWords h a pn cs = .ok (ws, a') ∧ Fresh ws ∧
      (ws.map (·.chars)).flatten = cs.filter (fun c => c.markOf.isNone) ∧
      (∀ (i : ℕ) (w : Word), ws[i]? = some w → w.rank = i) ∧
      ∀ w ∈ ws, PageBox n w.pos ∧ Inked w ∧ w.chars ≠ [] ∧ w.text = (w.chars.map glyphText).flatten ∧
        ∃ c ∈ w.chars, w.pos.pageNum = c.pos.pageNum := by
  obtain ⟨ws, a', h1, h2, h3, h4⟩ := c22_words_partition h a pn cs
  have hmem : ∀ w ∈ ws, ∀ c ∈ w.chars, GoodGlyph n c := by
    intro w hw c hc
    have : c ∈ (ws.map (·.chars)).flatten := List.mem_flatten.mpr ⟨_, List.mem_map.mpr ⟨w, hw, rfl⟩, hc⟩
    rw [h2] at this
    exact hg c (List.mem_of_mem_filter this)
  have hmade : ∀ w ∈ ws, ∃ (i : ℕ) (w' : Word), createWord h w.chars = .ok w' ∧ w = { w' with rank := i } := by
    intro w hw
    obtain ⟨i, hi⟩ := List.getElem?_of_mem hw
    obtain ⟨w', h5, h6⟩ := c24_page_words h a a' pn cs ws h1 i w hi
    exact ⟨i, w', h5, h6⟩
  have hspec : ∀ w ∈ ws, w.text = (w.chars.map glyphText).flatten ∧ w.partOf = none ∧ w.parts = [] ∧
      (∀ f, w.chars.head? = some f → w.pos =
        { Box.extendAll { pageNum := f.pos.pageNum } (w.chars.map (·.pos)) with
          wMode := f.pos.wMode, rotation := f.pos.rotation }) := by
    intro w hw
    obtain ⟨i, w', h5, h6⟩ := hmade w hw
    obtain ⟨w2, g1, g2, g3, g4, _, g5, g6⟩ := createWord_ok h w.chars (h3 w hw)
    rw [h5] at g1
    obtain rfl : w' = w2 := by simpa using g1
    have e1 : w.text = w'.text := by rw [h6]
    have e2 : w.partOf = w'.partOf := by rw [h6]
    have e3 : w.parts = w'.parts := by rw [h6]
    have e4 : w.pos = w'.pos := by rw [h6]
    exact ⟨e1.trans g3, e2.trans g5, e3.trans g6, fun f hf => e4.trans (g4 f hf)⟩
  refine ⟨ws, a', h1, fun w hw => ⟨(hspec w hw).2.1, (hspec w hw).2.2.1⟩, h2, h4, ?_⟩
  intro w hw
  have hne := h3 w hw
  refine ⟨?_, ?_, hne, (hspec w hw).1, ?_⟩
  · cases hc : w.chars with
    | nil => exact absurd hc hne
    | cons f r =>
      rw [(hspec w hw).2.2.2 f (by rw [hc]; rfl)]
      refine pl_congr (pl_hull (b := { pageNum := f.pos.pageNum }) (es := w.chars.map (·.pos)) (by simpa using hne)
        rfl rfl rfl rfl ?_) rfl rfl rfl rfl
      intro e he
      obtain ⟨c, hc', rfl⟩ := List.mem_map.mp he
      exact (hmem w hw c hc').box
  · obtain ⟨c, hc⟩ := List.exists_mem_of_ne_nil _ hne
    exact ⟨c, hc, (hmem w hw c hc).size⟩
  · cases hc : w.chars with
    | nil => exact absurd hc hne
    | cons f r =>
      refine ⟨f, by simp, ?_⟩
      rw [(hspec w hw).2.2.2 f (by rw [hc]; rfl)]
      exact (extendAll_rest _ _).1

end Verif.Props
