import Verif.Spec.Paragraph
import Verif.Props.Wiring

/-!
# C99: the words of a page set in fixed-width type
-/

namespace Verif.Props

open Verif.Math Verif.Elements Verif.Spec Verif.Words Verif.TextLines Verif.Pipeline Verif.Counter Verif.Statistics

section

variable [Marks]

/-- The box of a typed word of `k` characters. -/
def ppBox (x y k : ℕ) : Box := { pageNum := 1, leftX := x, upperY := y, rightX := ((x + 5 * k : ℕ) : ℚ), lowerY := ((y + 10 : ℕ) : ℚ) }

/-- The word detected. -/
def ppWord (r x y : ℕ) (t : List Char) : Word :=
  { chars := typedWord y x t, pos := ppBox x y t.length, text := t, fontName := ['F'], fontSize := 10, rank := r }

/-- The words of a row; `r` is the rank of the first. -/
def ppRow (y : ℕ) : ℕ → ℕ → List (List Char) → List Word
  | _, _, [] => []
  | r, x, w :: ws => ppWord r x y w :: ppRow y (r + 1) (x + 5 * w.length + 5) ws

/-- The words of rows. -/
def ppRows : ℕ → ℕ → List (List (List Char)) → List Word
  | _, _, [] => []
  | r, y, w :: ws => ppRow y r 10 w ++ ppRows (r + w.length) (y + 11) ws

theorem pp_typedWord_append (y x : ℕ) (s t : List Char) : typedWord y x (s ++ t) = typedWord y x s ++ typedWord y (x + 5 * s.length) t := by
  induction s generalizing x with
  | nil => simp [typedWord]
  | cons c s ih =>
    rw [List.cons_append, typedWord, ih, typedWord, List.cons_append, List.length_cons]
    congr 3
    omega

theorem pp_typedWord_length (y x : ℕ) (t : List Char) : (typedWord y x t).length = t.length := by
  induction t generalizing x with
  | nil => rfl
  | cons c t ih => rw [typedWord, List.length_cons, ih, List.length_cons]

theorem pp_dblMin_le {n : ℕ} (h : 10 ≤ n) : dblMin ≤ (n : ℚ) := by
  have h' : (10 : ℚ) ≤ n := by exact_mod_cast h
  refine le_trans ?_ h'
  decide +kernel

/-- A box with edges on the page. -/
def PpFits (x y k : ℕ) : Prop := 10 ≤ x ∧ 10 ≤ y ∧ ((x + 5 * k : ℕ) : ℚ) ≤ dblMax ∧ ((y + 10 : ℕ) : ℚ) ≤ dblMax

theorem pp_extend (x y k : ℕ) (c : Char) : (ppBox x y k).extend (typedGlyph (x + 5 * k) y c).pos = ppBox x y (k + 1) := by
  unfold Box.extend ppBox typedGlyph
  simp only [minimum_eq_min, maximum_eq_max, Box.mk.injEq, true_and, and_true]
  have h5 : (0 : ℚ) ≤ k := by positivity
  push_cast
  refine ⟨min_eq_left (by linarith), min_self _, ?_, max_self _⟩
  rw [max_eq_right (by linarith)]
  ring

theorem pp_extendFirst (b : Box) (hb : b.leftX = dblMax ∧ b.upperY = dblMax ∧ b.rightX = dblMin ∧ b.lowerY = dblMin) {x y : ℕ} (h : PpFits x y 1) (c : Char) :
    b.extend (typedGlyph x y c).pos = { ppBox x y 1 with pageNum := b.pageNum, rotation := b.rotation, wMode := b.wMode } := by
  obtain ⟨h1, h2, h3, h4⟩ := h
  obtain ⟨b1, b2, b3, b4⟩ := hb
  have d1 := pp_dblMin_le h1
  have d2 := pp_dblMin_le h2
  push_cast at h3 h4
  unfold Box.extend ppBox typedGlyph
  simp only [minimum_eq_min, maximum_eq_max, Box.mk.injEq, true_and, and_true, b1, b2, b3, b4]
  push_cast
  exact ⟨min_eq_right (by linarith), min_eq_right (by linarith), by rw [max_eq_right (by linarith)], max_eq_right (by linarith)⟩

theorem pp_extendAll_from (x y k : ℕ) (t : List Char) : Box.extendAll (ppBox x y k) ((typedWord y (x + 5 * k) t).map (·.pos)) = ppBox x y (k + t.length) := by
  induction t generalizing k with
  | nil => rfl
  | cons c t ih =>
    rw [typedWord, List.map_cons, Box.extendAll, List.foldl_cons, pp_extend]
    have := ih (k + 1)
    rw [show x + 5 * k + 5 = x + 5 * (k + 1) by ring]
    rw [Box.extendAll] at this
    rw [this, List.length_cons]
    congr 1
    omega

theorem PpFits.one {x y k : ℕ} (h : PpFits x y k) (hk : 0 < k) : PpFits x y 1 := by
  refine ⟨h.1, h.2.1, le_trans ?_ h.2.2.1, h.2.2.2⟩
  exact_mod_cast (by omega : x + 5 * 1 ≤ x + 5 * k)

theorem pp_extendAll {x y : ℕ} {t : List Char} (ht : t ≠ []) (h : PpFits x y t.length) :
    Box.extendAll { pageNum := 1 } ((typedWord y x t).map (·.pos)) = ppBox x y t.length := by
  cases t with
  | nil => exact absurd rfl ht
  | cons c t =>
    rw [typedWord, List.map_cons, Box.extendAll, List.foldl_cons, pp_extendFirst _ ⟨rfl, rfl, rfl, rfl⟩ (h.one (by simp))]
    have := pp_extendAll_from x y 1 t
    rw [Box.extendAll, Nat.mul_one] at this
    exact this.trans (by rw [List.length_cons, Nat.add_comm])

/-- The most frequent of equal values. -/
theorem pp_mostFreqOr {κ : Type} [DecidableEq κ] (h : HashOrder) (zero dflt v : κ) {xs : List κ} (hne : xs ≠ []) (hlen : xs.length < 2 ^ 32) (hv : ∀ x ∈ xs, x = v) :
    mostFreqOr h zero dflt xs = .ok v := by
  obtain ⟨k, h1, h2⟩ := mostFreqOr_spec h zero dflt xs
  rw [h1, hv k (h2 hne hlen).1]

theorem pp_typedWord_mem {y x : ℕ} {t : List Char} {c : Glyph} (h : c ∈ typedWord y x t) : ∃ x' c', c = typedGlyph x' y c' := by
  induction t generalizing x with
  | nil => cases h
  | cons a t ih =>
    rw [typedWord] at h
    rcases List.mem_cons.mp h with rfl | h
    · exact ⟨_, _, rfl⟩
    · exact ih h

theorem pp_text (y x : ℕ) (t : List Char) : ((typedWord y x t).map glyphText).flatten = t := by
  induction t generalizing x with
  | nil => rfl
  | cons c t ih =>
    rw [typedWord, List.map_cons, List.flatten_cons, ih]
    rfl

theorem pp_createWord (h : HashOrder) {x y : ℕ} {t : List Char} (ht : t ≠ []) (hf : PpFits x y t.length) (hlen : t.length < 2 ^ 32) (r : ℕ) :
    ∃ w, createWord h (typedWord y x t) = .ok w ∧ { w with rank := (r : ℤ) } = ppWord r x y t := by
  have hbox := pp_extendAll ht hf
  have htext := pp_text y x t
  have hne : typedWord y x t ≠ [] := by rw [← List.length_pos_iff, pp_typedWord_length, List.length_pos_iff]; exact ht
  have hfirst : ∀ f, (typedWord y x t).head? = some f → f.pos.pageNum = 1 ∧ f.pos.wMode = 0 ∧ f.pos.rotation = 0 := by
    intro f hf'
    obtain ⟨_, _, rfl⟩ := pp_typedWord_mem (List.mem_of_mem_head? hf')
    exact ⟨rfl, rfl, rfl⟩
  have h1 := pp_mostFreqOr h ([] : Text.Str) [] ['F'] (xs := (typedWord y x t).map (·.fontName)) (by simpa using hne) (by simpa [pp_typedWord_length] using hlen) (by
    intro v hv; obtain ⟨c, hc, rfl⟩ := List.mem_map.mp hv; obtain ⟨_, _, rfl⟩ := pp_typedWord_mem hc; rfl)
  have h2 := pp_mostFreqOr h (0 : ℚ) (-1) 10 (xs := (typedWord y x t).map (·.fontSize)) (by simpa using hne) (by simpa [pp_typedWord_length] using hlen) (by
    intro v hv; obtain ⟨c, hc, rfl⟩ := List.mem_map.mp hv; obtain ⟨_, _, rfl⟩ := pp_typedWord_mem hc; rfl)
  cases hw : typedWord y x t with
  | nil => exact absurd hw hne
  | cons f cs =>
    rw [hw] at h1 h2 hfirst hbox htext
    obtain ⟨f1, f2, f3⟩ := hfirst f rfl
    unfold createWord
    simp only
    rw [h1, h2]
    refine ⟨_, rfl, ?_⟩
    unfold ppWord
    rw [hw]
    simp only [Word.mk.injEq, true_and, and_true]
    rw [f1, f2, f3, hbox]
    exact ⟨rfl, htext⟩

/-! ## Word detection -/

/-- The active word. -/
def ppActive (x y : ℕ) (t : List Char) : Active := { chars := typedWord y x t, pos := ppBox x y t.length, fontSize := 10 }

theorem pp_gap_right {a b : Box} (hr : a.rotation = 0) (h : a.leftX + tol < b.leftX) : computeHorizontalGap a b = b.leftX - a.rightX := by
  unfold computeHorizontalGap
  rw [if_pos (by rw [smaller_iff]; linarith)]
  simp only [hr]
  rw [if_neg (by decide)]

theorem pp_gap_left {a b : Box} (hr : a.rotation = 0) (hr' : b.rotation = 0) (h : a.leftX + tol < b.leftX) : computeHorizontalGap b a = b.leftX - a.rightX := by
  unfold computeHorizontalGap
  rw [if_neg (by rw [smaller_iff]; have := tol_pos; linarith)]
  simp only [hr]
  rw [if_neg (by decide)]

theorem pp_overlap_same {s e : ℚ} (h : s < e) : computeOverlapRatios s e s e = (1, 1) := by
  unfold computeOverlapRatios
  simp only [minimum_eq_min, maximum_eq_max, min_eq_left h.le, max_eq_right h.le, min_self, max_self]
  rw [if_pos (by linarith), max_eq_right (by linarith), div_self (by linarith)]

theorem pp_overlap_none {s e s' e' : ℚ} (h : s < e) (h1 : e ≤ s') (h2 : s' < e') : computeOverlapRatios s e s' e' = (0, 0) := by
  unfold computeOverlapRatios
  simp only [minimum_eq_min, maximum_eq_max, min_eq_left h.le, max_eq_right h.le, min_eq_left h2.le, max_eq_right h2.le]
  have e1 : min e e' = e := min_eq_left (by linarith)
  have e2 : max s s' = s' := max_eq_right (by linarith)
  rw [e1, e2, max_eq_left (by linarith), zero_div, zero_div, ite_self, ite_self]

theorem pp_overlap_none' {s e s' e' : ℚ} (h : s < e) (h1 : e ≤ s') (h2 : s' < e') : computeOverlapRatios s' e' s e = (0, 0) := by
  unfold computeOverlapRatios
  simp only [minimum_eq_min, maximum_eq_max, min_eq_left h.le, max_eq_right h.le, min_eq_left h2.le, max_eq_right h2.le]
  have e1 : min e' e = e := min_eq_right (by linarith)
  have e2 : max s' s = s' := max_eq_left (by linarith)
  rw [e1, e2, max_eq_left (by linarith), zero_div, zero_div, ite_self, ite_self]

theorem pp_tol : tol = 1 / 10000 := by norm_num [tol]

theorem pp_continues {x y : ℕ} {t : List Char} (ht : t ≠ []) (c : Char) : startsWord (ppActive x y t) (typedGlyph (x + 5 * t.length) y c) = false := by
  have htol := pp_tol
  have hk : (1 : ℚ) ≤ t.length := by exact_mod_cast List.length_pos_iff.mpr ht
  unfold startsWord
  have hne : (ppActive x y t).chars.isEmpty = false := by
    rw [show (ppActive x y t).chars = typedWord y x t from rfl, List.isEmpty_eq_false_iff, ← List.length_pos_iff, pp_typedWord_length, List.length_pos_iff]; exact ht
  rw [if_neg (by rw [hne]; decide), if_neg (by simp [ppActive, ppBox, typedGlyph]), if_neg (by simp [ppActive, ppBox, typedGlyph])]
  have hov : computeMaxYOverlapRatio (typedGlyph (x + 5 * t.length) y c).pos (ppActive x y t).pos = 1 := by
    unfold computeMaxYOverlapRatio computeYOverlapRatios
    rw [show (ppActive x y t).pos.lowerY = (y : ℚ) + 10 by simp [ppActive, ppBox]]
    show maximum (computeOverlapRatios (y : ℚ) (y + 10) y (y + 10)).1 (computeOverlapRatios (y : ℚ) (y + 10) y (y + 10)).2 = 1
    rw [pp_overlap_same (by linarith), maximum_eq_max, max_self]
  have hx : (ppActive x y t).pos.leftX + tol < (typedGlyph (x + 5 * t.length) y c).pos.leftX := by
    show (x : ℚ) + tol < ((x + 5 * t.length : ℕ) : ℚ)
    push_cast; linarith
  have hg := pp_gap_right (a := (ppActive x y t).pos) (b := (typedGlyph (x + 5 * t.length) y c).pos) rfl hx
  have hg' := pp_gap_left (a := (ppActive x y t).pos) (b := (typedGlyph (x + 5 * t.length) y c).pos) rfl rfl hx
  have h0 : (typedGlyph (x + 5 * t.length) y c).pos.leftX - (ppActive x y t).pos.rightX = 0 := by
    show ((x + 5 * t.length : ℕ) : ℚ) - ((x + 5 * t.length : ℕ) : ℚ) = 0
    ring
  rw [hov, hg, hg', h0]
  have hth : horizontalGapThreshold (ppActive x y t) = 3 / 2 := by
    show (15 / 100 * 10 : ℚ) = 3 / 2
    norm_num
  rw [hth, if_neg (by rw [smaller_iff]; norm_num [minYOverlapRatio, htol]), if_neg (by rw [larger_iff, htol]; norm_num), if_neg (by rw [larger_iff, htol]; norm_num)]

theorem pp_starts {x y : ℕ} {t : List Char} (ht : t ≠ []) {x' y' : ℕ} (c : Char) (h : (y' = y ∧ x' = x + 5 * t.length + 5) ∨ y' = y + 11) :
    startsWord (ppActive x y t) (typedGlyph x' y' c) = true := by
  have htol := pp_tol
  have hk : (1 : ℚ) ≤ t.length := by exact_mod_cast List.length_pos_iff.mpr ht
  unfold startsWord
  have hne : (ppActive x y t).chars.isEmpty = false := by
    rw [show (ppActive x y t).chars = typedWord y x t from rfl, List.isEmpty_eq_false_iff, ← List.length_pos_iff, pp_typedWord_length, List.length_pos_iff]; exact ht
  rw [if_neg (by rw [hne]; decide), if_neg (by simp [ppActive, ppBox, typedGlyph]), if_neg (by simp [ppActive, ppBox, typedGlyph])]
  rcases h with ⟨rfl, rfl⟩ | rfl
  · have hx : (ppActive x y' t).pos.leftX + tol < (typedGlyph (x + 5 * t.length + 5) y' c).pos.leftX := by
      show (x : ℚ) + tol < ((x + 5 * t.length + 5 : ℕ) : ℚ)
      push_cast; linarith
    have hg' := pp_gap_left (a := (ppActive x y' t).pos) (b := (typedGlyph (x + 5 * t.length + 5) y' c).pos) rfl rfl hx
    have h0 : (typedGlyph (x + 5 * t.length + 5) y' c).pos.leftX - (ppActive x y' t).pos.rightX = 5 := by
      show ((x + 5 * t.length + 5 : ℕ) : ℚ) - ((x + 5 * t.length : ℕ) : ℚ) = 5
      push_cast; ring
    have hth : horizontalGapThreshold (ppActive x y' t) = 3 / 2 := by
      show (15 / 100 * 10 : ℚ) = 3 / 2
      norm_num
    by_cases hs : smaller (computeMaxYOverlapRatio (typedGlyph (x + 5 * t.length + 5) y' c).pos (ppActive x y' t).pos) minYOverlapRatio tol = true
    · rw [if_pos hs]
    · rw [if_neg hs, hg', h0, hth, if_pos (by rw [larger_iff, htol]; norm_num)]
  · have hov : computeMaxYOverlapRatio (typedGlyph x' (y + 11) c).pos (ppActive x y t).pos = 0 := by
      unfold computeMaxYOverlapRatio computeYOverlapRatios
      rw [show (ppActive x y t).pos.lowerY = (y : ℚ) + 10 by simp [ppActive, ppBox]]
      show maximum (computeOverlapRatios ((y + 11 : ℕ) : ℚ) (((y + 11 : ℕ) : ℚ) + 10) y (y + 10)).1 (computeOverlapRatios ((y + 11 : ℕ) : ℚ) (((y + 11 : ℕ) : ℚ) + 10) y (y + 10)).2 = 0
      rw [pp_overlap_none' (by linarith) (by push_cast; linarith) (by linarith), maximum_eq_max, max_self]
    rw [hov, if_pos (by rw [smaller_iff, htol]; norm_num [minYOverlapRatio])]

theorem pp_isEmpty {x y : ℕ} {t : List Char} (ht : t ≠ []) : (ppActive x y t).chars.isEmpty = false := by
  rw [show (ppActive x y t).chars = typedWord y x t from rfl, List.isEmpty_eq_false_iff, ← List.length_pos_iff, pp_typedWord_length, List.length_pos_iff]; exact ht

theorem pp_push {x y : ℕ} {t : List Char} (c : Char) : (ppActive x y t).push (typedGlyph (x + 5 * t.length) y c) = ppActive x y (t ++ [c]) := by
  have h : (ppActive x y t).pos.extend (typedGlyph (x + 5 * t.length) y c).pos = ppBox x y (t.length + 1) := pp_extend x y t.length c
  unfold Active.push
  rw [h]
  unfold ppActive
  rw [pp_typedWord_append]
  simp only [Active.mk.injEq, List.length_append, List.length_cons, List.length_nil]
  refine ⟨rfl, rfl, ?_⟩
  rw [maximum_eq_max]
  exact max_self _

theorem pp_step_in (h : HashOrder) (ws : List Word) {x y : ℕ} {t : List Char} (ht : t ≠ []) (c : Char) :
    stepChar h (ws, ppActive x y t) (typedGlyph (x + 5 * t.length) y c) = .ok (ws, ppActive x y (t ++ [c])) := by
  unfold stepChar
  simp only [pp_continues ht, pp_push]
  rfl

theorem pp_first {x y : ℕ} (hf : PpFits x y 1) (c : Char) : (Active.reset 1).push (typedGlyph x y c) = ppActive x y [c] := by
  unfold Active.push
  rw [pp_extendFirst _ ⟨rfl, rfl, rfl, rfl⟩ hf]
  unfold ppActive
  simp only [Active.mk.injEq]
  refine ⟨rfl, rfl, ?_⟩
  rw [maximum_eq_max]
  exact max_eq_right (by norm_num [typedGlyph, Active.reset])

theorem pp_emit (h : HashOrder) (ws : List Word) {x y : ℕ} {t : List Char} (ht : t ≠ []) (hf : PpFits x y t.length) (hlen : t.length < 2 ^ 32) :
    emitWord h ws (ppActive x y t) = .ok (ws ++ [ppWord ws.length x y t]) := by
  obtain ⟨w, h1, h2⟩ := pp_createWord h ht hf hlen ws.length
  unfold emitWord
  rw [show (ppActive x y t).chars = typedWord y x t from rfl, h1]
  show Outcome.ok (ws ++ [{ w with rank := (ws.length : ℤ) }]) = _
  rw [h2]

theorem pp_step_out (h : HashOrder) (ws : List Word) {x y : ℕ} {t : List Char} (ht : t ≠ []) (hf : PpFits x y t.length) (hlen : t.length < 2 ^ 32)
    {x' y' : ℕ} (hf' : PpFits x' y' 1) (c : Char) (hn : (y' = y ∧ x' = x + 5 * t.length + 5) ∨ y' = y + 11) :
    stepChar h (ws, ppActive x y t) (typedGlyph x' y' c) = .ok (ws ++ [ppWord ws.length x y t], ppActive x' y' [c]) := by
  unfold stepChar
  rw [if_neg (by simp [typedGlyph])]
  simp only [pp_starts ht c hn, pp_isEmpty ht, pp_emit h ws ht hf hlen]
  rw [if_pos (by rfl)]
  show Outcome.ok (_, (Active.reset 1).push (typedGlyph x' y' c)) = _
  rw [pp_first hf']

theorem pp_word (h : HashOrder) (ws : List Word) {x y : ℕ} (t' : List Char) : ∀ {t : List Char}, t ≠ [] → ∀ rest,
    charLoop h (ws, ppActive x y t) (typedWord y (x + 5 * t.length) t' ++ rest) = charLoop h (ws, ppActive x y (t ++ t')) rest := by
  induction t' with
  | nil => intro t _ rest; rw [typedWord, List.append_nil, List.nil_append]
  | cons c t' ih =>
    intro t ht rest
    rw [typedWord, List.cons_append, charLoop, pp_step_in h ws ht c]
    show charLoop h (ws, ppActive x y (t ++ [c])) _ = _
    have := ih (t := t ++ [c]) (by simp) rest
    rw [List.length_append, List.length_singleton, List.append_assoc, List.singleton_append] at this
    rw [← this]
    congr 3

/-- The loop and the last word. -/
def ppRun (h : HashOrder) (ws : List Word) (a : Active) (cs : List Glyph) : Outcome (List Word) :=
  (charLoop h (ws, a) cs).bind fun st => emitWord h st.1 st.2

/-- A layout that ends on the page. -/
def PpOnPage (cs : List Glyph) : Prop := ∀ c ∈ cs, c.pos.rightX ≤ dblMax ∧ c.pos.lowerY ≤ dblMax

theorem pp_fits {y x : ℕ} {t : List Char} (ht : t ≠ []) (hx : 10 ≤ x) (hy : 10 ≤ y) (h : PpOnPage (typedWord y x t)) : PpFits x y t.length := by
  obtain ⟨s, c, rfl⟩ := List.eq_nil_or_concat t |>.resolve_left ht
  have := h (typedGlyph (x + 5 * s.length) y c) (by rw [List.concat_eq_append, pp_typedWord_append]; simp [typedWord])
  obtain ⟨h1, h2⟩ := this
  refine ⟨hx, hy, ?_, ?_⟩
  · refine le_trans (le_of_eq ?_) h1
    show _ = ((x + 5 * s.length : ℕ) : ℚ) + 5
    simp only [List.length_concat]
    push_cast; ring
  · refine le_trans (le_of_eq ?_) h2
    show _ = (y : ℚ) + 10
    push_cast; ring

theorem pp_next (h : HashOrder) (ws : List Word) {x y : ℕ} {t : List Char} (ht : t ≠ []) (hf : PpFits x y t.length) (hlen : t.length < 2 ^ 32)
    {x' y' : ℕ} {t' : List Char} (ht' : t' ≠ []) (hf' : PpFits x' y' t'.length) (hn : (y' = y ∧ x' = x + 5 * t.length + 5) ∨ y' = y + 11) (rest : List Glyph) :
    charLoop h (ws, ppActive x y t) (typedWord y' x' t' ++ rest) = charLoop h (ws ++ [ppWord ws.length x y t], ppActive x' y' t') rest := by
  cases t' with
  | nil => exact absurd rfl ht'
  | cons c t' =>
    rw [typedWord, List.cons_append, charLoop, pp_step_out h ws ht hf hlen (hf'.one (by simp)) c hn]
    have := pp_word h (ws ++ [ppWord ws.length x y t]) (x := x') (y := y') t' (t := [c]) (by simp) rest
    rw [List.length_singleton, Nat.mul_one, List.singleton_append] at this
    exact this

theorem pp_run (h : HashOrder) (rows : List (List (List Char))) (hne : ∀ r ∈ rows, r ≠ []) (hw : ∀ r ∈ rows, ∀ w ∈ r, w ≠ [] ∧ w.length < 2 ^ 32) :
    ∀ (row : List (List Char)), (∀ w ∈ row, w ≠ [] ∧ w.length < 2 ^ 32) → ∀ (ws : List Word) (x y : ℕ) (t : List Char), t ≠ [] → PpFits x y t.length → t.length < 2 ^ 32 →
      PpOnPage (typedRow y (x + 5 * t.length + 5) row ++ typedRows (y + 11) rows) →
      ppRun h ws (ppActive x y t) (typedRow y (x + 5 * t.length + 5) row ++ typedRows (y + 11) rows) =
        .ok (ws ++ ppWord ws.length x y t :: (ppRow y (ws.length + 1) (x + 5 * t.length + 5) row ++ ppRows (ws.length + 1 + row.length) (y + 11) rows)) := by
  induction rows with
  | nil =>
    intro row
    induction row with
    | nil =>
      intro _ ws x y t ht hf hlen _
      show ppRun h ws (ppActive x y t) [] = _
      unfold ppRun
      show emitWord h ws (ppActive x y t) = _
      rw [pp_emit h ws ht hf hlen]
      rfl
    | cons w row ih =>
      intro hr ws x y t ht hf hlen hp
      obtain ⟨hw1, hw2⟩ := hr w (by simp)
      have hf' : PpFits (x + 5 * t.length + 5) y w.length := pp_fits hw1 (by have := hf.1; omega) hf.2.1 fun c hc => hp c (by simp [typedRow, hc])
      rw [typedRow, List.append_assoc]
      unfold ppRun
      rw [pp_next h ws ht hf hlen hw1 hf' (.inl ⟨rfl, rfl⟩)]
      have := ih (fun w' hw' => hr w' (by simp [hw'])) (ws ++ [ppWord ws.length x y t]) (x + 5 * t.length + 5) y w hw1 hf' hw2 (fun c hc => hp c (by
        rw [typedRow, List.append_assoc]; exact List.mem_append_right _ hc))
      unfold ppRun at this
      rw [this]
      simp [ppRow, ppRows]
  | cons r rows ihr =>
    intro row
    induction row with
    | nil =>
      intro _ ws x y t ht hf hlen hp
      rw [typedRow, List.nil_append] at hp ⊢
      cases r with
      | nil => exact absurd rfl (hne [] (by simp))
      | cons w r =>
        obtain ⟨hw1, hw2⟩ := hw (w :: r) (by simp) w (by simp)
        have hf' : PpFits 10 (y + 11) w.length := pp_fits hw1 (by omega) (by omega) fun c hc => hp c (by simp [typedRows, typedRow, hc])
        rw [typedRows, typedRow, List.append_assoc]
        unfold ppRun
        rw [pp_next h ws ht hf hlen hw1 hf' (.inr rfl)]
        have := ihr (fun r' h' => hne r' (by simp [h'])) (fun r' h' => hw r' (by simp [h'])) r (fun w' hw' => hw (w :: r) (by simp) w' (by simp [hw'])) (ws ++ [ppWord ws.length x y t]) 10 (y + 11) w hw1 hf' hw2
          (fun c hc => hp c (by
            rw [typedRows, typedRow, List.append_assoc]; exact List.mem_append_right _ hc))
        unfold ppRun at this
        rw [this]
        simp [ppRow, ppRows, Nat.add_assoc, Nat.add_comm, Nat.add_left_comm]
    | cons w row ih =>
      intro hr ws x y t ht hf hlen hp
      obtain ⟨hw1, hw2⟩ := hr w (by simp)
      have hf' : PpFits (x + 5 * t.length + 5) y w.length := pp_fits hw1 (by have := hf.1; omega) hf.2.1 fun c hc => hp c (by simp [typedRow, hc])
      rw [typedRow, List.append_assoc]
      unfold ppRun
      rw [pp_next h ws ht hf hlen hw1 hf' (.inl ⟨rfl, rfl⟩)]
      have := ih (fun w' hw' => hr w' (by simp [hw'])) (ws ++ [ppWord ws.length x y t]) (x + 5 * t.length + 5) y w hw1 hf' hw2 (fun c hc => hp c (by
        rw [typedRow, List.append_assoc]; exact List.mem_append_right _ hc))
      unfold ppRun at this
      rw [this]
      simp [ppRow, Nat.add_assoc, Nat.add_comm, Nat.add_left_comm]

/-- The words detected. -/
theorem pp_detect (h : HashOrder) (a : Active) {y : ℕ} (hy : 10 ≤ y) {rows : List (List (List Char))} (hrows : rows ≠ []) (hne : ∀ r ∈ rows, r ≠ [])
    (hw : ∀ r ∈ rows, ∀ w ∈ r, w ≠ [] ∧ w.length < 2 ^ 32) (hp : PpOnPage (typedRows y rows)) :
    ∃ a', detectWords h a 1 (typedRows y rows) = .ok (ppRows 0 y rows, a') := by
  cases rows with
  | nil => exact absurd rfl hrows
  | cons r rows =>
    cases r with
    | nil => exact absurd rfl (hne [] (by simp))
    | cons w r =>
      obtain ⟨hw1, hw2⟩ := hw (w :: r) (by simp) w (by simp)
      have hf' : PpFits 10 y w.length := pp_fits hw1 (by omega) hy fun c hc => hp c (by simp [typedRows, typedRow, hc])
      have key := pp_run h rows (fun r' h' => hne r' (by simp [h'])) (fun r' h' => hw r' (by simp [h'])) r (fun w' hw' => hw (w :: r) (by simp) w' (by simp [hw'])) [] 10 y w hw1 hf' hw2
        (fun c hc => hp c (by
          rw [typedRows, typedRow, List.append_assoc]; exact List.mem_append_right _ hc))
      have hstart : ∀ rest, charLoop h ([], Active.reset 1) (typedWord y 10 w ++ rest) = charLoop h ([], ppActive 10 y w) rest := by
        intro rest
        cases w with
        | nil => exact absurd rfl hw1
        | cons c w =>
          have hs : stepChar h ([], Active.reset 1) (typedGlyph 10 y c) = .ok ([], ppActive 10 y [c]) := by
            unfold stepChar
            rw [if_neg (by simp [typedGlyph]), if_neg (by simp [Active.reset]), pp_first (hf'.one (by simp))]
          rw [typedWord, List.cons_append, charLoop, hs]
          have := pp_word h [] (x := 10) (y := y) w (t := [c]) (by simp) rest
          rw [List.length_singleton, Nat.mul_one, List.singleton_append] at this
          exact this
      have hne' : (typedRows y ((w :: r) :: rows)).isEmpty = false := by
        rw [typedRows, typedRow, List.isEmpty_eq_false_iff]
        intro h0
        have := congrArg List.length h0
        have h3 := List.length_pos_iff.mpr hw1
        simp only [List.length_append, pp_typedWord_length, List.length_nil] at this
        omega
      unfold detectWords
      simp only
      rw [if_neg (by rw [hne']; decide)]
      have hcs : typedRows y ((w :: r) :: rows) = typedWord y 10 w ++ (typedRow y (10 + 5 * w.length + 5) r ++ typedRows (y + 11) rows) := by
        rw [typedRows, typedRow, List.append_assoc]
      rw [hcs, hstart]
      unfold ppRun at key
      obtain ⟨st, e1, e2⟩ := wi_bind key
      rw [e1]
      show ∃ a', (if st.2.chars.isEmpty = true then Outcome.ok st else (emitWord h st.1 st.2).bind fun words => .ok (words, st.2)) = _
      rw [if_neg ?_, e2]
      · exact ⟨st.2, by simp [Outcome.bind, ppRows, ppRow, Nat.add_comm]⟩
      · intro hemp
        have h0 : st.2.chars = [] := by simpa using hemp
        unfold emitWord createWord at e2
        rw [h0] at e2
        cases e2

end

end Verif.Props
