import Mathlib.Tactic.Linarith
import Verif.Lemmas.Math
import Verif.Spec.Move

/-!
# C81: moving the contents — characters and words
-/

namespace Verif.Props

open Verif.Math Verif.Elements Verif.Counter Verif.Words Verif.Spec

/-! ### Numbers and boxes -/

theorem mv_minimum (a b c : ℚ) : minimum (a + c) (b + c) = minimum a b + c := by
  simp only [minimum_eq_min, min_add_add_right]

theorem mv_maximum (a b c : ℚ) : maximum (a + c) (b + c) = maximum a b + c := by
  simp only [maximum_eq_max, max_add_add_right]

theorem mv_sub (a b c : ℚ) : a + c - (b + c) = a - b := by ring

theorem mv_smaller (a b c t : ℚ) : smaller (a + c) (b + c) t = smaller a b t := by
  rw [Bool.eq_iff_iff, smaller_iff, smaller_iff]; constructor <;> intro h <;> linarith

theorem mv_larger (a b c t : ℚ) : larger (a + c) (b + c) t = larger a b t := by
  rw [Bool.eq_iff_iff, larger_iff, larger_iff]; constructor <;> intro h <;> linarith

theorem mv_equal (a b c t : ℚ) : equal (a + c) (b + c) t = equal a b t := by
  rw [Bool.eq_iff_iff, equal_iff, equal_iff, mv_sub]

theorem mv_eol (a b c t : ℚ) : equalOrLarger (a + c) (b + c) t = equalOrLarger a b t := by
  rw [Bool.eq_iff_iff, eol_iff, eol_iff]; constructor <;> intro h <;> linarith

theorem mv_eos (a b c t : ℚ) : equalOrSmaller (a + c) (b + c) t = equalOrSmaller a b t := by
  rw [Bool.eq_iff_iff, eos_iff, eos_iff]; constructor <;> intro h <;> linarith

theorem mv_hgap (dx dy : ℚ) (a b : Box) :
    computeHorizontalGap (moveBox dx dy a) (moveBox dx dy b) = computeHorizontalGap a b := by
  simp only [computeHorizontalGap, moveBox, mv_smaller]
  by_cases h : smaller a.leftX b.leftX tol
  · simp only [h, if_true]; simp only [mv_sub]
  · simp only [h, Bool.false_eq_true, if_false]; simp only [mv_sub]

theorem mv_vgap (dx dy : ℚ) (a b : Box) :
    computeVerticalGap (moveBox dx dy a) (moveBox dx dy b) = computeVerticalGap a b := by
  simp only [computeVerticalGap, moveBox, mv_smaller]
  by_cases h : smaller a.upperY b.upperY tol
  · simp only [h, if_true]; simp only [mv_sub]
  · simp only [h, Bool.false_eq_true, if_false]; simp only [mv_sub]

theorem mv_overlap (s1 e1 s2 e2 c : ℚ) :
    computeOverlapRatios (s1 + c) (e1 + c) (s2 + c) (e2 + c) = computeOverlapRatios s1 e1 s2 e2 := by
  simp only [computeOverlapRatios, mv_minimum, mv_maximum, mv_sub]

theorem mv_xratios (dx dy : ℚ) (a b : Box) :
    computeXOverlapRatios (moveBox dx dy a) (moveBox dx dy b) = computeXOverlapRatios a b := mv_overlap _ _ _ _ _

theorem mv_yratios (dx dy : ℚ) (a b : Box) :
    computeYOverlapRatios (moveBox dx dy a) (moveBox dx dy b) = computeYOverlapRatios a b := mv_overlap _ _ _ _ _

theorem mv_maxX (dx dy : ℚ) (a b : Box) :
    computeMaxXOverlapRatio (moveBox dx dy a) (moveBox dx dy b) = computeMaxXOverlapRatio a b := by
  simp only [computeMaxXOverlapRatio, mv_xratios]

theorem mv_maxY (dx dy : ℚ) (a b : Box) :
    computeMaxYOverlapRatio (moveBox dx dy a) (moveBox dx dy b) = computeMaxYOverlapRatio a b := by
  simp only [computeMaxYOverlapRatio, mv_yratios]

theorem mv_width (dx dy : ℚ) (b : Box) : (moveBox dx dy b).getWidth = b.getWidth := mv_sub _ _ _

theorem mv_height (dx dy : ℚ) (b : Box) : (moveBox dx dy b).getHeight = b.getHeight := mv_sub _ _ _

theorem mv_extend (dx dy : ℚ) (a b : Box) :
    (moveBox dx dy a).extend (moveBox dx dy b) = moveBox dx dy (a.extend b) := by
  simp only [Box.extend, moveBox, mv_minimum, mv_maximum]

/-- The coordinates of a box before anything has been added to it. -/
def mv_Fresh (b : Box) : Prop :=
  b.leftX = dblMax ∧ b.upperY = dblMax ∧ b.rightX = dblMin ∧ b.lowerY = dblMin

theorem mv_movable_iff {dx dy : ℚ} {b : Box} : Movable dx dy b ↔
    (dblMin ≤ b.leftX ∧ b.leftX ≤ dblMax ∧ dblMin ≤ b.leftX + dx ∧ b.leftX + dx ≤ dblMax) ∧
    (dblMin ≤ b.rightX ∧ b.rightX ≤ dblMax ∧ dblMin ≤ b.rightX + dx ∧ b.rightX + dx ≤ dblMax) ∧
    (dblMin ≤ b.upperY ∧ b.upperY ≤ dblMax ∧ dblMin ≤ b.upperY + dy ∧ b.upperY + dy ≤ dblMax) ∧
    (dblMin ≤ b.lowerY ∧ b.lowerY ≤ dblMax ∧ dblMin ≤ b.lowerY + dy ∧ b.lowerY + dy ≤ dblMax) := by
  constructor
  · rintro ⟨hx, hy⟩
    exact ⟨hx _ (.inl rfl), hx _ (.inr rfl), hy _ (.inl rfl), hy _ (.inr rfl)⟩
  · rintro ⟨h1, h2, h3, h4⟩
    refine ⟨?_, ?_⟩
    · rintro x (rfl | rfl) <;> assumption
    · rintro x (rfl | rfl) <;> assumption

theorem mv_extend_fresh {b e : Box} (hb : mv_Fresh b)
    (he : e.leftX ≤ dblMax ∧ e.upperY ≤ dblMax ∧ dblMin ≤ e.rightX ∧ dblMin ≤ e.lowerY) :
    b.extend e = { b with leftX := e.leftX, upperY := e.upperY, rightX := e.rightX, lowerY := e.lowerY } := by
  obtain ⟨h1, h2, h3, h4⟩ := hb
  obtain ⟨e1, e2, e3, e4⟩ := he
  simp only [Box.extend, minimum_eq_min, maximum_eq_max, h1, h2, h3, h4, min_eq_right e1, min_eq_right e2,
    max_eq_right e3, max_eq_right e4]

theorem mv_fits {dx dy : ℚ} {e : Box} (h : Movable dx dy e) :
    (e.leftX ≤ dblMax ∧ e.upperY ≤ dblMax ∧ dblMin ≤ e.rightX ∧ dblMin ≤ e.lowerY) ∧
    ((moveBox dx dy e).leftX ≤ dblMax ∧ (moveBox dx dy e).upperY ≤ dblMax ∧ dblMin ≤ (moveBox dx dy e).rightX ∧
      dblMin ≤ (moveBox dx dy e).lowerY) := by
  rw [mv_movable_iff] at h
  obtain ⟨h1, h2, h3, h4⟩ := h
  exact ⟨⟨h1.2.1, h3.2.1, h2.1, h4.1⟩, ⟨h1.2.2.2, h3.2.2.2, h2.2.2.1, h4.2.2.1⟩⟩

/-- Adding the first box to a fresh one. -/
theorem mv_extend_first {dx dy : ℚ} {b e : Box} (hb : mv_Fresh b) (he : Movable dx dy e) :
    b.extend (moveBox dx dy e) = moveBox dx dy (b.extend e) := by
  rw [mv_extend_fresh hb (mv_fits he).1, mv_extend_fresh hb (mv_fits he).2]
  simp only [moveBox]

theorem mv_extendAll_moved (dx dy : ℚ) (es : List Box) : ∀ b : Box,
    Box.extendAll (moveBox dx dy b) (es.map (moveBox dx dy)) = moveBox dx dy (Box.extendAll b es) := by
  induction es with
  | nil => intro b; rfl
  | cons e es ih =>
    intro b
    simp only [Box.extendAll, List.map_cons, List.foldl_cons, mv_extend] at ih ⊢
    exact ih _

theorem mv_extendAll {dx dy : ℚ} {b : Box} (hb : mv_Fresh b) {es : List Box} (hne : es ≠ [])
    (hes : ∀ e ∈ es, Movable dx dy e) :
    Box.extendAll b (es.map (moveBox dx dy)) = moveBox dx dy (Box.extendAll b es) := by
  cases es with
  | nil => exact absurd rfl hne
  | cons e es =>
    have := mv_extendAll_moved dx dy es (b.extend e)
    simp only [Box.extendAll, List.map_cons, List.foldl_cons] at this ⊢
    rw [mv_extend_first hb (hes e (by simp)), this]

theorem mv_movable_extend {dx dy : ℚ} {a b : Box} (ha : Movable dx dy a) (hb : Movable dx dy b) :
    Movable dx dy (a.extend b) := by
  refine ⟨?_, ?_⟩
  · rintro x (rfl | rfl)
    · simp only [Box.extend, minimum_eq_min]
      rcases min_choice a.leftX b.leftX with h | h <;> rw [h]
      · exact ha.1 _ (.inl rfl)
      · exact hb.1 _ (.inl rfl)
    · simp only [Box.extend, maximum_eq_max]
      rcases max_choice a.rightX b.rightX with h | h <;> rw [h]
      · exact ha.1 _ (.inr rfl)
      · exact hb.1 _ (.inr rfl)
  · rintro x (rfl | rfl)
    · simp only [Box.extend, minimum_eq_min]
      rcases min_choice a.upperY b.upperY with h | h <;> rw [h]
      · exact ha.2 _ (.inl rfl)
      · exact hb.2 _ (.inl rfl)
    · simp only [Box.extend, maximum_eq_max]
      rcases max_choice a.lowerY b.lowerY with h | h <;> rw [h]
      · exact ha.2 _ (.inr rfl)
      · exact hb.2 _ (.inr rfl)

theorem mv_movable_congr {dx dy : ℚ} {a b : Box} (ha : Movable dx dy a)
    (h : b.leftX = a.leftX ∧ b.upperY = a.upperY ∧ b.rightX = a.rightX ∧ b.lowerY = a.lowerY) : Movable dx dy b := by
  obtain ⟨h1, h2, h3, h4⟩ := h
  simp only [Movable, h1, h2, h3, h4]
  exact ha

theorem mv_movable_first {dx dy : ℚ} {b e : Box} (hb : mv_Fresh b) (he : Movable dx dy e) :
    Movable dx dy (b.extend e) := by
  rw [mv_extend_fresh hb (mv_fits he).1]
  exact mv_movable_congr he ⟨rfl, rfl, rfl, rfl⟩

theorem mv_movable_foldl {dx dy : ℚ} (es : List Box) : ∀ b : Box, Movable dx dy b → (∀ e ∈ es, Movable dx dy e) →
    Movable dx dy (Box.extendAll b es) := by
  induction es with
  | nil => intro b h _; exact h
  | cons e es ih =>
    intro b h hes
    exact ih _ (mv_movable_extend h (hes e (by simp))) fun e' he' => hes e' (by simp [he'])

theorem mv_movable_extendAll {dx dy : ℚ} {b : Box} (hb : mv_Fresh b) {es : List Box} (hne : es ≠ [])
    (hes : ∀ e ∈ es, Movable dx dy e) : Movable dx dy (Box.extendAll b es) := by
  cases es with
  | nil => exact absurd rfl hne
  | cons e es =>
    exact mv_movable_foldl es _ (mv_movable_first hb (hes e (by simp))) fun e' he' => hes e' (by simp [he'])

/-! ### Words -/

theorem mv_glyphText (dx dy : ℚ) (c : Glyph) : glyphText (moveGlyph dx dy c) = glyphText c := rfl

theorem mv_createWord {dx dy : ℚ} (h : HashOrder) (cs : List Glyph) (hcs : ∀ c ∈ cs, Movable dx dy c.pos) :
    createWord h (cs.map (moveGlyph dx dy)) = mapOk (moveWord dx dy) (createWord h cs) := by
  cases cs with
  | nil => rfl
  | cons c cs =>
    have hn : (List.map (fun x => x.fontName) (List.map (moveGlyph dx dy) (c :: cs))) =
        (c :: cs).map (·.fontName) := by rw [List.map_map]; rfl
    have hs : (List.map (fun x => x.fontSize) (List.map (moveGlyph dx dy) (c :: cs))) =
        (c :: cs).map (·.fontSize) := by rw [List.map_map]; rfl
    have ht : (List.map glyphText (List.map (moveGlyph dx dy) (c :: cs))) =
        (c :: cs).map glyphText := by rw [List.map_map]; rfl
    have hp : (List.map (fun x => x.pos) (List.map (moveGlyph dx dy) (c :: cs))) =
        ((c :: cs).map (·.pos)).map (moveBox dx dy) := by rw [List.map_map, List.map_map]; rfl
    have hb := mv_extendAll (dx := dx) (dy := dy) (b := { pageNum := c.pos.pageNum }) ⟨rfl, rfl, rfl, rfl⟩
      (es := (c :: cs).map (·.pos)) (by simp) (by
        intro e he
        obtain ⟨x, hx, rfl⟩ := List.mem_map.mp he
        exact hcs x hx)
    rw [← hp] at hb
    have e1 : createWord h ((c :: cs).map (moveGlyph dx dy)) =
      (mostFreqOr h [] [] (((c :: cs).map (moveGlyph dx dy)).map (·.fontName))).bind fun fontName =>
      (mostFreqOr h 0 (-1) (((c :: cs).map (moveGlyph dx dy)).map (·.fontSize))).bind fun fontSize =>
      .ok {
        chars := (c :: cs).map (moveGlyph dx dy)
        pos := { Box.extendAll { pageNum := c.pos.pageNum } (((c :: cs).map (moveGlyph dx dy)).map (·.pos)) with
          wMode := c.pos.wMode
          rotation := c.pos.rotation }
        text := (((c :: cs).map (moveGlyph dx dy)).map glyphText).flatten
        fontName := fontName
        fontSize := fontSize } := rfl
    rw [e1, hn, hs, ht, hb]
    simp only [createWord, mapOk]
    cases mostFreqOr h [] [] ((c :: cs).map (·.fontName)) with
    | throw m => rfl
    | ub m => rfl
    | ok n =>
      simp only [Outcome.bind]
      cases mostFreqOr h 0 (-1) ((c :: cs).map (·.fontSize)) with
      | throw m => rfl
      | ub m => rfl
      | ok s => simp only [moveWord, moveBox]

theorem mv_createWord_movable {dx dy : ℚ} {h : HashOrder} {cs : List Glyph} {w : Word}
    (hcs : ∀ c ∈ cs, Movable dx dy c.pos) (hw : createWord h cs = .ok w) :
    Movable dx dy w.pos ∧ w.chars = cs ∧ cs ≠ [] := by
  cases cs with
  | nil => cases hw
  | cons c cs =>
    simp only [createWord] at hw
    cases h1 : mostFreqOr h [] [] ((c :: cs).map (·.fontName)) with
    | throw m => rw [h1] at hw; cases hw
    | ub m => rw [h1] at hw; cases hw
    | ok n =>
      rw [h1] at hw
      simp only [Outcome.bind] at hw
      cases h2 : mostFreqOr h 0 (-1) ((c :: cs).map (·.fontSize)) with
      | throw m => rw [h2] at hw; cases hw
      | ub m => rw [h2] at hw; cases hw
      | ok s =>
        rw [h2] at hw
        simp only [Outcome.ok.injEq] at hw
        subst hw
        refine ⟨?_, rfl, by simp⟩
        have hm : Movable dx dy (Box.extendAll { pageNum := c.pos.pageNum } ((c :: cs).map (·.pos))) := by
          refine mv_movable_extendAll ⟨rfl, rfl, rfl, rfl⟩ (by simp) ?_
          intro e he
          obtain ⟨x, hx, rfl⟩ := List.mem_map.mp he
          exact hcs x hx
        generalize Box.extendAll { pageNum := c.pos.pageNum } ((c :: cs).map (·.pos)) = B at hm ⊢
        exact mv_movable_congr hm ⟨rfl, rfl, rfl, rfl⟩

/-- The active word after the move: nothing changes as long as it is empty. -/
def mv_active (dx dy : ℚ) (a : Active) : Active :=
  { a with chars := a.chars.map (moveGlyph dx dy)
           pos := if a.chars.isEmpty then a.pos else moveBox dx dy a.pos }

/-- An active word is fresh or the hull of its characters. -/
def mv_ActiveOk (dx dy : ℚ) (a : Active) : Prop :=
  (a.chars = [] → mv_Fresh a.pos) ∧ (∀ c ∈ a.chars, Movable dx dy c.pos)

theorem mv_active_push {dx dy : ℚ} {a : Active} (ha : mv_ActiveOk dx dy a) {c : Glyph} (hc : Movable dx dy c.pos) :
    (mv_active dx dy a).push (moveGlyph dx dy c) = mv_active dx dy (a.push c) ∧ mv_ActiveOk dx dy (a.push c) := by
  refine ⟨?_, ?_, ?_⟩
  · have hne : (a.chars ++ [c]).isEmpty = false := by cases a.chars <;> rfl
    simp only [Active.push, mv_active, hne, Bool.false_eq_true, if_false, List.map_append, List.map_cons, List.map_nil]
    cases hA : a.chars with
    | nil =>
      simp only [List.isEmpty_nil, if_true, moveGlyph]
      rw [mv_extend_first (ha.1 hA) hc]
      simp only [moveBox]
    | cons x xs =>
      simp only [List.isEmpty_cons, Bool.false_eq_true, if_false, moveGlyph, mv_extend]
      simp only [moveBox]
  · intro h; simp [Active.push] at h
  · intro x hx
    simp only [Active.push, List.mem_append, List.mem_singleton] at hx
    rcases hx with hx | rfl
    · exact ha.2 x hx
    · exact hc

theorem mv_startsWord (dx dy : ℚ) (a : Active) (c : Glyph) :
    startsWord (mv_active dx dy a) (moveGlyph dx dy c) = startsWord a c := by
  cases hA : a.chars with
  | nil => simp [startsWord, mv_active, hA]
  | cons x xs =>
    have hp : (mv_active dx dy a).pos = moveBox dx dy a.pos := by simp [mv_active, hA]
    have hf : horizontalGapThreshold (mv_active dx dy a) = horizontalGapThreshold a := rfl
    have hc : (mv_active dx dy a).chars.isEmpty = a.chars.isEmpty := by simp [mv_active, hA]
    have hg : (moveGlyph dx dy c).pos = moveBox dx dy c.pos := rfl
    have r1 : (moveBox dx dy a.pos).rotation = a.pos.rotation := rfl
    have r2 : (moveBox dx dy c.pos).rotation = c.pos.rotation := rfl
    have w1 : (moveBox dx dy a.pos).wMode = a.pos.wMode := rfl
    have w2 : (moveBox dx dy c.pos).wMode = c.pos.wMode := rfl
    simp only [startsWord, hc, hf, hp, hg, mv_hgap, mv_maxY, r1, r2, w1, w2]

theorem mv_emitWord {dx dy : ℚ} (h : HashOrder) (ws : List Word) {a : Active} (ha : mv_ActiveOk dx dy a) :
    emitWord h (ws.map (moveWord dx dy)) (mv_active dx dy a) =
      mapOk (List.map (moveWord dx dy)) (emitWord h ws a) := by
  have e : (mv_active dx dy a).chars = a.chars.map (moveGlyph dx dy) := rfl
  simp only [emitWord, e, mv_createWord h a.chars ha.2, mapOk]
  cases createWord h a.chars with
  | throw m => rfl
  | ub m => rfl
  | ok w => simp [Outcome.bind, moveWord]

theorem mv_reset (dx dy : ℚ) (n : ℤ) : mv_active dx dy (Active.reset n) = Active.reset n ∧
    mv_ActiveOk dx dy (Active.reset n) := by
  refine ⟨rfl, ⟨fun _ => ⟨rfl, rfl, rfl, rfl⟩, by simp [Active.reset]⟩⟩

theorem mv_charLoop {dx dy : ℚ} (h : HashOrder) (cs : List Glyph) : ∀ (ws : List Word) (a : Active),
    mv_ActiveOk dx dy a → (∀ c ∈ cs, Movable dx dy c.pos) →
    charLoop h (ws.map (moveWord dx dy), mv_active dx dy a) (cs.map (moveGlyph dx dy)) =
      mapOk (fun st => (st.1.map (moveWord dx dy), mv_active dx dy st.2)) (charLoop h (ws, a) cs) ∧
    ∀ st, charLoop h (ws, a) cs = .ok st → mv_ActiveOk dx dy st.2 := by
  induction cs with
  | nil =>
    intro ws a ha _
    refine ⟨rfl, ?_⟩
    intro st hst
    simp only [charLoop, Outcome.ok.injEq] at hst
    subst hst; exact ha
  | cons c cs ih =>
    intro ws a ha hcs
    have hc : Movable dx dy c.pos := hcs c (by simp)
    have hcs' : ∀ x ∈ cs, Movable dx dy x.pos := fun x hx => hcs x (by simp [hx])
    simp only [List.map_cons, charLoop, stepChar, mv_startsWord]
    have hm : (moveGlyph dx dy c).markOf = c.markOf := rfl
    have hE : (mv_active dx dy a).chars.isEmpty = a.chars.isEmpty := by
      simp only [mv_active]; cases a.chars <;> rfl
    rw [hm, hE]
    by_cases h1 : c.markOf.isSome
    · simp only [h1, if_true, Outcome.bind]
      exact ih ws a ha hcs'
    · simp only [h1, Bool.false_eq_true, if_false]
      by_cases h2 : (startsWord a c && !a.chars.isEmpty) = true
      · simp only [h2, if_true, mv_emitWord h ws ha]
        cases hw : emitWord h ws a with
        | throw m => exact ⟨rfl, fun _ h => by cases h⟩
        | ub m => exact ⟨rfl, fun _ h => by cases h⟩
        | ok ws' =>
          simp only [mapOk, Outcome.bind]
          have hpn : (mv_active dx dy a).pos.pageNum = a.pos.pageNum := by
            simp only [mv_active]; cases a.chars <;> rfl
          have hp := mv_active_push (mv_reset dx dy a.pos.pageNum).2 hc
          rw [(mv_reset dx dy a.pos.pageNum).1] at hp
          rw [hpn, hp.1]
          exact ih ws' _ hp.2 hcs'
      · simp only [h2, Bool.false_eq_true, if_false, Outcome.bind]
        have hp := mv_active_push ha hc
        rw [hp.1]
        exact ih ws _ hp.2 hcs'

theorem mv_detectWords {dx dy : ℚ} (h : HashOrder) (a0 a1 : Active) (n : ℤ) (cs : List Glyph)
    (hcs : ∀ c ∈ cs, Movable dx dy c.pos) :
    mapOk (·.1) (detectWords h a0 n (cs.map (moveGlyph dx dy))) =
      mapOk (fun r => r.1.map (moveWord dx dy)) (detectWords h a1 n cs) := by
  have hr := mv_reset dx dy n
  have hl := mv_charLoop h cs [] (Active.reset n) hr.2 hcs
  rw [hr.1] at hl
  simp only [detectWords, List.isEmpty_map, List.map_nil] at hl ⊢
  by_cases hE : cs.isEmpty
  · simp only [hE, if_true]; rfl
  · simp only [hE, Bool.false_eq_true, if_false, hl.1]
    cases hc : charLoop h ([], Active.reset n) cs with
    | throw m => rfl
    | ub m => rfl
    | ok st =>
      have hok := hl.2 st hc
      simp only [mapOk, Outcome.bind]
      have hE2 : (mv_active dx dy st.2).chars.isEmpty = st.2.chars.isEmpty := by
        simp only [mv_active]; cases st.2.chars <;> rfl
      rw [hE2]
      by_cases h3 : st.2.chars.isEmpty
      · simp only [h3, if_true]
      · simp only [h3, Bool.false_eq_true, if_false, mv_emitWord h st.1 hok]
        cases emitWord h st.1 st.2 with
        | throw m => rfl
        | ub m => rfl
        | ok w => rfl

theorem mv_isBase (dx dy : ℚ) (w : Word) : isBase (moveWord dx dy w) = isBase w := by
  simp only [isBase, moveWord, List.any_map]
  rfl

theorem mv_attachable (dx dy : ℚ) (w o : Word) :
    attachable (moveWord dx dy w) (moveWord dx dy o) = attachable w o := by
  simp only [attachable, moveWord, mv_maxX]

theorem mv_partsOf (dx dy : ℚ) (ws : List Word) (i : ℕ) (w : Word) :
    partsOf (ws.map (moveWord dx dy)) i (moveWord dx dy w) = partsOf ws i w := by
  have : attachableAt (ws.map (moveWord dx dy)) (moveWord dx dy w) = attachableAt ws w := by
    funext j
    simp only [attachableAt, List.getElem?_map]
    cases ws[j]? with
    | none => rfl
    | some o => exact mv_attachable dx dy w o
  simp only [partsOf, this, List.length_map]

theorem mv_mapIdx_map {α β γ : Type} (f : ℕ → β → γ) (g : α → β) (l : List α) :
    (l.map g).mapIdx f = l.mapIdx fun i a => f i (g a) := by
  apply List.ext_getElem
  · simp
  · intro i h1 h2; simp

theorem mv_map_mapIdx {α β γ : Type} (f : ℕ → α → β) (g : β → γ) (l : List α) :
    (l.mapIdx f).map g = l.mapIdx fun i a => g (f i a) := by
  apply List.ext_getElem
  · simp
  · intro i h1 h2; simp

theorem mv_mergeStep (dx dy : ℚ) (ws : List Word) (i : ℕ) :
    mergeStep (ws.map (moveWord dx dy)) i = (mergeStep ws i).map (moveWord dx dy) := by
  simp only [mergeStep, List.getElem?_map]
  cases ws[i]? with
  | none => rfl
  | some w =>
    simp only [Option.map_some, mv_isBase, mv_partsOf]
    by_cases hb : isBase w
    · simp only [hb, if_true]
      rw [mv_mapIdx_map, mv_map_mapIdx]
      congr 1
      funext j o
      by_cases h1 : j = i <;> by_cases h2 : (partsOf ws i w).contains j = true <;>
        simp only [h1, h2, if_true, if_false, Function.comp, Bool.false_eq_true] <;> (try simp only [moveWord]) <;>
        (try split <;> rfl)
    · simp only [hb, Bool.false_eq_true, if_false]

theorem mv_stacked (dx dy : ℚ) (ws : List Word) :
    mergeStackedMathSymbols (ws.map (moveWord dx dy)) = (mergeStackedMathSymbols ws).map (moveWord dx dy) := by
  have key : ∀ (l : List ℕ) (ws : List Word), l.foldl mergeStep (ws.map (moveWord dx dy)) =
      (l.foldl mergeStep ws).map (moveWord dx dy) := by
    intro l
    induction l with
    | nil => intro ws; rfl
    | cons i l ih => intro ws; simp only [List.foldl_cons, mv_mergeStep, ih]
  simp only [mergeStackedMathSymbols, List.length_map, key]

end Verif.Props
