import Verif.Props.MoveWords
import Verif.Props.PipelineLines

/-!
# C81: moving the contents — text lines
-/

namespace Verif.Props

open Verif.Math Verif.Elements Verif.Counter Verif.Spec Verif.Words Verif.TextLines

/-! ## Counters -/

theorem mv_increment (c k : ℚ) (es : Entries ℚ) : increment (es.map (moveEntry c)) (k + c) = (increment es k).map (moveEntry c) := by
  induction es with
  | nil => rfl
  | cons e es ih =>
    simp only [List.map_cons, increment, moveEntry, add_left_inj]
    by_cases h : e.1 = k
    · simp only [h, if_true, List.map_cons, moveEntry]
    · simp only [h, if_false, List.map_cons, moveEntry]
      rw [← ih]

theorem mv_countAll (c : ℚ) (xs : List ℚ) : countAll (xs.map (· + c)) = (countAll xs).map (moveEntry c) := by
  have key : ∀ (xs : List ℚ) (es : Entries ℚ), (xs.map (· + c)).foldl increment (es.map (moveEntry c)) =
      (xs.foldl increment es).map (moveEntry c) := by
    intro xs
    induction xs with
    | nil => intro es; rfl
    | cons x xs ih => intro es; simp only [List.map_cons, List.foldl_cons]; rw [mv_increment, ih]
  exact key xs []

theorem mv_sumCounts (c : ℚ) (es : Entries ℚ) : sumCounts (es.map (moveEntry c)) = sumCounts es := by
  simp only [sumCounts, List.foldl_map, moveEntry]

theorem mv_mostFreqFold (c : ℚ) (es : Entries ℚ) : ∀ b b' : ℚ × ℕ, b'.2 = b.2 → (b.2 ≠ 0 → b'.1 = b.1 + c) →
    ((es.map (moveEntry c)).foldl mostFreqStep b').2 = (es.foldl mostFreqStep b).2 ∧
    ((es.foldl mostFreqStep b).2 ≠ 0 → ((es.map (moveEntry c)).foldl mostFreqStep b').1 = (es.foldl mostFreqStep b).1 + c) := by
  induction es with
  | nil => intro b b' h1 h2; exact ⟨h1, h2⟩
  | cons e es ih =>
    intro b b' h1 h2
    simp only [List.map_cons, List.foldl_cons]
    apply ih
    · simp only [mostFreqStep, moveEntry, h1]
      by_cases h : e.2 > b.2
      · simp only [h, if_true]
      · simp only [h, if_false]; exact h1
    · simp only [mostFreqStep, moveEntry, h1]
      by_cases h : e.2 > b.2
      · simp only [h, if_true, implies_true]
      · simp only [h, if_false]; exact h2

theorem mv_mostFreqAndCount (c : ℚ) (es : Entries ℚ) :
    mostFreqAndCount 0 (es.map (moveEntry c)) = mapOk (moveEntry c) (mostFreqAndCount 0 es) := by
  obtain ⟨h1, h2⟩ := mv_mostFreqFold c es (0, 0) (0, 0) rfl (fun h => absurd rfl h)
  simp only [mostFreqAndCount]
  generalize (es.map (moveEntry c)).foldl mostFreqStep (0, 0) = b' at h1 h2
  generalize es.foldl mostFreqStep (0, 0) = b at h1 h2
  by_cases h : b.2 = 0
  · simp only [h1, h, if_true]; rfl
  · simp only [h1, h, if_false]
    obtain ⟨x, k⟩ := b'
    simp only at h1 h2
    rw [h1, h2 h]; rfl

theorem mv_mostFreqOr {h : HashOrder} {c : ℚ} (hc : ∀ es, h.order ℚ (es.map (moveEntry c)) = (h.order ℚ es).map (moveEntry c))
    (d d' : ℚ) (xs : List ℚ) (hx : xs ≠ []) (hlen : xs.length < 2 ^ 32) :
    mostFreqOr h 0 d' (xs.map (· + c)) = mapOk (· + c) (mostFreqOr h 0 d xs) := by
  have hs : sumCounts (h.order ℚ (countAll xs)) > 0 := by
    rw [c07_sumCounts xs _ (h.perm ℚ _), Nat.mod_eq_of_lt hlen]
    exact List.length_pos_of_ne_nil hx
  simp only [mostFreqOr, mv_countAll, hc, mv_sumCounts, hs, if_true, mostFreq, mv_mostFreqAndCount]
  cases mostFreqAndCount 0 (h.order ℚ (countAll xs)) <;> rfl

/-! ## Lines -/

/-- A word that can be moved and is not turned by 90 degrees. -/
structure mv_WordOk (n : ℕ) (dx dy : ℚ) (w : Word) : Prop where
  page : PageWord n w
  movable : Movable dx dy w.pos
  upright : w.pos.rotation ≠ 1 ∧ w.pos.rotation ≠ 3
  chars : w.chars ≠ []
  glyphs : ∀ c ∈ w.chars, Movable dx dy c.pos

theorem mv_normBox (dx dy : ℚ) (b : Box) : normBox (moveBox dx dy b) = moveBox dx dy (normBox b) := by
  simp only [normBox, moveBox, mv_minimum, mv_maximum]

theorem mv_movable_norm {dx dy : ℚ} {b : Box} (h : Movable dx dy b) : Movable dx dy (normBox b) := by
  rw [mv_movable_iff] at h ⊢
  obtain ⟨h1, h2, h3, h4⟩ := h
  simp only [normBox, minimum_eq_min, maximum_eq_max]
  refine ⟨?_, ?_, ?_, ?_⟩
  · rcases min_choice b.leftX b.rightX with h | h <;> rw [h] <;> assumption
  · rcases max_choice b.leftX b.rightX with h | h <;> rw [h] <;> assumption
  · rcases min_choice b.lowerY b.upperY with h | h <;> rw [h] <;> assumption
  · rcases max_choice b.lowerY b.upperY with h | h <;> rw [h] <;> assumption

/-- The number of characters of the words. -/
def mv_weight (ws : List Word) : ℕ := (ws.flatMap (·.chars)).length

theorem mv_weight_append (a b : List Word) : mv_weight (a ++ b) = mv_weight a + mv_weight b := by
  simp [mv_weight]

theorem mv_weight_perm {a b : List Word} (h : a.Perm b) : mv_weight a = mv_weight b :=
  (h.flatMap_right _).length_eq

theorem mv_joinWords (dx dy : ℚ) (ws : List Word) : joinWords (ws.map (moveWord dx dy)) = joinWords ws := by
  simp only [joinWords, List.map_map]; rfl

theorem mv_chars (dx dy : ℚ) (ws : List Word) :
    (ws.map (moveWord dx dy)).flatMap (fun x => x.chars) = (ws.flatMap (fun x => x.chars)).map (moveGlyph dx dy) := by
  rw [List.flatMap_map, List.map_flatMap]; rfl

/-- What a line starts with: nothing, or the box of the line the words are added to. -/
def mv_StartBox (dx dy : ℚ) (b b' : Box) : Prop := mv_Fresh b ∧ b' = b ∨ Movable dx dy b ∧ b' = moveBox dx dy b

theorem mv_start_extendAll {dx dy : ℚ} {b b' : Box} (h : mv_StartBox dx dy b b') (r w p : ℤ) {es : List Box} (hne : es ≠ [])
    (hes : ∀ e ∈ es, Movable dx dy e) :
    Box.extendAll { b' with rotation := r, wMode := w, pageNum := p } (es.map (moveBox dx dy)) =
      moveBox dx dy (Box.extendAll { b with rotation := r, wMode := w, pageNum := p } es) ∧
    Movable dx dy (Box.extendAll { b with rotation := r, wMode := w, pageNum := p } es) := by
  rcases h with ⟨hf, rfl⟩ | ⟨hm, rfl⟩
  · have hf2 : mv_Fresh { b' with rotation := r, wMode := w, pageNum := p } := hf
    exact ⟨mv_extendAll hf2 hne hes, mv_movable_extendAll hf2 hne hes⟩
  · refine ⟨?_, mv_movable_foldl es _ (mv_movable_congr hm ⟨rfl, rfl, rfl, rfl⟩) hes⟩
    rw [← mv_extendAll_moved]; rfl

theorem mv_extendAll_rotation (es : List Box) : ∀ b : Box, (Box.extendAll b es).rotation = b.rotation := by
  induction es with
  | nil => intro b; rfl
  | cons e es ih => intro b; exact ih (b.extend e)

/-- A line that can be moved. -/
structure mv_LineOk (n : ℕ) (dx dy : ℚ) (l : Line) : Prop where
  nonempty : l.words ≠ []
  words : ∀ w ∈ l.words, mv_WordOk n dx dy w
  movable : Movable dx dy l.pos
  upright : l.pos.rotation ≠ 1 ∧ l.pos.rotation ≠ 3
  base : ∃ w ∈ l.words, ∃ c ∈ w.chars, c.base = l.base

theorem mv_props {n : ℕ} {dx dy : ℚ} {lib : LineLib} (hl : SteadyLines dx dy lib)
    (hs : LineSorts (PageWord n) (fun l => RoundedBox n l.pos) lib) {line line' : Line} (hne : line.words ≠ [])
    (hw : ∀ w ∈ line.words, mv_WordOk n dx dy w) (hlen : mv_weight line.words < 2 ^ 32)
    (hwords : line'.words = line.words.map (moveWord dx dy)) (hpos : mv_StartBox dx dy line.pos line'.pos)
    (hfont : line'.fontName = line.fontName ∧ line'.fontSize = line.fontSize ∧ line'.maxFontSize = line.maxFontSize) :
    computeTextLineProperties lib line' = mapOk (moveLine dx dy) (computeTextLineProperties lib line) ∧
    ∀ l, computeTextLineProperties lib line = .ok l → mv_LineOk n dx dy l ∧ l.words.Perm line.words := by
  obtain ⟨f, fs, hf⟩ : ∃ f fs, line.words = f :: fs := by
    cases hx : line.words with
    | nil => exact absurd hx hne
    | cons f fs => exact ⟨f, fs, rfl⟩
  obtain ⟨e1, e2, e3⟩ := hfont
  have hf' : line'.words = moveWord dx dy f :: fs.map (moveWord dx dy) := by rw [hwords, hf]; rfl
  have hfirst : (moveWord dx dy f).pos.rotation = f.pos.rotation ∧ (moveWord dx dy f).pos.wMode = f.pos.wMode ∧
      (moveWord dx dy f).pos.pageNum = f.pos.pageNum := ⟨rfl, rfl, rfl⟩
  -- the sorted words
  obtain ⟨ws, hws, hws', hperm⟩ : ∃ ws, (if f.pos.rotation = 0 ∨ f.pos.rotation = 1 then lib.sortRotLeftXAsc line.words
      else lib.sortRotLeftXDesc line.words) = ws ∧ (if f.pos.rotation = 0 ∨ f.pos.rotation = 1 then lib.sortRotLeftXAsc line'.words
      else lib.sortRotLeftXDesc line'.words) = ws.map (moveWord dx dy) ∧ ws.Perm line.words := by
    by_cases h : f.pos.rotation = 0 ∨ f.pos.rotation = 1
    · refine ⟨_, if_pos h, by rw [if_pos h, hwords, hl.wordsAsc _ fun w hx => (hw w hx).upright], hs.wordsAsc _ fun w hx => (hw w hx).page⟩
    · refine ⟨_, if_neg h, by rw [if_neg h, hwords, hl.wordsDesc _ fun w hx => (hw w hx).upright], hs.wordsDesc _ fun w hx => (hw w hx).page⟩
  have hok : ∀ w ∈ ws, mv_WordOk n dx dy w := fun w hx => hw w (hperm.subset hx)
  have hwsne : ws ≠ [] := by
    intro h; subst h
    exact hne (List.nil_perm.mp hperm)
  have hboxes : (ws.map (moveWord dx dy)).map (fun w => normBox w.pos) = (ws.map fun w => normBox w.pos).map (moveBox dx dy) := by
    rw [List.map_map, List.map_map]
    exact List.map_congr_left fun w _ => mv_normBox dx dy w.pos
  obtain ⟨hp1, hp2⟩ := mv_start_extendAll hpos f.pos.rotation f.pos.wMode f.pos.pageNum (es := ws.map fun w => normBox w.pos) (by simpa using hwsne) (by
    intro e he
    obtain ⟨w, hw', rfl⟩ := List.mem_map.mp he
    exact mv_movable_norm (hok w hw').movable)
  have hrot := mv_extendAll_rotation (ws.map fun w => normBox w.pos)
    { line.pos with rotation := f.pos.rotation, wMode := f.pos.wMode, pageNum := f.pos.pageNum }
  have hw1 : mv_weight ws < 2 ^ 32 := by rw [mv_weight_perm hperm]; exact hlen
  have hchars : ws.flatMap (·.chars) ≠ [] := by
    intro h
    rw [List.flatMap_eq_nil_iff] at h
    cases ws with
    | nil => exact hwsne rfl
    | cons w ws => exact (hok w (by simp)).chars (h w (by simp))
  have hbase := mv_mostFreqOr (hl.counts dy (.inr rfl)) line.base line'.base ((ws.flatMap (·.chars)).map (·.base))
    (by simpa using hchars) (by rw [List.length_map]; exact hw1)
  have hmem := mostFreqOr_spec lib.hash 0 line.base ((ws.flatMap (·.chars)).map (·.base))
  obtain ⟨b, hb1, hb2⟩ := hmem
  have hb3 := hb2 (by simpa using hchars) (by rw [List.length_map]; exact hw1)
  have hg : ∀ (g : Glyph → ℚ), (∀ c, g (moveGlyph dx dy c) = g c) → ((ws.map (moveWord dx dy)).flatMap (·.chars)).map g = (ws.flatMap (·.chars)).map g := by
    intro g hgg; rw [mv_chars, List.map_map]; exact List.map_congr_left fun c _ => hgg c
  have hgs : ((ws.map (moveWord dx dy)).flatMap (fun x => x.chars)).map (fun x => x.fontName) = (ws.flatMap (fun x => x.chars)).map (fun x => x.fontName) := by
    rw [mv_chars, List.map_map]; rfl
  have hgb : ((ws.map (moveWord dx dy)).flatMap (fun x => x.chars)).map (fun x => x.base) = ((ws.flatMap (fun x => x.chars)).map (fun x => x.base)).map (· + dy) := by
    rw [mv_chars, List.map_map, List.map_map]; rfl
  have hgf := hg (fun x => x.fontSize) (fun _ => rfl)
  have key : ∀ l, computeTextLineProperties lib line = .ok l → l.words = ws ∧
      l.pos = Box.extendAll { line.pos with rotation := f.pos.rotation, wMode := f.pos.wMode, pageNum := f.pos.pageNum } (ws.map fun w => normBox w.pos) ∧
      l.base = b := by
    intro l h
    unfold computeTextLineProperties at h
    rw [hf] at h
    simp only [← hf, hws] at h
    rw [hb1] at h
    generalize Box.extendAll _ (ws.map fun w => normBox w.pos) = P at h ⊢
    cases h1 : mostFreqOr lib.hash [] line.fontName ((ws.flatMap (·.chars)).map (·.fontName)) with
    | ok a =>
      cases h2 : mostFreqOr lib.hash 0 line.fontSize ((ws.flatMap (·.chars)).map (·.fontSize)) with
      | ok a2 =>
        cases h3 : maxOr lib.hash line.maxFontSize ((ws.flatMap (·.chars)).map (·.fontSize)) with
        | ok a3 =>
          rw [h1, h2, h3] at h
          simp only [Outcome.bind, Outcome.ok.injEq] at h
          subst h
          exact ⟨rfl, rfl, rfl⟩
        | throw m => rw [h1, h2, h3] at h; cases h
        | ub m => rw [h1, h2, h3] at h; cases h
      | throw m => rw [h1, h2] at h; cases h
      | ub m => rw [h1, h2] at h; cases h
    | throw m => rw [h1] at h; cases h
    | ub m => rw [h1] at h; cases h
  refine ⟨?_, ?_⟩
  · unfold computeTextLineProperties
    rw [hf, hf']
    simp only [hfirst.1, hfirst.2.1, hfirst.2.2]
    rw [← hf', ← hf, hws, hws', hboxes, hp1, hgs, hgf, hgb, hbase, hb1, e1, e2, e3, mv_joinWords]
    generalize Box.extendAll _ (ws.map fun w => normBox w.pos) = P
    cases mostFreqOr lib.hash [] line.fontName ((ws.flatMap (·.chars)).map (·.fontName)) with
    | ok a =>
      cases mostFreqOr lib.hash 0 line.fontSize ((ws.flatMap (·.chars)).map (·.fontSize)) with
      | ok a2 =>
        cases maxOr lib.hash line.maxFontSize ((ws.flatMap (·.chars)).map (·.fontSize)) <;> rfl
      | throw m => rfl
      | ub m => rfl
    | throw m => rfl
    | ub m => rfl
  · intro l h
    obtain ⟨k1, k2, k3⟩ := key l h
    refine ⟨⟨by rw [k1]; exact hwsne, by rw [k1]; exact hok, by rw [k2]; exact hp2, ?_, ?_⟩, by rw [k1]; exact hperm⟩
    · rw [k2, hrot]; exact (hw f (by rw [hf]; simp)).upright
    · rw [k1, k3]
      obtain ⟨c, hc, e⟩ := List.mem_map.mp hb3.1
      obtain ⟨w, hw', hc'⟩ := List.mem_flatMap.mp hc
      exact ⟨w, hw', c, hc', e⟩

theorem mv_createTextLine {n : ℕ} {dx dy : ℚ} {lib : LineLib} (hl : SteadyLines dx dy lib)
    (hs : LineSorts (PageWord n) (fun l => RoundedBox n l.pos) lib) {ws : List Word} (hne : ws ≠ [])
    (hw : ∀ w ∈ ws, mv_WordOk n dx dy w) (hlen : mv_weight ws < 2 ^ 32) :
    createTextLine lib (ws.map (moveWord dx dy)) = mapOk (moveLine dx dy) (createTextLine lib ws) ∧
    ∀ l, createTextLine lib ws = .ok l → mv_LineOk n dx dy l ∧ l.words.Perm ws :=
  mv_props hl hs (line := { words := ws }) (line' := { words := ws.map (moveWord dx dy) }) hne hw hlen rfl
    (.inl ⟨⟨rfl, rfl, rfl, rfl⟩, rfl⟩) ⟨rfl, rfl, rfl⟩

theorem mv_mergeTextLines {n : ℕ} {dx dy : ℚ} {lib : LineLib} (hl : SteadyLines dx dy lib)
    (hs : LineSorts (PageWord n) (fun l => RoundedBox n l.pos) lib) {l1 l2 : Line} (h1 : mv_LineOk n dx dy l1) (h2 : mv_LineOk n dx dy l2)
    (hlen : mv_weight l1.words + mv_weight l2.words < 2 ^ 32) :
    mergeTextLines lib (moveLine dx dy l1) (moveLine dx dy l2) = mapOk (moveLine dx dy) (mergeTextLines lib l1 l2) ∧
    ∀ l, mergeTextLines lib l1 l2 = .ok l → mv_LineOk n dx dy l ∧ l.words.Perm (l2.words ++ l1.words) := by
  unfold mergeTextLines
  refine mv_props hl hs (line := { l2 with words := l2.words ++ l1.words }) (by simp [h2.nonempty]) ?_ ?_ ?_ (.inr ⟨h2.movable, rfl⟩) ⟨rfl, rfl, rfl⟩
  · intro w hw
    rcases List.mem_append.mp hw with h | h
    · exact h2.words w h
    · exact h1.words w h
  · simp only [mv_weight_append]; omega
  · simp only [moveLine, List.map_append]

theorem mv_shouldMerge (dx dy acw : ℚ) (a b : Line) : shouldMerge acw (moveLine dx dy a) (moveLine dx dy b) = shouldMerge acw a b := by
  simp only [shouldMerge, moveLine, mv_maxY, mv_hgap]

/-- The characters of the lines. -/
def mv_lineWeight (ls : List Line) : ℕ := mv_weight (ls.flatMap (·.words))

theorem mv_lineWeight_cons (l : Line) (ls : List Line) : mv_lineWeight (l :: ls) = mv_weight l.words + mv_lineWeight ls := by
  simp only [mv_lineWeight, List.flatMap_cons, mv_weight_append]

theorem mv_lineWeight_perm {a b : List Line} (h : a.Perm b) : mv_lineWeight a = mv_lineWeight b :=
  mv_weight_perm (h.flatMap_right _)

theorem mv_mergeFrom {n : ℕ} {dx dy : ℚ} {lib : LineLib} (hl : SteadyLines dx dy lib)
    (hs : LineSorts (PageWord n) (fun l => RoundedBox n l.pos) lib) (acw : ℚ) (ls : List Line) : ∀ prev : Line,
    (∀ l ∈ prev :: ls, mv_LineOk n dx dy l) → mv_lineWeight (prev :: ls) < 2 ^ 32 →
    mergeFrom lib acw (moveLine dx dy prev) (ls.map (moveLine dx dy)) =
      mapOk (fun r => (r.1.map (moveLine dx dy), r.2)) (mergeFrom lib acw prev ls) ∧
    ∀ r, mergeFrom lib acw prev ls = .ok r → (∀ l ∈ r.1, mv_LineOk n dx dy l) ∧ mv_lineWeight r.1 = mv_lineWeight (prev :: ls) := by
  induction ls with
  | nil =>
    intro prev hok _
    refine ⟨rfl, ?_⟩
    intro r h
    simp only [mergeFrom, Outcome.ok.injEq] at h
    subst h
    exact ⟨hok, rfl⟩
  | cons l ls ih =>
    intro prev hok hlen
    simp only [mv_lineWeight_cons] at hlen
    rw [List.map_cons, mergeFrom, mergeFrom, mv_shouldMerge]
    by_cases hm : shouldMerge acw prev l = true
    · rw [if_pos hm, if_pos hm]
      obtain ⟨m1, m2⟩ := mv_mergeTextLines hl hs (hok l (by simp)) (hok prev (by simp)) (by omega)
      rw [m1]
      cases hp : mergeTextLines lib l prev with
      | ok p =>
        obtain ⟨p1, p2⟩ := m2 p hp
        have hw : mv_weight p.words = mv_weight prev.words + mv_weight l.words := by
          rw [mv_weight_perm p2, mv_weight_append]
        obtain ⟨i1, i2⟩ := ih p (by
          intro x hx
          rcases List.mem_cons.mp hx with rfl | hx
          · exact p1
          · exact hok x (by simp [hx])) (by rw [mv_lineWeight_cons, hw]; omega)
        simp only [mapOk, Outcome.bind]
        rw [i1]
        cases hr : mergeFrom lib acw p ls with
        | ok r =>
          refine ⟨rfl, ?_⟩
          intro r' h
          simp only [Outcome.ok.injEq] at h
          subst h
          obtain ⟨j1, j2⟩ := i2 r hr
          refine ⟨j1, ?_⟩
          simp only [j2, mv_lineWeight_cons, hw]; omega
        | throw m => exact ⟨rfl, fun _ h => by cases h⟩
        | ub m => exact ⟨rfl, fun _ h => by cases h⟩
      | throw m => exact ⟨rfl, fun _ h => by cases h⟩
      | ub m => exact ⟨rfl, fun _ h => by cases h⟩
    · rw [if_neg hm, if_neg hm]
      obtain ⟨i1, i2⟩ := ih l (fun x hx => hok x (by simp only [List.mem_cons] at hx ⊢; tauto)) (by rw [mv_lineWeight_cons]; omega)
      rw [i1]
      cases hr : mergeFrom lib acw l ls with
      | ok r =>
        refine ⟨rfl, ?_⟩
        intro r' h
        simp only [Outcome.bind, Outcome.ok.injEq] at h
        subst h
        obtain ⟨j1, j2⟩ := i2 r hr
        refine ⟨?_, ?_⟩
        · intro x hx
          rcases List.mem_cons.mp hx with rfl | hx
          · exact hok _ (by simp)
          · exact j1 x hx
        · simp only [mv_lineWeight_cons] at j2 ⊢; rw [j2]
      | throw m => exact ⟨rfl, fun _ h => by cases h⟩
      | ub m => exact ⟨rfl, fun _ h => by cases h⟩

theorem mv_mergeRound {n : ℕ} {dx dy : ℚ} {lib : LineLib} (hl : SteadyLines dx dy lib)
    (hs : LineSorts (PageWord n) (fun l => RoundedBox n l.pos) lib) (acw : ℚ) (ls : List Line)
    (hok : ∀ l ∈ ls, mv_LineOk n dx dy l) (hlen : mv_lineWeight ls < 2 ^ 32) :
    mergeRound lib acw (ls.map (moveLine dx dy)) = mapOk (fun r => (r.1.map (moveLine dx dy), r.2)) (mergeRound lib acw ls) ∧
    ∀ r, mergeRound lib acw ls = .ok r → (∀ l ∈ r.1, mv_LineOk n dx dy l) ∧ mv_lineWeight r.1 = mv_lineWeight ls := by
  cases ls with
  | nil =>
    refine ⟨rfl, ?_⟩
    intro r h
    simp only [mergeRound, Outcome.ok.injEq] at h
    subst h
    exact ⟨hok, rfl⟩
  | cons l ls => exact mv_mergeFrom hl hs acw ls l hok hlen

theorem mv_mergeRounds {n : ℕ} {dx dy : ℚ} {lib : LineLib} (hl : SteadyLines dx dy lib)
    (hs : LineSorts (PageWord n) (fun l => RoundedBox n l.pos) lib) (acw : ℚ) : ∀ (k : ℕ) (ls : List Line), ls.length ≤ k →
    (∀ l ∈ ls, mv_LineOk n dx dy l) → mv_lineWeight ls < 2 ^ 32 →
    mergeRounds lib acw (ls.map (moveLine dx dy)) = mapOk (List.map (moveLine dx dy)) (mergeRounds lib acw ls) ∧
    ∀ r, mergeRounds lib acw ls = .ok r → (∀ l ∈ r, mv_LineOk n dx dy l) ∧ mv_lineWeight r = mv_lineWeight ls := by
  intro k
  induction k with
  | zero =>
    intro ls hk hok hlen
    have : ls = [] := List.length_eq_zero_iff.mp (by omega)
    subst this
    have : mergeRounds lib acw [] = .ok [] := by rw [mergeRounds]; rfl
    rw [List.map_nil, this]
    refine ⟨rfl, ?_⟩
    intro r h
    simp only [Outcome.ok.injEq] at h
    subst h
    exact ⟨by simp, rfl⟩
  | succ k ih =>
    intro ls hk hok hlen
    obtain ⟨h1, h2⟩ := mv_mergeRound hl hs acw ls hok hlen
    have e1 : ∀ m, mergeRounds lib acw m = match mergeRound lib acw m with
        | .ok (ls', true) => mergeRounds lib acw ls'
        | .ok (ls', false) => .ok ls'
        | .throw m => .throw m
        | .ub m => .ub m := by
      intro m
      rw [mergeRounds]
      split <;> simp_all
    rw [e1, e1 ls, h1]
    cases hr : mergeRound lib acw ls with
    | ok r =>
      obtain ⟨ls', b⟩ := r
      obtain ⟨g1, g2⟩ := h2 _ hr
      cases b with
      | true =>
        have := mergeRound_shrinks lib acw ls ls' hr
        simp only [mapOk, Outcome.bind]
        obtain ⟨i1, i2⟩ := ih ls' (by omega) g1 (by simp only at g2; omega)
        refine ⟨i1, ?_⟩
        intro r h
        obtain ⟨j1, j2⟩ := i2 r h
        exact ⟨j1, by rw [j2]; exact g2⟩
      | false =>
        refine ⟨rfl, ?_⟩
        intro r h
        simp only [Outcome.ok.injEq] at h
        subst h
        exact ⟨g1, g2⟩
    | throw m => exact ⟨rfl, fun _ h => by cases h⟩
    | ub m => exact ⟨rfl, fun _ h => by cases h⟩

theorem mv_createAll {n : ℕ} {dx dy : ℚ} {lib : LineLib} (hl : SteadyLines dx dy lib)
    (hs : LineSorts (PageWord n) (fun l => RoundedBox n l.pos) lib) (es : List (ℚ × List Word))
    (hne : ∀ e ∈ es, e.2 ≠ []) (hw : ∀ e ∈ es, ∀ w ∈ e.2, mv_WordOk n dx dy w) (hlen : mv_weight (es.flatMap (·.2)) < 2 ^ 32) :
    createAll lib (es.map (moveRow dx dy)) = mapOk (List.map (moveLine dx dy)) (createAll lib es) ∧
    ∀ ls, createAll lib es = .ok ls → (∀ l ∈ ls, mv_LineOk n dx dy l ∧ RoundedBox n l.pos) ∧ mv_lineWeight ls = mv_weight (es.flatMap (·.2)) := by
  induction es with
  | nil =>
    refine ⟨rfl, ?_⟩
    intro ls h
    simp only [createAll, Outcome.ok.injEq] at h
    subst h
    exact ⟨by simp, rfl⟩
  | cons e es ih =>
    rw [List.flatMap_cons, mv_weight_append] at hlen
    obtain ⟨h1, h2⟩ := mv_createTextLine hl hs (hne e (by simp)) (hw e (by simp)) (by omega)
    obtain ⟨i1, i2⟩ := ih (fun x hx => hne x (by simp [hx])) (fun x hx => hw x (by simp [hx])) (by omega)
    rw [List.map_cons, createAll, createAll, i1]
    have : (moveRow dx dy e).2 = e.2.map (moveWord dx dy) := rfl
    rw [this, h1]
    cases hc : createTextLine lib e.2 with
    | ok l =>
      obtain ⟨l1, l2⟩ := h2 l hc
      cases hr : createAll lib es with
      | ok ls =>
        refine ⟨rfl, ?_⟩
        intro ls' h
        simp only [Outcome.bind, Outcome.ok.injEq] at h
        subst h
        obtain ⟨j1, j2⟩ := i2 ls hr
        refine ⟨?_, ?_⟩
        · intro x hx
          rcases List.mem_cons.mp hx with rfl | hx
          · exact ⟨l1, hs.created _ _ (hne e (by simp)) (fun w hx => (hw e (by simp) w hx).page) hc⟩
          · exact j1 x hx
        · rw [mv_lineWeight_cons, mv_weight_perm l2, j2, List.flatMap_cons, mv_weight_append]
      | throw m => exact ⟨rfl, fun _ h => by cases h⟩
      | ub m => exact ⟨rfl, fun _ h => by cases h⟩
    | throw m => exact ⟨rfl, fun _ h => by cases h⟩
    | ub m => exact ⟨rfl, fun _ h => by cases h⟩

theorem mv_linesOfRotation {n : ℕ} {dx dy : ℚ} {lib : LineLib} (hl : SteadyLines dx dy lib)
    (hs : LineSorts (PageWord n) (fun l => RoundedBox n l.pos) lib) (acw : ℚ) (rot : ℤ) (es : List (ℚ × List Word))
    (hne : ∀ e ∈ es, e.2 ≠ []) (hw : ∀ e ∈ es, ∀ w ∈ e.2, mv_WordOk n dx dy w) (hlen : mv_weight (es.flatMap (·.2)) < 2 ^ 32) :
    linesOfRotation lib acw rot (es.map (moveRow dx dy)) = mapOk (List.map (moveLine dx dy)) (linesOfRotation lib acw rot es) ∧
    ∀ ls, linesOfRotation lib acw rot es = .ok ls → ∀ l ∈ ls, mv_LineOk n dx dy l := by
  have hp := lib.iterPerm _ es
  unfold linesOfRotation
  rw [hl.rows]
  obtain ⟨h1, h2⟩ := mv_createAll hl hs (lib.iter _ es) (fun e he => hne e (hp.subset he)) (fun e he => hw e (hp.subset he))
    (by rw [mv_weight_perm (hp.flatMap_right _)]; exact hlen)
  rw [h1]
  cases hc : createAll lib (lib.iter _ es) with
  | ok ls =>
    obtain ⟨g1, g2⟩ := h2 ls hc
    obtain ⟨ss, s1, s2, s3⟩ : ∃ ss, (if rot = 0 ∨ rot = 1 then lib.sortRotLowerYAsc ls else lib.sortRotLowerYDesc ls) = ss ∧
        (if rot = 0 ∨ rot = 1 then lib.sortRotLowerYAsc (ls.map (moveLine dx dy)) else lib.sortRotLowerYDesc (ls.map (moveLine dx dy))) =
          ss.map (moveLine dx dy) ∧ ss.Perm ls := by
      by_cases h : rot = 0 ∨ rot = 1
      · exact ⟨_, if_pos h, by rw [if_pos h, hl.linesAsc _ fun l hx => (g1 l hx).1.upright], hs.linesAsc _ fun l hx => (g1 l hx).2⟩
      · exact ⟨_, if_neg h, by rw [if_neg h, hl.linesDesc _ fun l hx => (g1 l hx).1.upright], hs.linesDesc _ fun l hx => (g1 l hx).2⟩
    simp only [mapOk, Outcome.bind, s1, s2]
    obtain ⟨i1, i2⟩ := mv_mergeRounds hl hs acw _ ss (Nat.le_refl _) (fun l hx => (g1 l (s3.subset hx)).1) (by
      rw [mv_lineWeight_perm s3, g2, mv_weight_perm (hp.flatMap_right _)]; exact hlen)
    exact ⟨i1, fun r hr => (i2 r hr).1⟩
  | throw m => exact ⟨rfl, fun _ h => by cases h⟩
  | ub m => exact ⟨rfl, fun _ h => by cases h⟩

/-! ## The lines of a segment -/

theorem mv_rotationGroups {n : ℕ} {dx dy : ℚ} {lib : LineLib} (hl : SteadyLines dx dy lib)
    (hs : LineSorts (PageWord n) (fun l => RoundedBox n l.pos) lib) (acw : ℚ) (cs : List (ℤ × List (ℚ × List Word)))
    (hne : ∀ c ∈ cs, ∀ e ∈ c.2, e.2 ≠ []) (hw : ∀ c ∈ cs, ∀ e ∈ c.2, ∀ w ∈ e.2, mv_WordOk n dx dy w)
    (hlen : ∀ c ∈ cs, mv_weight (c.2.flatMap (·.2)) < 2 ^ 32) :
    rotationGroups lib acw (cs.map fun e => (e.1, e.2.map (moveRow dx dy))) =
      mapOk (List.map (List.map (moveLine dx dy))) (rotationGroups lib acw cs) ∧
    ∀ gs, rotationGroups lib acw cs = .ok gs → ∀ l ∈ gs.flatten, mv_LineOk n dx dy l := by
  induction cs with
  | nil =>
    refine ⟨rfl, ?_⟩
    intro gs h
    simp only [rotationGroups, Outcome.ok.injEq] at h
    subst h
    simp
  | cons c cs ih =>
    obtain ⟨h1, h2⟩ := mv_linesOfRotation hl hs acw c.1 c.2 (hne c (by simp)) (hw c (by simp)) (hlen c (by simp))
    obtain ⟨i1, i2⟩ := ih (fun x hx => hne x (by simp [hx])) (fun x hx => hw x (by simp [hx])) (fun x hx => hlen x (by simp [hx]))
    rw [List.map_cons, rotationGroups, rotationGroups, i1, h1]
    cases hc : linesOfRotation lib acw c.1 c.2 with
    | ok l =>
      cases hr : rotationGroups lib acw cs with
      | ok ls =>
        refine ⟨rfl, ?_⟩
        intro ls' h
        simp only [Outcome.bind, Outcome.ok.injEq] at h
        subst h
        intro x hx
        rw [List.flatten_cons] at hx
        rcases List.mem_append.mp hx with hx | hx
        · exact h2 l hc x hx
        · exact i2 ls hr x hx
      | throw m => exact ⟨rfl, fun _ h => by cases h⟩
      | ub m => exact ⟨rfl, fun _ h => by cases h⟩
    | throw m => exact ⟨rfl, fun _ h => by cases h⟩
    | ub m => exact ⟨rfl, fun _ h => by cases h⟩

theorem mv_wordGroup (dx dy : ℚ) (page : List Word) (w : Word) :
    wordGroup (page.map (moveWord dx dy)) (moveWord dx dy w) = (wordGroup page w).map (moveWord dx dy) := by
  have h1 : (moveWord dx dy w).partOf = w.partOf := rfl
  have h2 : (moveWord dx dy w).parts = w.parts := rfl
  unfold wordGroup
  rw [h1, h2]
  split
  · rfl
  · simp only [List.map_cons, List.getElem?_map, List.map_filterMap]

theorem mv_addInner (dx dy y : ℚ) (ws : List Word) (r : List (ℚ × List Word)) :
    addInner (y + dy) (ws.map (moveWord dx dy)) (r.map (moveRow dx dy)) = (addInner y ws r).map (moveRow dx dy) := by
  induction r with
  | nil => rfl
  | cons e r ih =>
    obtain ⟨k, v⟩ := e
    simp only [List.map_cons, moveRow, addInner, add_left_inj]
    by_cases h : k = y
    · simp only [h, if_true, List.map_cons, moveRow, List.map_append]
    · simp only [h, if_false, List.map_cons, moveRow]
      rw [← ih]

theorem mv_addCluster (dx dy y : ℚ) (rot : ℤ) (ws : List Word) (r : List (ℤ × List (ℚ × List Word))) :
    addCluster rot (y + dy) (ws.map (moveWord dx dy)) (r.map fun e => (e.1, e.2.map (moveRow dx dy))) =
      (addCluster rot y ws r).map fun e => (e.1, e.2.map (moveRow dx dy)) := by
  induction r with
  | nil => rfl
  | cons e r ih =>
    obtain ⟨k, v⟩ := e
    simp only [List.map_cons, addCluster]
    by_cases h : k = rot
    · simp only [h, if_true, List.map_cons, mv_addInner]
    · simp only [h, if_false, List.map_cons, ih]

theorem mv_rotLowerY {dx dy : ℚ} {b : Box} (h : b.rotation ≠ 1 ∧ b.rotation ≠ 3) : (moveBox dx dy b).getRotLowerY = b.getRotLowerY + dy := by
  have e : (moveBox dx dy b).rotation = b.rotation := rfl
  simp only [Box.getRotLowerY, e, h.1, h.2, if_false]
  split <;> rfl

theorem mv_rotRightX {dx dy : ℚ} {b : Box} (h : b.rotation ≠ 1 ∧ b.rotation ≠ 3) : (moveBox dx dy b).getRotRightX = b.getRotRightX + dx := by
  have e : (moveBox dx dy b).rotation = b.rotation := rfl
  simp only [Box.getRotRightX, e, h.1, h.2, if_false]
  split <;> rfl

theorem mv_cluster {dx dy : ℚ} (page ws : List Word) (hw : ∀ w ∈ ws, w.pos.rotation ≠ 1 ∧ w.pos.rotation ≠ 3) :
    cluster (page.map (moveWord dx dy)) (ws.map (moveWord dx dy)) =
      (cluster page ws).map fun e => (e.1, e.2.map (moveRow dx dy)) := by
  have key : ∀ (ws : List Word) (cl : List (ℤ × List (ℚ × List Word))), (∀ w ∈ ws, w.pos.rotation ≠ 1 ∧ w.pos.rotation ≠ 3) →
      (ws.map (moveWord dx dy)).foldl (fun cl w => if w.partOf.isSome then cl
        else addCluster w.pos.rotation w.pos.getRotLowerY (wordGroup (page.map (moveWord dx dy)) w) cl)
        (cl.map fun e => (e.1, e.2.map (moveRow dx dy))) =
      (ws.foldl (fun cl w => if w.partOf.isSome then cl
        else addCluster w.pos.rotation w.pos.getRotLowerY (wordGroup page w) cl) cl).map fun e => (e.1, e.2.map (moveRow dx dy)) := by
    intro ws
    induction ws with
    | nil => intro cl _; rfl
    | cons w ws ih =>
      intro cl hw
      simp only [List.map_cons, List.foldl_cons]
      rw [← ih _ fun x hx => hw x (by simp [hx])]
      congr 1
      have h1 : (moveWord dx dy w).partOf = w.partOf := rfl
      have h2 : (moveWord dx dy w).pos = moveBox dx dy w.pos := rfl
      have h3 : (moveBox dx dy w.pos).rotation = w.pos.rotation := rfl
      rw [h1, h2, h3, mv_rotLowerY (hw w (by simp)), mv_wordGroup, mv_addCluster]
      split <;> rfl
  exact key ws [] hw

end Verif.Props
