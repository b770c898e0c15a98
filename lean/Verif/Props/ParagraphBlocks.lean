import Verif.Props.ParagraphLines

/-!
# C99: the text block of a page set in fixed-width type
-/

namespace Verif.Props

open Verif.Math Verif.Elements Verif.Spec Verif.Words Verif.TextLines Verif.TextBlocks Verif.Counter

section

variable [Marks]

/-- What block detection is given. -/
structure PpDoc (rows : List (List (List Char))) (W : ℕ) (T : ℚ) (D : Doc) : Prop where
  line : ∀ i < rows.length, ∃ r row, rows[i]? = some row ∧ D.line i = ppLine (10 + 11 * i) r row
  out : ∀ i, rows.length ≤ i → (D.line i).words = []
  column : Column W rows
  trim : PpTrim rows.length W T
  onPage : (W : ℚ) ≤ dblMax
  high : ∀ i < rows.length, ((10 + 11 * i + 10 : ℕ) : ℚ) ≤ dblMax
  width : D.avgCharWidth = 5
  height : 0 ≤ D.mostFreqWordHeight
  figures : ∀ k, D.figures k = []
  seg : ∀ i < rows.length, (D.seg i).trimLeftX = 10 ∧ (D.seg i).trimRightX = T
  plain : ∀ row ∈ rows, D.matchesItemRegex (rowText row) = false
  breaks : ∀ (i : ℕ) (row next : List (List Char)), rows[i]? = some row → rows[i + 1]? = some next → Fits W row next → computeIsEmphasized D ['F'] 10 (rowText row) = false

variable {rows : List (List (List Char))} {W : ℕ} {T : ℚ} {D : Doc} {s : State}

/-- The links of the lines. -/
def PpLinked (n : ℕ) (s : State) : Prop := ∀ i < n, s.prevLine i = if 0 < i then some (i - 1) else none

theorem PpDoc.lineAt (h : PpDoc rows W T D) {i : ℕ} (hi : i < rows.length) : ∃ r row, row ∈ rows ∧ D.line i = ppLine (10 + 11 * i) r row := by
  obtain ⟨r, row, h1, h2⟩ := h.line i hi
  exact ⟨r, row, List.mem_of_getElem? h1, h2⟩

theorem PpDoc.pos (h : PpDoc rows W T D) {i : ℕ} {row : List (List Char)} (hi : rows[i]? = some row) : (D.line i).pos = ppSpan (10 + 11 * i) (rowEnd 10 row) := by
  obtain ⟨r, row', h1, h2⟩ := h.line i (List.getElem?_eq_some_iff.mp hi).1
  rw [hi] at h1
  cases h1
  rw [h2]
  rfl

theorem PpDoc.span (h : PpDoc rows W T D) {i : ℕ} (hi : i < rows.length) : ∃ R, 15 ≤ R ∧ R ≤ W ∧ (D.line i).pos = ppSpan (10 + 11 * i) R := by
  have e := List.getElem?_eq_getElem hi
  have hm := List.mem_of_getElem? e
  exact ⟨_, pp_rowEnd_gt (h.column.full _ hm) (h.column.letters _ hm), h.column.within _ hm, h.pos e⟩

theorem pp_gap (y W V : ℕ) : computeVerticalGap (ppSpan y W) (ppSpan (y + 11) V) = 1 := by
  have htol := pp_tol
  have h0 : smaller (ppSpan y W).upperY (ppSpan (y + 11) V).upperY tol = true := (pp_smaller_nat y (y + 11)).mpr (by omega)
  unfold computeVerticalGap
  rw [if_pos h0]
  simp only
  rw [if_neg (by show ¬((0 : ℤ) = 2 ∨ (0 : ℤ) = 3); decide)]
  show ((y + 11 : ℕ) : ℚ) - ((y + 10 : ℕ) : ℚ) = 1
  push_cast
  ring

theorem pp_round_one : roundTo 1 1 = 1 := by decide +kernel

theorem pp_preliminary (h : PpDoc rows W T D) (hs : PpLinked rows.length s) {i : ℕ} (hi : i < rows.length) (h0 : 0 < i) : startsPreliminaryBlock D s i = false := by
  have htol := pp_tol
  obtain ⟨k, rfl⟩ : ∃ k, i = k + 1 := ⟨i - 1, by omega⟩
  have hk : k < rows.length := by omega
  have hgap : computeVerticalGap (D.line k).pos (D.line (k + 1)).pos = 1 := by
    obtain ⟨R, _, _, hR⟩ := h.span hk
    obtain ⟨R', _, _, hR'⟩ := h.span hi
    rw [hR, hR']
    exact pp_gap _ _ _
  obtain ⟨r1, row1, _, e1⟩ := h.lineAt hk
  obtain ⟨r2, row2, _, e2⟩ := h.lineAt hi
  unfold startsPreliminaryBlock
  rw [hs (k + 1) hi, if_pos h0, Nat.add_sub_cancel]
  have a1 : existsPrevLine (some k) = .none := rfl
  have a2 : sameFigure D (D.line k) (D.line (k + 1)) = .none := by
    unfold sameFigure
    simp only [h.figures]
    rfl
  have a3 : rotationRule (D.line k) (D.line (k + 1)) = .none := by rw [e1, e2]; rfl
  have a4 : wModeRule (D.line k) (D.line (k + 1)) = .none := by rw [e1, e2]; rfl
  have a5 : fontSizeRule (D.line k) (D.line (k + 1)) = .none := by
    rw [e1, e2]
    unfold fontSizeRule
    rw [show equal (ppLine (10 + 11 * k) r1 row1).fontSize (ppLine (10 + 11 * (k + 1)) r2 row2).fontSize 1 = true by rw [equal_iff]; show |(10 : ℚ) - 10| ≤ 1; norm_num]
    rfl
  have a6 : lineDistanceRule D (D.line k) (D.line (k + 1)) = .none := by
    have hexp : 0 ≤ expectedLineDistance D (D.line (k + 1)) := by
      unfold expectedLineDistance
      simp only [maximum_eq_max]
      refine le_trans ?_ (le_max_left _ _)
      split
      · exact le_max_left _ _
      · exact le_rfl
    unfold lineDistanceRule
    simp only [hgap, pp_round_one]
    generalize expectedLineDistance D (D.line (k + 1)) = e at hexp
    have hm : (1 : ℚ) ≤ maximum 1 (1 / 10 * e) := by rw [maximum_eq_max]; exact le_max_left _ _
    rw [if_neg (by rw [eos_iff, htol]; norm_num), if_neg (by rw [larger_iff]; linarith)]
  have a7 : increasedLineDistance D ((s.prevLine k).map D.line) (D.line k) (D.line (k + 1)) = .none := by
    rw [hs k hk]
    by_cases hk0 : 0 < k
    · obtain ⟨j, rfl⟩ : ∃ j, k = j + 1 := ⟨k - 1, by omega⟩
      have hgap' : computeVerticalGap (D.line j).pos (D.line (j + 1)).pos = 1 := by
        obtain ⟨R, _, _, hR⟩ := h.span (show j < rows.length by omega)
        obtain ⟨R', _, _, hR'⟩ := h.span hk
        rw [hR, hR']
        exact pp_gap _ _ _
      rw [if_pos hk0, Nat.add_sub_cancel, Option.map_some]
      unfold increasedLineDistance
      simp only [hgap, hgap', pp_round_one]
      rw [if_neg]
      have := h.height
      rw [larger_iff]
      linarith
    · rw [if_neg hk0]; rfl
  simp only [a1, a2, a3, a4, a5, a6, a7]
  rfl

/-! ## The loop -/

theorem pp_blockLoop (hash : HashOrder) (D : Doc) (pre : State → ℕ → State) (starts : State → ℕ → Bool) (inv : State → Prop) (n : ℕ) (hpre : ∀ s, ∀ l < n, inv s → inv (pre s l)) (ls : List ℕ)
    (hlt : ∀ l ∈ ls, l < n) (hst : ∀ l ∈ ls, ∀ s, inv s → starts s l = false) : ∀ (cur : List ℕ) (s : State) (bs : List Block) (r : State × List Block), cur ≠ [] → inv s →
    blockLoop hash D pre starts ls cur s bs = .ok r → ∃ s', inv s' ∧ createTextBlock hash D s' (cur ++ ls) bs = .ok r := by
  induction ls with
  | nil =>
    intro cur s bs r hc hs h
    unfold blockLoop at h
    rw [if_neg (by simpa using hc)] at h
    exact ⟨s, hs, by rw [List.append_nil]; exact h⟩
  | cons l ls ih =>
    intro cur s bs r hc hs h
    have hs' := hpre s l (hlt l (by simp)) hs
    unfold blockLoop at h
    rw [if_neg (by rw [hst l (by simp) _ hs']; simp)] at h
    obtain ⟨s', i1, i2⟩ := ih (fun x hx => hlt x (by simp [hx])) (fun x hx => hst x (by simp [hx])) (cur ++ [l]) (pre s l) bs r (by simp) hs' h
    exact ⟨s', i1, by rw [List.append_assoc] at i2; exact i2⟩

theorem pp_blockLoop_range (hash : HashOrder) (D : Doc) (pre : State → ℕ → State) (starts : State → ℕ → Bool) (inv : State → Prop) {n : ℕ} (hn : 0 < n) (hpre : ∀ s, ∀ l < n, inv s → inv (pre s l))
    (hst : ∀ l < n, 0 < l → ∀ s, inv s → starts s l = false) {s : State} {bs : List Block} {r : State × List Block} (hs : inv s)
    (h : blockLoop hash D pre starts (List.range n) [] s bs = .ok r) : ∃ s', inv s' ∧ createTextBlock hash D s' (List.range n) bs = .ok r := by
  obtain ⟨m, rfl⟩ : ∃ m, n = m + 1 := ⟨n - 1, by omega⟩
  rw [List.range_succ_eq_map] at h ⊢
  unfold blockLoop at h
  rw [if_neg (by simp)] at h
  have := pp_blockLoop hash D pre starts inv (m + 1) hpre ((List.range m).map Nat.succ) (by simp) (by
    intro l hl s hs
    obtain ⟨k, hk, rfl⟩ := List.mem_map.mp hl
    exact hst _ (by have := List.mem_range.mp hk; omega) (by omega) s hs) [0] (pre s 0) bs r (by simp) (hpre s 0 (by omega) hs) h
  exact this

/-! ## Creating the block -/

theorem pp_linkBlock (m : ℕ) : ∀ (a : ℕ) (prev : Option ℕ) (s : State), ∀ i, (linkBlock prev (List.range' a m) s).prevLine i = if a ≤ i ∧ i < a + m then (if i = a then prev else some (i - 1)) else s.prevLine i := by
  induction m with
  | zero => intro a prev s i; rw [if_neg (by omega)]; rfl
  | succ m ih =>
    intro a prev s i
    rw [List.range'_succ, linkBlock, ih (a + 1) (some a)]
    by_cases h1 : a + 1 ≤ i ∧ i < a + 1 + m
    · rw [if_pos h1, if_pos (show a ≤ i ∧ i < a + (m + 1) by omega), if_neg (show ¬ i = a by omega)]
      by_cases h2 : i = a + 1
      · rw [if_pos h2, h2, Nat.add_sub_cancel]
      · rw [if_neg h2]
    · rw [if_neg h1]
      by_cases h2 : i = a
      · subst h2
        rw [if_pos (by omega), if_pos rfl]
        simp
      · rw [if_neg (by omega)]
        simp [Function.update_of_ne h2]

theorem pp_centeredLoop (D : Doc) (hw : 0 ≤ D.avgCharWidth) (ls : List Line) : ∀ (prev : Line) (k : ℕ), prev.pos.leftX = 10 → (∀ l ∈ ls, l.pos.leftX = 10) → centeredLoop D prev false k ls = false := by
  have htol := tol_pos
  induction ls with
  | nil => intro _ _ _ _; rfl
  | cons l ls ih =>
    intro prev k p1 h
    have l1 := h l (by simp)
    unfold centeredLoop
    by_cases hc : computeIsCentered D prev l = true
    · have hlarge : largeOffset D prev l = false := by
        unfold computeIsCentered computeLeftXOffset at hc
        split at hc
        · cases hc
        · rw [p1, l1, sub_self, abs_zero, equal_iff, zero_sub, abs_neg, abs_abs] at hc
          unfold largeOffset computeLeftXOffset
          rw [p1, l1, sub_self, abs_zero, (by rw [larger_false]; linarith : larger 0 (2 * D.avgCharWidth) tol = false), (by rw [larger_false]; linarith : larger |computeRightXOffset prev.pos l.pos| (2 * D.avgCharWidth) tol = false)]
          simp
      rw [hc, hlarge]
      rw [if_neg (by decide), if_neg (by decide)]
      exact ih l _ l1 fun q hq => h q (by simp [hq])
    · rw [if_pos (by rw [Bool.not_eq_true] at hc; rw [hc]; rfl)]

theorem pp_normSpan (y W : ℕ) (h : 10 ≤ W) : normBox (ppSpan y W) = ppSpan y W := by
  have h' : ((10 : ℕ) : ℚ) ≤ W := by exact_mod_cast h
  unfold normBox ppSpan
  simp only [minimum_eq_min, maximum_eq_max, Box.mk.injEq, true_and, and_true]
  refine ⟨min_eq_left h', min_eq_right ?_, max_eq_right h', max_eq_left ?_⟩ <;> exact_mod_cast Nat.le_add_right _ _

/-- A box that begins at the left margin and at a line. -/
structure PpBlockBox (W a : ℕ) (b : Box) : Prop where
  left : b.leftX = 10
  right : 15 ≤ b.rightX
  within : b.rightX ≤ W
  upper : b.upperY = ((10 + 11 * a : ℕ) : ℚ)
  lower : ((10 + 11 * a : ℕ) : ℚ) ≤ b.lowerY
  upright : b.rotation = 0

theorem pp_box_span {a i R : ℕ} {b : Box} (hb : PpBlockBox W a b) (hR : 15 ≤ R) (hW : R ≤ W) (hi : a ≤ i) : PpBlockBox W a (b.extend (normBox (ppSpan (10 + 11 * i) R))) := by
  obtain ⟨b1, b2, b3, b4, b5, b6⟩ := hb
  rw [pp_normSpan _ R (by omega)]
  unfold Box.extend ppSpan
  refine ⟨?_, ?_, ?_, ?_, ?_, b6⟩
  · simp only [minimum_eq_min, b1]; norm_num
  · simp only [maximum_eq_max]; exact le_max_of_le_left b2
  · simp only [maximum_eq_max]; exact max_le b3 (by exact_mod_cast hW)
  · simp only [minimum_eq_min, b4]
    exact min_eq_left (by exact_mod_cast (by omega : 10 + 11 * a ≤ 10 + 11 * i))
  · simp only [maximum_eq_max]; exact le_max_of_le_left b5

theorem pp_box_first {a R : ℕ} (b : Box) (h1 : b.leftX = dblMax) (h2 : b.rightX = dblMin) (h3 : b.upperY = dblMax) (h4 : b.rotation = 0) (hR : 15 ≤ R) (hW : R ≤ W) (hd : (W : ℚ) ≤ dblMax)
    (ha : ((10 + 11 * a : ℕ) : ℚ) ≤ dblMax) : PpBlockBox W a (b.extend (normBox (ppSpan (10 + 11 * a) R))) ∧ (b.extend (normBox (ppSpan (10 + 11 * a) R))).rightX = R := by
  have hr : max dblMin (R : ℚ) = R := max_eq_right (pp_dblMin_le (by omega))
  have hWQ : (R : ℚ) ≤ W := by exact_mod_cast hW
  have hRQ : (15 : ℚ) ≤ R := by exact_mod_cast hR
  rw [pp_normSpan _ R (by omega)]
  unfold Box.extend ppSpan
  refine ⟨⟨?_, ?_, ?_, ?_, ?_, h4⟩, ?_⟩
  · simp only [minimum_eq_min, h1]
    have h10 : ((10 : ℕ) : ℚ) ≤ dblMax := by push_cast; linarith
    rw [min_eq_right h10]; norm_num
  · simp only [maximum_eq_max, h2, hr]; exact hRQ
  · simp only [maximum_eq_max, h2, hr]; exact hWQ
  · simp only [minimum_eq_min, h3]; exact min_eq_right ha
  · simp only [maximum_eq_max]
    refine le_max_of_le_right ?_
    exact_mod_cast Nat.le_add_right _ _
  · simp only [maximum_eq_max, h2, hr]

theorem pp_box_spans {a : ℕ} (bs : List Box) : ∀ b, PpBlockBox W a b → (∀ e ∈ bs, ∃ i R, e = normBox (ppSpan (10 + 11 * i) R) ∧ 15 ≤ R ∧ R ≤ W ∧ a ≤ i) → PpBlockBox W a (Box.extendAll b bs) ∧ b.rightX ≤ (Box.extendAll b bs).rightX := by
  induction bs with
  | nil => intro b hb _; exact ⟨hb, le_rfl⟩
  | cons e bs ih =>
    intro b hb h
    obtain ⟨i, R, rfl, h1, h2, h3⟩ := h e (by simp)
    rw [Box.extendAll, List.foldl_cons]
    obtain ⟨i1, i2⟩ := ih _ (pp_box_span hb h1 h2 h3) fun e he => h e (by simp [he])
    refine ⟨i1, le_trans ?_ i2⟩
    unfold Box.extend
    simp only [maximum_eq_max]
    exact le_max_left _ _

/-- Lines from number `a` on that are not in a finished block. -/
structure PpOpen (rows : List (List (List Char))) (T : ℚ) (a : ℕ) (s : State) : Prop where
  linked : ∀ i, a ≤ i → i < rows.length → s.prevLine i = if 0 < i then some (i - 1) else none
  left : ∀ i, a ≤ i → i < rows.length → s.leftMargin i = 0
  right : ∀ (i : ℕ) (row : List (List Char)), a ≤ i → rows[i]? = some row → s.rightMargin i = T - ((rowEnd 10 row : ℕ) : ℚ)
  labels : [] ∉ s.labels

theorem pp_words_text (rows : List (List (List Char))) : ∀ r y, ((ppRows r y rows).map (·.text)) = rows.flatten := by
  induction rows with
  | nil => intro _ _; rfl
  | cons row rows ih => intro r y; rw [ppRows, List.map_append, ih, pp_row_texts, List.flatten_cons]

theorem pp_part {pre g post : List (List (List Char))} (hrows : rows = pre ++ g ++ post) {i : ℕ} (h1 : pre.length ≤ i) (h2 : i < pre.length + g.length) : rows[i]? = g[i - pre.length]? := by
  rw [hrows, List.append_assoc, List.getElem?_append_right h1, List.getElem?_append_left (by omega)]

theorem pp_line_texts (h : PpDoc rows W T D) {pre g post : List (List (List Char))} (hrows : rows = pre ++ g ++ post) :
    ((List.range' pre.length g.length).map D.line).flatMap (fun l => l.words.map (·.text)) = g.flatten := by
  have : ((List.range' pre.length g.length).map D.line).map (fun l => l.words.map (·.text)) = g := by
    refine List.ext_getElem (by simp) fun i h1 h2 => ?_
    have hlt : pre.length + i < rows.length := by rw [hrows]; simp only [List.length_append]; omega
    obtain ⟨r, row, e1, e2⟩ := h.line (pre.length + i) hlt
    rw [List.getElem_map, List.getElem_map, List.getElem_range', Nat.one_mul, e2]
    rw [pp_part hrows (by omega) (by omega), Nat.add_sub_cancel_left, List.getElem?_eq_getElem h2] at e1
    cases e1
    exact pp_row_texts _ _ _ _
  rw [List.flatMap_def, this]

/-- The block of some rows. -/
structure PpBlock (W : ℕ) (x : ℕ × List (List (List Char))) (b : Block) : Prop where
  lines : b.lines = List.range' x.1 x.2.length
  text : b.text = rowText x.2.flatten
  box : PpBlockBox W x.1 b.pos
  font : x.2.length < 2 ^ 32 → b.fontName = ['F'] ∧ b.fontSize = 10
  page : b.pos.pageNum = 1

theorem pp_extendAll_page (bs : List Box) : ∀ b : Box, (Box.extendAll b bs).pageNum = b.pageNum := by
  induction bs with
  | nil => intro b; rfl
  | cons c bs ih =>
    intro b
    rw [Box.extendAll, List.foldl_cons]
    exact ih (b.extend c)

theorem pp_createBlock (hash : HashOrder) (h : PpDoc rows W T D) {pre g post : List (List (List Char))} (hrows : rows = pre ++ g ++ post) (hg : g ≠ []) {bs : List Block} {r : State × List Block}
    (hr : createTextBlock hash D s (List.range' pre.length g.length) bs = .ok r) :
    ∃ b, r.2 = setLastNext bs.length bs ++ [b] ∧ PpBlock W (pre.length, g) b ∧ r.1.labels = s.labels ∧
      (∀ i, pre.length + g.length ≤ i → r.1.prevLine i = s.prevLine i ∧ r.1.leftMargin i = s.leftMargin i ∧ r.1.rightMargin i = s.rightMargin i) ∧
      (pre = [] → post = [] → bs = [] → b.isLinesCentered = false ∧ b.hangingIndent = 0 ∧ ([] ∉ s.labels → PpOpen rows T 0 r.1)) := by
  have hlen : rows.length = pre.length + g.length + post.length := by rw [hrows, List.length_append, List.length_append]
  have hn : 0 < g.length := List.length_pos_iff.mpr hg
  obtain ⟨m, hm⟩ : ∃ m, g.length = m + 1 := ⟨g.length - 1, by omega⟩
  have hmem : ∀ i ∈ List.range' pre.length g.length, pre.length ≤ i ∧ i < pre.length + g.length := by
    intro i hi
    rw [List.mem_range'_1] at hi
    exact hi
  have hlines : ∀ l ∈ (List.range' pre.length g.length).map D.line, (∃ i R, l.pos = ppSpan (10 + 11 * i) R ∧ 15 ≤ R ∧ R ≤ W ∧ pre.length ≤ i) ∧ l.words ≠ [] := by
    intro l hl
    obtain ⟨i, hi, rfl⟩ := List.mem_map.mp hl
    obtain ⟨hi1, hi2⟩ := hmem i hi
    have hi3 : i < rows.length := by omega
    obtain ⟨R, h1, h2, h3⟩ := h.span hi3
    refine ⟨⟨i, R, h3, h1, h2, hi1⟩, ?_⟩
    obtain ⟨r, row, e1, e2⟩ := h.lineAt hi3
    rw [e2]
    cases row with
    | nil => exact absurd rfl (h.column.full [] e1)
    | cons t row => simp [ppLine, ppRow]
  have htext : blockText ((List.range' pre.length g.length).map D.line) = rowText g.flatten := by
    rw [blockText_eq _ fun l hl => (hlines l hl).2]
    unfold rowText
    rw [List.map_flatMap, pp_line_texts h hrows]
  have hcent : computeIsTextLinesCentered D ((List.range' pre.length g.length).map D.line) = false := by
    have hwide : ∀ l ∈ (List.range' pre.length g.length).map D.line, l.pos.leftX = 10 := by
      intro l hl
      obtain ⟨⟨i, R, hy, _⟩, _⟩ := hlines l hl
      rw [hy]
      show ((10 : ℕ) : ℚ) = 10
      norm_num
    generalize (List.range' pre.length g.length).map D.line = ls at hwide
    cases ls with
    | nil => rfl
    | cons l ls => exact pp_centeredLoop D (by rw [h.width]; norm_num) ls l 0 (hwide l (by simp)) fun q hq => hwide q (by simp [hq])
  obtain ⟨R0, hR1, hR2, hR3⟩ := h.span (show pre.length < rows.length by omega)
  have hbox : ∀ b : Box, b.leftX = dblMax → b.rightX = dblMin → b.upperY = dblMax → b.rotation = 0 →
      PpBlockBox W pre.length (Box.extendAll b (((List.range' pre.length g.length).map D.line).map fun l => normBox l.pos)) ∧
      (R0 : ℚ) ≤ (Box.extendAll b (((List.range' pre.length g.length).map D.line).map fun l => normBox l.pos)).rightX := by
    intro b b1 b2 b3 b4
    have hall : ∀ e ∈ ((List.range' pre.length g.length).map D.line).map (fun l => normBox l.pos), ∃ i R, e = normBox (ppSpan (10 + 11 * i) R) ∧ 15 ≤ R ∧ R ≤ W ∧ pre.length ≤ i := by
      intro e he
      obtain ⟨l, hl, rfl⟩ := List.mem_map.mp he
      obtain ⟨⟨i, R, hy, h2⟩, _⟩ := hlines l hl
      exact ⟨i, R, by rw [hy], h2⟩
    rw [hm, List.range'_succ] at hall ⊢
    simp only [List.map_cons] at hall ⊢
    rw [hR3, Box.extendAll, List.foldl_cons]
    have hd : ((10 + 11 * pre.length : ℕ) : ℚ) ≤ dblMax := by
      refine le_trans ?_ (h.high pre.length (by omega))
      exact_mod_cast Nat.le_add_right _ _
    obtain ⟨f1, f2⟩ := pp_box_first b b1 b2 b3 b4 hR1 hR2 h.onPage hd
    obtain ⟨g1, g2⟩ := pp_box_spans _ _ f1 fun e he => hall e (List.mem_cons_of_mem _ he)
    rw [f2] at g2
    exact ⟨g1, g2⟩
  obtain ⟨t1, t2⟩ := h.seg pre.length (by omega)
  have hr' := hr
  rw [hm, List.range'_succ] at hr'
  unfold createTextBlock at hr'
  simp only at hr'
  rw [← List.range'_succ, ← hm, htext, hcent] at hr'
  have hpage := pp_extendAll_page (((List.range' pre.length g.length).map D.line).map fun l => normBox l.pos) { pageNum := (D.line pre.length).pos.pageNum, wMode := (D.line pre.length).pos.wMode, rotation := (D.line pre.length).pos.rotation }
  have hb := hbox { pageNum := (D.line pre.length).pos.pageNum, wMode := (D.line pre.length).pos.wMode, rotation := (D.line pre.length).pos.rotation } rfl rfl rfl (by rw [hR3]; rfl)
  generalize Box.extendAll { pageNum := (D.line pre.length).pos.pageNum, wMode := (D.line pre.length).pos.wMode, rotation := (D.line pre.length).pos.rotation } (((List.range' pre.length g.length).map D.line).map fun l => normBox l.pos) = B at hb hr' hpage
  replace hpage : B.pageNum = 1 := by rw [hpage, hR3]; rfl
  obtain ⟨hb, hbR⟩ := hb
  obtain ⟨fn, hfn, hr'⟩ := wi_bind hr'
  have hfont : g.length < 2 ^ 32 → fn = ['F'] := by
    intro hlt
    have := pp_mostFreqOr hash ([] : Text.Str) [] ['F'] (xs := ((List.range' pre.length g.length).map D.line).map (·.fontName)) (by
      intro h0
      have := congrArg List.length h0
      simp only [List.length_map, List.length_range', List.length_nil] at this
      omega) (by simpa using hlt) (by
      intro x hx
      rw [List.map_map] at hx
      obtain ⟨i, hi, rfl⟩ := List.mem_map.mp hx
      obtain ⟨r, row, e1, e2⟩ := h.lineAt (show i < rows.length by have := hmem i hi; omega)
      rw [Function.comp_apply, e2]
      rfl)
    rw [this] at hfn
    exact (Outcome.ok.inj hfn).symm
  obtain ⟨fs, hfs, hr'⟩ := wi_bind hr'
  have hsize : g.length < 2 ^ 32 → fs = 10 := by
    intro hlt
    have := pp_mostFreqOr hash (0 : ℚ) (-1) 10 (xs := ((List.range' pre.length g.length).map D.line).map (·.fontSize)) (by
      intro h0
      have := congrArg List.length h0
      simp only [List.length_map, List.length_range', List.length_nil] at this
      omega) (by simpa using hlt) (by
      intro x hx
      rw [List.map_map] at hx
      obtain ⟨i, hi, rfl⟩ := List.mem_map.mp hx
      obtain ⟨r, row, e1, e2⟩ := h.lineAt (show i < rows.length by have := hmem i hi; omega)
      rw [Function.comp_apply, e2]
      rfl)
    rw [this] at hfs
    exact (Outcome.ok.inj hfs).symm
  obtain ⟨hi, hhi, hr'⟩ := wi_bind hr'
  have hr' := wi_ok hr'
  have hl0 : maximum B.leftX (D.seg pre.length).trimLeftX = 10 := by rw [hb.left, t1, maximum_eq_max, max_self]
  rw [hl0] at hr' hhi
  have hlink : ∀ i, (linkBlock none (List.range' pre.length g.length) s).prevLine i = if pre.length ≤ i ∧ i < pre.length + g.length then (if i = pre.length then none else some (i - 1)) else s.prevLine i := pp_linkBlock _ _ _ _
  subst hr'
  refine ⟨_, rfl, ⟨rfl, rfl, hb, fun hlt => ⟨hfont hlt, hsize hlt⟩, hpage⟩, (linkBlock_agree _ _ _).2.1, ?_, ?_⟩
  · intro i hi'
    have hni : i ∉ List.range' pre.length g.length := fun hi => by have := hmem i hi; omega
    refine ⟨?_, ?_, ?_⟩
    · show (linkBlock none (List.range' pre.length g.length) s).prevLine i = _
      rw [hlink, if_neg (by omega)]
    · unfold computeTextLineMargins
      simp only
      rw [if_neg hni, (linkBlock_agree _ _ _).2.2.1]
    · unfold computeTextLineMargins
      simp only
      rw [if_neg hni, (linkBlock_agree _ _ _).2.2.2]
  · rintro rfl rfl rfl
    rw [List.append_nil, List.nil_append] at hrows
    subst hrows
    have hT : T ≤ W := by rcases h.trim with e | ⟨_, e⟩ <;> [exact e.le; exact e]
    have hR0 : (R0 : ℚ) = W := by
      have e := List.getElem?_eq_getElem hn
      have := h.pos e
      simp only [List.length_nil] at hR3
      rw [hR3] at this
      have h2 := congrArg Box.rightX this
      simp only [ppSpan] at h2
      rw [h2]
      rw [h.column.first _ (by rw [List.head?_eq_getElem?, e]; rfl)]
    have hr0 : minimum B.rightX (D.seg ([] : List (List (List Char))).length).trimRightX = T := by
      rw [t2, minimum_eq_min]
      exact min_eq_right (by linarith)
    have hmargin : ∀ b : Block, b.trimRightX = T → marginRightX D (D.seg ([] : List (List (List Char))).length) b ([] : List Block).getLast? = T := by
      intro b hbt
      unfold marginRightX
      simp only [List.getLast?_nil]
      rw [hbt, ite_self, ite_self]
    rw [hr0] at hhi ⊢
    rw [hmargin _ rfl] at hhi ⊢
    have hin : ∀ i, i < rows.length → i ∈ List.range' ([] : List (List (List Char))).length rows.length := by
      intro i hi
      rw [List.mem_range'_1]
      exact ⟨Nat.zero_le _, by simpa using hi⟩
    have hleft : ∀ i < rows.length, (computeTextLineMargins D (linkBlock none (List.range' ([] : List (List (List Char))).length rows.length) s) 10 T (List.range' ([] : List (List (List Char))).length rows.length)).leftMargin i = 0 := by
      intro i hi
      obtain ⟨R, _, _, hR⟩ := h.span hi
      unfold computeTextLineMargins
      simp only
      rw [if_pos (hin i hi), hR]
      show ((10 : ℕ) : ℚ) - 10 = 0
      norm_num
    have hright : ∀ (i : ℕ) (row : List (List Char)), rows[i]? = some row → (computeTextLineMargins D (linkBlock none (List.range' ([] : List (List (List Char))).length rows.length) s) 10 T (List.range' ([] : List (List (List Char))).length rows.length)).rightMargin i = T - ((rowEnd 10 row : ℕ) : ℚ) := by
      intro i row hi
      unfold computeTextLineMargins
      simp only
      rw [if_pos (hin i (List.getElem?_eq_some_iff.mp hi).1), h.pos hi]
      rfl
    have hi0 : hi = 0 := by
      unfold computeHangingIndent at hhi
      simp only at hhi
      rw [List.filter_eq_nil_iff.mpr] at hhi
      swap
      · intro i hi
        rw [hleft i (by have := hmem i hi; simpa using this), h.width, eol_iff, pp_tol]
        norm_num
      have hsum : ¬ sumCounts (hash.order ℚ (countAll (List.map (computeTextLineMargins D (linkBlock none (List.range' ([] : List (List (List Char))).length rows.length) s) 10 T (List.range' ([] : List (List (List Char))).length rows.length)).leftMargin []))) > 0 := by
        rw [List.map_nil, c07_sumCounts [] _ (hash.perm ℚ _)]
        decide
      rw [if_neg hsum] at hhi
      simp only [Outcome.bind] at hhi
      rw [if_pos (by rw [eos_iff, pp_tol]; norm_num)] at hhi
      exact wi_ok hhi
    refine ⟨rfl, hi0, fun hlab => ⟨?_, fun i _ hi => hleft i hi, fun i row _ hi => hright i row hi, ?_⟩⟩
    · intro i _ hi
      show (linkBlock none (List.range' ([] : List (List (List Char))).length rows.length) s).prevLine i = _
      rw [hlink, if_pos (by simpa using hi)]
      by_cases h0 : i = 0
      · subst h0; rfl
      · rw [if_neg (by simpa using h0), if_pos (by omega)]
    · show [] ∉ (linkBlock none _ s).labels
      rw [(linkBlock_agree _ _ _).2.1]
      exact hlab

/-! ## The second pass -/

theorem pp_insertLabel {labels : List Text.Str} (h : [] ∉ labels) (l : Text.Str) : [] ∉ insertLabel labels l := by
  unfold insertLabel
  split
  · exact h
  · next hl => exact fun hm => (List.mem_cons.mp hm).elim (fun e => hl (by rw [← e]; rfl)) h

theorem pp_labelLoop (cs : List Glyph) : ∀ (seen : Bool) (l : Text.Str) (labels : List Text.Str), [] ∉ labels → [] ∉ labelLoop seen l labels cs := by
  induction cs with
  | nil => intro seen l labels h; exact pp_insertLabel h l
  | cons c cs ih =>
    intro seen l labels h
    unfold labelLoop
    split
    · exact ih _ _ _ h
    · split
      · exact ih _ _ _ h
      · split
        · exact ih _ _ _ h
        · split
          · exact ih _ _ _ h
          · exact ih _ _ _ (pp_insertLabel h l)

theorem pp_labels (ws : List Word) : ∀ (labels : List Text.Str), [] ∉ labels → [] ∉ computePotentialFootnoteLabels ws labels := by
  induction ws with
  | nil => intro labels h; exact h
  | cons w ws ih =>
    intro labels h
    unfold computePotentialFootnoteLabels
    rw [List.foldl_cons]
    exact ih _ (pp_labelLoop _ _ _ _ h)

theorem pp_noItem (h : PpDoc rows W T D) (i : ℕ) : computeIsPrefixedByItemLabel D i = false := by
  unfold computeIsPrefixedByItemLabel
  by_cases hi : i < rows.length
  · obtain ⟨r, row, e1, e2⟩ := h.lineAt hi
    have hre := h.plain row e1
    rw [e2]
    cases row with
    | nil => rfl
    | cons t row =>
      cases t with
      | nil => rfl
      | cons c t =>
        show (false && _ || D.matchesItemRegex (rowText ((c :: t) :: row))) = false
        rw [hre]
        rfl
  · rw [h.out i (by omega)]

theorem pp_noFootnote (h : PpDoc rows W T D) (i : ℕ) {labels : List Text.Str} (hl : [] ∉ labels) : computeIsPrefixedByFootnoteLabel D i (some labels) = false := by
  unfold computeIsPrefixedByFootnoteLabel
  by_cases hi : i < rows.length
  · obtain ⟨r, row, e1, e2⟩ := h.lineAt hi
    rw [e2]
    have hp : ∀ w ∈ (ppLine (10 + 11 * i) r row).words, superScriptPrefix w = [] := by
      intro w hw
      unfold superScriptPrefix
      have hc := pp_row_words w hw
      cases hcs : w.chars with
      | nil => rfl
      | cons c cs =>
        rw [List.takeWhile_cons, (hc c (by rw [hcs]; simp)).2.2.2.1]
        rfl
    cases hws : (ppLine (10 + 11 * i) r row).words with
    | nil => rfl
    | cons w ws =>
      show labels.contains (superScriptPrefix w) = false
      rw [hp w (by rw [hws]; simp)]
      simpa using hl
  · rw [h.out i (by omega)]

theorem pp_noFirst (h : PpDoc rows W T D) (i : ℕ) {labels : List Text.Str} (hl : [] ∉ labels) : computeIsFirstLineOfItem D s i (some labels) = false := by
  unfold computeIsFirstLineOfItem
  rw [pp_noItem h, pp_noFootnote h i hl]
  split <;> rfl

theorem pp_noContinuation (h : PpDoc rows W T D) {labels : List Text.Str} (hl : [] ∉ labels) (fuel : ℕ) : ∀ i, continuationLoop D s (some labels) fuel i = false := by
  induction fuel with
  | zero => intro i; rfl
  | succ fuel ih =>
    intro i
    unfold continuationLoop
    cases (D.link i).parent with
    | none => rfl
    | some p =>
      simp only
      rw [pp_noFirst h p hl, ih p]
      rfl

theorem pp_capacity (h : PpDoc rows W T D) {a i : ℕ} (hs : PpOpen rows T a s) {row next : List (List Char)} (h1 : rows[i]? = some row) (h2 : rows[i + 1]? = some next) (ha : a ≤ i) :
    computeHasPrevLineCapacity D s (some i) (i + 1) = decide (Fits W row next) := by
  have hi := (List.getElem?_eq_some_iff.mp h2).1
  obtain ⟨r, row', e1, e2⟩ := h.line (i + 1) hi
  rw [h2] at e1
  cases e1
  unfold computeHasPrevLineCapacity
  rw [e2]
  cases next with
  | nil => exact absurd rfl (h.column.full [] (List.mem_of_getElem? h2))
  | cons t next =>
    show larger (s.rightMargin i) (ppWord r 10 (10 + 11 * (i + 1)) t).pos.getWidth (2 * D.avgCharWidth) = _
    rw [hs.right i row ha h1, h.width, show (ppWord r 10 (10 + 11 * (i + 1)) t).pos.getWidth = ((10 + 5 * t.length : ℕ) : ℚ) - ((10 : ℕ) : ℚ) from rfl]
    rw [Bool.eq_iff_iff, larger_iff, decide_eq_true_iff]
    unfold Fits
    rw [List.headD_cons]
    have hcast : rowEnd 10 row + 5 * t.length + 10 < W ↔ ((rowEnd 10 row : ℕ) : ℚ) + 5 * t.length + 10 < W := by
      rw [← Nat.cast_lt (α := ℚ)]
      push_cast
      rfl
    rw [hcast]
    push_cast
    rcases h.trim with e | ⟨e, hT⟩
    · subst e
      constructor <;> intro hh <;> linarith
    · have hi0 : i = 0 := by omega
      subst hi0
      have hW : rowEnd 10 row = W := h.column.first row (by rw [List.head?_eq_getElem?, h1]; rfl)
      rw [hW]
      have : (0 : ℚ) ≤ t.length := by positivity
      constructor <;> intro hh <;> linarith

theorem pp_emphasized (h : PpDoc rows W T D) {i : ℕ} {row next : List (List Char)} (h1 : rows[i]? = some row) (h2 : rows[i + 1]? = some next) (hf : Fits W row next) :
    emphasizedRule D (D.line i) (D.line (i + 1)) = .none := by
  obtain ⟨r, row', e1, e2⟩ := h.line i (List.getElem?_eq_some_iff.mp h1).1
  rw [h1] at e1
  cases e1
  unfold emphasizedRule
  rw [e2]
  have : computeIsEmphasized D (ppLine (10 + 11 * i) r row).fontName (ppLine (10 + 11 * i) r row).fontSize (ppLine (10 + 11 * i) r row).text = false := h.breaks i row next h1 h2 hf
  rw [this]
  rfl

theorem pp_start (h : PpDoc rows W T D) {a i : ℕ} (hs : PpOpen rows T a s) {row next : List (List Char)} (h1 : rows[i]? = some row) (h2 : rows[i + 1]? = some next) (ha : a ≤ i) :
    startsBlock D false 0 s (i + 1) = decide (Fits W row next) := by
  have htol := pp_tol
  have hi := (List.getElem?_eq_some_iff.mp h2).1
  have hcap := pp_capacity h hs h1 h2 ha
  unfold startsBlock
  rw [hs.linked (i + 1) (by omega) hi, if_pos (by omega), Nat.add_sub_cancel]
  have a1 : existsPrevLine (some i) = .none := rfl
  have a2 : centeredRule D s false (i + 1) = .none := rfl
  have a3 : itemRule D s false i (i + 1) = .none := by
    unfold itemRule computeIsContinuationOfItem
    simp only [pp_noFirst h _ hs.labels, pp_noContinuation h hs.labels]
    rfl
  have a5 : hangingIndentRule D s 0 i (i + 1) = .none := by
    unfold hangingIndentRule
    simp only
    rw [if_pos (by rw [eos_iff, htol]; norm_num)]
  have a6 : indentRule D s i (i + 1) = if Fits W row next then .true else .none := by
    unfold indentRule
    simp only
    rw [hs.left (i + 1) (by omega) hi, hs.left i ha (by omega), h.width, hcap]
    rw [if_neg (by rw [larger_iff, htol]; norm_num), if_neg (by rw [larger_iff, htol]; norm_num), if_neg (by decide +kernel)]
    simp
  simp only [a1, a2, a3, a5, a6]
  by_cases hf : Fits W row next
  · rw [pp_emphasized h h1 h2 hf, if_pos hf]
    simp [hf, decideChain]
  · rw [if_neg hf]
    unfold emphasizedRule
    split <;> simp [hf, decideChain]

/-- The rows of the blocks, with the number of the first row; `cur` are the rows of the current block. -/
def ppGroups (W : ℕ) : ℕ → List (List (List Char)) → List (List (List Char)) → List (ℕ × List (List (List Char)))
  | a, cur, [] => [(a, cur)]
  | a, cur, q :: rest => if Fits W (cur.getLastD []) q then (a, cur) :: ppGroups W (a + cur.length) [q] rest else ppGroups W a (cur ++ [q]) rest

theorem pp_setLastNext {xs : List (ℕ × List (List (List Char)))} {bs : List Block} (k : ℕ) (h : List.Forall₂ (PpBlock W) xs bs) : List.Forall₂ (PpBlock W) xs (setLastNext k bs) := by
  induction h with
  | nil => exact .nil
  | @cons x b xs bs hb hbs ih =>
    cases bs with
    | nil =>
      cases hbs
      exact .cons ⟨hb.lines, hb.text, hb.box, hb.font, hb.page⟩ .nil
    | cons b' bs => exact .cons hb ih

theorem pp_splitLoop (hash : HashOrder) (h : PpDoc rows W T D) (rest : List (List (List Char))) : ∀ (pre cur : List (List (List Char))) (s : State) (bs : List Block) (r : State × List Block) (xs : List (ℕ × List (List (List Char)))),
    rows = pre ++ cur ++ rest → cur ≠ [] → PpOpen rows T pre.length s → List.Forall₂ (PpBlock W) xs bs →
    blockLoop hash D (fun s i => { s with labels := computePotentialFootnoteLabels (D.line i).words s.labels }) (startsBlock D false 0)
      (List.range' (pre.length + cur.length) rest.length) (List.range' pre.length cur.length) s bs = .ok r →
    List.Forall₂ (PpBlock W) (xs ++ ppGroups W pre.length cur rest) r.2 := by
  induction rest with
  | nil =>
    intro pre cur s bs r xs hrows hc hs hbs hr
    have hlen : 0 < cur.length := List.length_pos_iff.mpr hc
    unfold blockLoop at hr
    rw [List.length_nil] at hr
    simp only [List.range'_zero] at hr
    rw [if_neg (by rw [List.isEmpty_iff, List.range'_eq_nil_iff]; omega)] at hr
    obtain ⟨b, b1, b2, _⟩ := pp_createBlock hash h hrows hc hr
    rw [b1]
    exact List.rel_append (pp_setLastNext _ hbs) (.cons b2 .nil)
  | cons q rest ih =>
    intro pre cur s bs r xs hrows hc hs hbs hr
    have hlen : 0 < cur.length := List.length_pos_iff.mpr hc
    obtain ⟨c, z, rfl⟩ : ∃ c z, cur = c ++ [z] := by
      obtain ⟨c, z, e⟩ := List.eq_nil_or_concat cur |>.resolve_left hc
      exact ⟨c, z, by rw [e, List.concat_eq_append]⟩
    have hz : rows[pre.length + c.length]? = some z := by
      rw [hrows, List.append_assoc, List.getElem?_append_right (by omega), Nat.add_sub_cancel_left, List.append_assoc, List.getElem?_append_right (le_refl _), Nat.sub_self]
      rfl
    have hq : rows[pre.length + c.length + 1]? = some q := by
      rw [hrows, List.getElem?_append_right (by simp; omega)]
      rw [show pre.length + c.length + 1 - (pre ++ (c ++ [z])).length = 0 by simp; omega]
      rfl
    have hs' : PpOpen rows T pre.length { s with labels := computePotentialFootnoteLabels (D.line (pre.length + (c ++ [z]).length)).words s.labels } :=
      ⟨hs.linked, hs.left, hs.right, pp_labels _ _ hs.labels⟩
    rw [List.length_cons, List.range'_succ] at hr
    unfold blockLoop at hr
    have hl : pre.length + (c ++ [z]).length = pre.length + c.length + 1 := by rw [List.length_append]; rfl
    have hst : startsBlock D false 0 { s with labels := computePotentialFootnoteLabels (D.line (pre.length + (c ++ [z]).length)).words s.labels } (pre.length + (c ++ [z]).length) = decide (Fits W z q) := by
      rw [hl]
      rw [hl] at hs'
      exact pp_start h hs' hz hq (by omega)
    have hcne : (List.range' pre.length (c ++ [z]).length).isEmpty = false := by
      rw [Bool.eq_false_iff, Ne, List.isEmpty_iff, List.range'_eq_nil_iff]; omega
    simp only [hst, hcne] at hr
    rw [ppGroups, List.getLastD_concat]
    by_cases hf : Fits W z q
    · rw [if_pos (by simp [hf])] at hr
      rw [if_pos hf]
      obtain ⟨⟨s1, bs1⟩, hr1, hr2⟩ := wi_bind hr
      have hrows' : rows = pre ++ (c ++ [z]) ++ (q :: rest) := hrows
      obtain ⟨b, b1, b2, b3, b4, _⟩ := pp_createBlock hash h hrows' hc hr1
      simp only at b1 b3 b4 hr2
      subst b1
      have hopen : PpOpen rows T (pre ++ (c ++ [z])).length s1 := by
        rw [List.length_append]
        refine ⟨fun i hi hi' => ?_, fun i hi hi' => ?_, fun i row hi hi' => ?_, ?_⟩
        · rw [(b4 i hi).1]; exact hs'.linked i (by omega) hi'
        · rw [(b4 i hi).2.1]; exact hs'.left i (by omega) hi'
        · rw [(b4 i hi).2.2]; exact hs'.right i row (by omega) hi'
        · rw [b3]; exact hs'.labels
      have := ih (pre ++ (c ++ [z])) [q] s1 (setLastNext bs.length bs ++ [b]) r (xs ++ [(pre.length, c ++ [z])]) (by rw [hrows]; simp) (by simp) hopen
        (List.rel_append (pp_setLastNext _ hbs) (.cons b2 .nil)) (by
          rw [List.length_append, List.length_singleton]
          exact hr2)
      rw [List.append_assoc, List.length_append] at this
      exact this
    · rw [if_neg (by simp [hf])] at hr
      rw [if_neg hf]
      refine ih pre (c ++ [z] ++ [q]) _ bs r xs (by rw [hrows]; simp) (by simp) hs' hbs ?_
      rw [List.length_append (bs := [q]), List.length_singleton, List.range'_concat, Nat.one_mul, ← Nat.add_assoc]
      exact hr

/-- The blocks. -/
theorem pp_process (hash : HashOrder) (h : PpDoc rows W T D) {row0 : List (List Char)} {rest : List (List (List Char))} (hrows : rows = row0 :: rest) (hl : PpLinked rows.length s) (hlab : s.labels = [])
    {st : State} {bss : List (List Block)} (hr : TextBlocks.process hash D s [[List.range rows.length]] = .ok (st, bss)) :
    ∃ bs, bss = [bs] ∧ List.Forall₂ (PpBlock W) (ppGroups W 0 [row0] rest) bs := by
  have hn : 0 < rows.length := by rw [hrows]; simp
  unfold TextBlocks.process at hr
  obtain ⟨⟨s1, ps1⟩, h1, h2⟩ := wi_bind hr
  rw [pass1] at h1
  obtain ⟨⟨s2, ps2⟩, h3, h1⟩ := wi_bind h1
  rw [pass1] at h1
  have h1 := wi_ok h1
  simp only [Prod.mk.injEq] at h1
  obtain ⟨rfl, rfl⟩ := h1
  rw [pass1Page] at h3
  obtain ⟨⟨s3, ps3⟩, h4, h3⟩ := wi_bind h3
  rw [pass1Page] at h3
  have h3 := wi_ok h3
  simp only [Prod.mk.injEq] at h3
  obtain ⟨rfl, rfl⟩ := h3
  unfold preliminaryBlocks at h4
  obtain ⟨s', hs', h5⟩ := pp_blockLoop_range hash D _ _ (fun q => q = s) hn (fun q l _ hq => hq) (fun l hl' h0 q hq => by rw [hq]; exact pp_preliminary h hl hl' h0) rfl h4
  subst hs'
  rw [List.range_eq_range'] at h5
  obtain ⟨b, b1, b2, b3, b4, b5⟩ := pp_createBlock hash h (pre := []) (g := rows) (post := []) (by simp) (by rw [hrows]; simp) h5
  obtain ⟨b6, b7, b8⟩ := b5 rfl rfl rfl
  have b9 := b8 (by rw [hlab]; simp)
  clear b8
  simp only [setLastNext, List.nil_append] at b1
  subst b1
  simp only at h2
  rw [pass2] at h2
  obtain ⟨⟨s6, bs6⟩, h6, h2⟩ := wi_bind h2
  rw [pass2] at h2
  have h2 := wi_ok h2
  simp only [Prod.mk.injEq] at h2
  obtain ⟨_, rfl⟩ := h2
  rw [show [[b]].flatten = [b] from rfl, pass2Page] at h6
  obtain ⟨⟨s7, bs7⟩, h7, h6⟩ := wi_bind h6
  rw [pass2Page] at h6
  have h6 := wi_ok h6
  simp only [Prod.mk.injEq] at h6
  obtain ⟨_, rfl⟩ := h6
  unfold splitBlock at h7
  have hb : b.lines = List.range' 0 rows.length := b2.lines
  rw [hb, b6, b7] at h7
  have hlen : rows.length = rest.length + 1 := by rw [hrows, List.length_cons]
  rw [hlen, List.range'_succ] at h7
  unfold blockLoop at h7
  rw [if_neg (by simp)] at h7
  refine ⟨_, rfl, ?_⟩
  have hopen : PpOpen rows T 0 { s1 with labels := computePotentialFootnoteLabels (D.line 0).words s1.labels } := ⟨b9.linked, b9.left, b9.right, pp_labels _ _ b9.labels⟩
  have := pp_splitLoop hash h rest [] [row0] _ [] _ [] (by rw [hrows]; rfl) (by simp) hopen .nil h7
  simpa using this

end

end Verif.Props
