import Verif.Model.Roles
import Verif.Spec.Roles
import Mathlib.Tactic.Linarith
import Mathlib.Tactic.Positivity
import Mathlib.Tactic.FieldSimp

/-!
# C41, C59: role prediction and its input
-/

namespace Verif.Props

open Verif.Roles Verif.Spec
open Verif.ReadingOrder (Role)

theorem argmaxLoop_spec (data : List (Option ℚ)) (off : ℕ) (row : List ℚ)
    (hdata : ∀ (j : ℕ) (x : ℚ), row[j]? = some x → data[off + j]? = some (some x)) :
    ∀ (k roleNum : ℕ) (mx : ℚ) (best : ℕ), roleNum + k = row.length →
      (0 < roleNum → row[best]? = some mx) → (roleNum = 0 → best = 0 ∧ mx = 0) →
      (∀ x ∈ row, 0 ≤ x) →
      (∀ j < roleNum, ∀ x, row[j]? = some x → x ≤ mx) →
      (∀ j < best, ∀ x, row[j]? = some x → x < mx) → best ≤ roleNum → 0 < row.length →
      ∃ r, argmaxLoop data off k roleNum mx best = .ok r ∧ IsFirstMax row r := by
  intro k
  induction k with
  | zero =>
    intro roleNum mx best hk hb h0 hnn hle hlt hbr hpos
    refine ⟨best, rfl, mx, hb (by omega), ?_, hlt⟩
    intro x hx
    obtain ⟨j, hj⟩ := List.mem_iff_getElem?.mp hx
    have : j < row.length := by
      by_contra hc
      rw [List.getElem?_eq_none (by omega)] at hj; cases hj
    exact hle j (by omega) x hj
  | succ k ih =>
    intro roleNum mx best hk hb h0 hnn hle hlt hbr hpos
    have hlr : roleNum < row.length := by omega
    have hx : row[roleNum]? = some (row[roleNum]) := List.getElem?_eq_getElem hlr
    unfold argmaxLoop
    rw [hdata roleNum _ hx]
    show ∃ r, (if greater (some row[roleNum]) mx = true then
      argmaxLoop data off k (roleNum + 1) row[roleNum] roleNum
      else argmaxLoop data off k (roleNum + 1) mx best) = .ok r ∧ IsFirstMax row r
    have hge : 0 ≤ row[roleNum] := hnn _ (List.getElem_mem hlr)
    by_cases hgt : row[roleNum] > mx
    · rw [if_pos (show greater (some row[roleNum]) mx = true from decide_eq_true hgt)]
      refine ih (roleNum + 1) _ roleNum (by omega) (fun _ => hx) (by omega) hnn ?_ ?_ (by omega) hpos
      · intro j hj x hjx
        rcases Nat.lt_succ_iff_lt_or_eq.mp hj with hj | rfl
        · exact le_of_lt (lt_of_le_of_lt (hle j hj x hjx) hgt)
        · rw [hx] at hjx; cases hjx; exact le_refl _
      · intro j hj x hjx
        exact lt_of_le_of_lt (hle j hj x hjx) hgt
    · rw [if_neg (show ¬ greater (some row[roleNum]) mx = true by simpa [greater] using hgt)]
      have hb' : row[best]? = some mx := by
        rcases Nat.eq_zero_or_pos roleNum with hz | hz
        · obtain ⟨h1, h2⟩ := h0 hz
          subst hz
          rw [h1, hx]
          congr 1
          rw [not_lt] at hgt
          rw [h2] at hgt ⊢
          exact le_antisymm hgt hge
        · exact hb hz
      refine ih (roleNum + 1) mx best (by omega) (fun _ => hb') (by omega) hnn ?_ hlt (by omega) hpos
      intro j hj x hjx
      rcases Nat.lt_succ_iff_lt_or_eq.mp hj with hj | rfl
      · exact hle j hj x hjx
      · rw [hx] at hjx; cases hjx; exact not_lt.mp hgt

theorem predictLoop_spec (data : List (Option ℚ)) (yDim : ℕ) (hy : 0 < yDim) (rows : List (List ℚ))
    (hrow : ∀ row ∈ rows, row.length = yDim ∧ ∀ x ∈ row, 0 ≤ x) : ∀ pre : List (List ℚ),
    (∀ row ∈ pre, row.length = yDim) → data = (pre ++ rows).flatten.map some →
    ∃ rs, predictLoop data yDim rows.length pre.length = .ok rs ∧
      List.Forall₂ (fun row k => IsFirstMax row k) rows rs := by
  induction rows with
  | nil => intro pre _ _; exact ⟨[], rfl, List.Forall₂.nil⟩
  | cons row rows ih =>
    intro pre hpre hd
    obtain ⟨hlen, hnn⟩ := hrow row (by simp)
    have hprelen : pre.flatten.length = pre.length * yDim := by
      clear hd ih
      induction pre with
      | nil => simp
      | cons p ps ihp =>
        rw [List.flatten_cons, List.length_append, ihp (fun r hr => hpre r (by simp [hr])), hpre p (by simp),
          List.length_cons]
        ring
    have hdata : ∀ (j : ℕ) (x : ℚ), row[j]? = some x → data[pre.length * yDim + j]? = some (some x) := by
      intro j x hj
      have hjl : j < row.length := by
        by_contra hc
        rw [List.getElem?_eq_none (by omega)] at hj; cases hj
      rw [hd, List.getElem?_map, List.flatten_append, List.getElem?_append_right (by omega), hprelen,
        Nat.add_sub_cancel_left, List.flatten_cons, List.getElem?_append_left hjl, hj]
      rfl
    obtain ⟨r, h1, h2⟩ := argmaxLoop_spec data (pre.length * yDim) row hdata yDim 0 0 0 (by omega)
      (by omega) (fun _ => ⟨rfl, rfl⟩) hnn (by omega) (by omega) (by omega) (by omega)
    obtain ⟨rs, g1, g2⟩ := ih (fun r hr => hrow r (by simp [hr])) (pre ++ [row])
      (by intro r hr; rcases List.mem_append.mp hr with hr | hr
          · exact hpre r hr
          · rw [List.mem_singleton] at hr; rw [hr]; exact hlen) (by rw [hd]; simp)
    refine ⟨r :: rs, ?_, List.Forall₂.cons h2 g2⟩
    rw [List.length_cons, predictLoop, h1]
    simp only [Outcome.bind]
    rw [List.length_append, List.length_singleton] at g1
    rw [g1]

/-- C41: if the network returns one row of probabilities (non-negative numbers) per block and at most
as many columns as there are roles, every block gets the role with the highest probability, the
first one among equals; this is always a valid role. -/
theorem c41_most_probable_role_partial (rows : List (List ℚ)) (yDim : ℕ) (hy : 0 < yDim) (hy' : yDim ≤ 14)
    (hrow : ∀ row ∈ rows, row.length = yDim ∧ ∀ x ∈ row, 0 ≤ x) :
    ∃ roles, predict (rows.flatten.map some) yDim rows.length = .ok roles ∧
      List.Forall₂ (fun row (r : Option Role) => ∃ k role, IsFirstMax row k ∧ r = some role ∧
        [Role.paragraph, .reference, .marginal, .footnote, .heading, .formula, .title, .authorInfo,
          .abstract, .date, .caption, .table, .other, .toc][k]? = some role) rows roles := by
  obtain ⟨rs, h1, h2⟩ := predictLoop_spec (rows.flatten.map some) yDim hy rows hrow [] (by simp) (by simp)
  refine ⟨rs.map ofNumber, by simp only [List.length_nil] at h1; unfold predict; rw [h1]; rfl, ?_⟩
  rw [List.forall₂_map_right_iff]
  clear h1
  induction h2 with
  | nil => exact List.Forall₂.nil
  | @cons row k rows rs hk _ ih =>
    refine List.Forall₂.cons ?_ (ih fun r hr => hrow r (by simp [hr]))
    obtain ⟨hlen, _⟩ := hrow row (by simp)
    have hkl : k < 14 := by
      obtain ⟨m, hm, _⟩ := hk
      by_contra hc
      rw [List.getElem?_eq_none (by omega)] at hm; cases hm
    have : ∃ role, ofNumber k = some role ∧ [Role.paragraph, .reference, .marginal, .footnote, .heading,
        .formula, .title, .authorInfo, .abstract, .date, .caption, .table, .other, .toc][k]? = some role := by
      match k, hkl with
      | 0, _ | 1, _ | 2, _ | 3, _ | 4, _ | 5, _ | 6, _ | 7, _ | 8, _ | 9, _ | 10, _ | 11, _ | 12, _ | 13, _ =>
        exact ⟨_, rfl, rfl⟩
    obtain ⟨role, e1, e2⟩ := this
    exact ⟨k, role, hk, e1, e2⟩

/-- Limits of C41: a block whose row has no positive number (only negative numbers, zeros and NaN)
becomes a paragraph, whatever its largest value is. -/
theorem c41_nonpositive_row_is_paragraph (row : List (Option ℚ))
    (h : ∀ q, some q ∈ row → q ≤ 0) : predict row row.length 1 = .ok [some .paragraph] := by
  have hg : ∀ k j, j + k = row.length → argmaxLoop row 0 k j 0 0 = .ok 0 := by
    intro k
    induction k with
    | zero => intro j _; rfl
    | succ k ih =>
      intro j hj
      have hlt : j < row.length := by omega
      unfold argmaxLoop
      rw [Nat.zero_add, List.getElem?_eq_getElem hlt]
      simp only
      have : greater row[j] 0 = false := by
        unfold greater
        split
        · rfl
        · next q hq =>
          have := h q (by rw [← hq]; exact List.getElem_mem hlt)
          exact decide_eq_false (not_lt.mpr this)
      rw [this]
      simp only [Bool.false_eq_true, if_false]
      exact ih (j + 1) (by omega)
  unfold predict
  simp [predictLoop, hg row.length 0 (by omega), Outcome.bind, ofNumber]

/-- Limits of C41: if the network has more columns than there are roles, a block can get a value that
is no role at all. -/
theorem c41_invalid_role : predict ((List.replicate 14 (0 : ℚ) ++ [1]).map some) 15 1 = .ok [none] := by
  decide +kernel

/-- Limits of C41: if the network returns fewer rows than blocks, the program reads behind the end of
the vector. -/
theorem c41_missing_rows_undefined (yDim : ℕ) (hy : 0 < yDim) (n : ℕ) :
    (predict [] yDim (n + 1)).isUb = true := by
  obtain ⟨y, rfl⟩ : ∃ y, yDim = y + 1 := ⟨yDim - 1, by omega⟩
  simp [predict, predictLoop, argmaxLoop, Outcome.bind, Outcome.isUb]

/-! ### Layout features -/

theorem upperWords_spec (cc : CharClasses) (ws : List (List Char)) :
    ((∀ w ∈ ws, ∀ c, w.head? = some c → c.toNat ≤ 255) → ∃ n, upperWords cc ws = .ok n ∧ n ≤ ws.length) ∧
    ((∃ w ∈ ws, ∃ c, w.head? = some c ∧ 255 < c.toNat) → (upperWords cc ws).isUb = true) := by
  induction ws with
  | nil => exact ⟨fun _ => ⟨0, rfl, le_refl _⟩, by simp⟩
  | cons w ws ih =>
    cases w with
    | nil =>
      refine ⟨?_, ?_⟩
      · intro h
        obtain ⟨n, h1, h2⟩ := ih.1 fun w hw => h w (by simp [hw])
        refine ⟨n, ?_, by simp; omega⟩
        simp [upperWords, Outcome.bind, h1]
      · rintro ⟨w, hw, c, hc, hgt⟩
        rcases List.mem_cons.mp hw with rfl | hw
        · simp at hc
        · have := ih.2 ⟨w, hw, c, hc, hgt⟩
          simp only [upperWords, Outcome.bind]
          cases hu : upperWords cc ws with
          | ok n => rw [hu] at this; cases this
          | throw m => rw [hu] at this; cases this
          | ub m => rfl
    | cons c cs =>
      by_cases hc : c.toNat > 255
      · refine ⟨?_, ?_⟩
        · intro h
          have := h (c :: cs) (by simp) c rfl
          omega
        · intro _
          simp [upperWords, hc, Outcome.bind, Outcome.isUb]
      · refine ⟨?_, ?_⟩
        · intro h
          obtain ⟨n, h1, h2⟩ := ih.1 fun w hw => h w (by simp [hw])
          refine ⟨(if cc.isUpperByte c.toNat then 1 else 0) + n, ?_, ?_⟩
          · simp [upperWords, Outcome.bind, h1, hc]
          · simp only [List.length_cons]; split <;> omega
        · rintro ⟨w, hw, d, hd, hgt⟩
          rcases List.mem_cons.mp hw with rfl | hw
          · simp only [List.head?_cons, Option.some.injEq] at hd
            subst hd; omega
          · have := ih.2 ⟨w, hw, d, hd, hgt⟩
            simp only [upperWords, Outcome.bind, hc, if_false]
            cases hu : upperWords cc ws with
            | ok n => rw [hu] at this; cases this
            | throw m => rw [hu] at this; cases this
            | ub m => rfl

/-- `r` is the pair of the smallest and the largest font size. -/
theorem fontSizeRange_spec (blocks : List FBlock) : ∀ (b : FBlock), b ∈ blocks →
    (fontSizeRange blocks).1 ≤ b.fontSize ∧ b.fontSize ≤ (fontSizeRange blocks).2 := by
  have hgen : ∀ (bs : List FBlock) (r : ℚ × ℚ),
      (bs.foldl (fun (r : ℚ × ℚ) b =>
        (if b.fontSize < r.1 then b.fontSize else r.1, if b.fontSize > r.2 then b.fontSize else r.2)) r).1 ≤ r.1 ∧
      r.2 ≤ (bs.foldl (fun (r : ℚ × ℚ) b =>
        (if b.fontSize < r.1 then b.fontSize else r.1, if b.fontSize > r.2 then b.fontSize else r.2)) r).2 ∧
      ∀ b ∈ bs, (bs.foldl (fun (r : ℚ × ℚ) b =>
        (if b.fontSize < r.1 then b.fontSize else r.1, if b.fontSize > r.2 then b.fontSize else r.2)) r).1 ≤ b.fontSize ∧
        b.fontSize ≤ (bs.foldl (fun (r : ℚ × ℚ) b =>
        (if b.fontSize < r.1 then b.fontSize else r.1, if b.fontSize > r.2 then b.fontSize else r.2)) r).2 := by
    intro bs
    induction bs with
    | nil => intro r; simp
    | cons b bs ih =>
      intro r
      rw [List.foldl_cons]
      obtain ⟨h1, h2, h3⟩ := ih (if b.fontSize < r.1 then b.fontSize else r.1,
        if b.fontSize > r.2 then b.fontSize else r.2)
      have a1 : (if b.fontSize < r.1 then b.fontSize else r.1) ≤ r.1 ∧
          (if b.fontSize < r.1 then b.fontSize else r.1) ≤ b.fontSize := by
        split
        · next h => exact ⟨h.le, le_refl _⟩
        · next h => exact ⟨le_refl _, not_lt.mp h⟩
      have a2 : r.2 ≤ (if b.fontSize > r.2 then b.fontSize else r.2) ∧
          b.fontSize ≤ (if b.fontSize > r.2 then b.fontSize else r.2) := by
        split
        · next h => exact ⟨h.le, le_refl _⟩
        · next h => exact ⟨le_refl _, not_lt.mp h⟩
      refine ⟨h1.trans a1.1, a2.1.trans h2, ?_⟩
      intro x hx
      rcases List.mem_cons.mp hx with rfl | hx
      · exact ⟨h1.trans a1.2, a2.2.trans h2⟩
      · exact h3 x hx
  intro b hb
  exact (hgen blocks (fltMax, fltMin)).2.2 b hb

theorem share_unit (n d : ℕ) (h : n ≤ d) : 0 ≤ share n d ∧ share n d ≤ 1 := by
  unfold share
  split
  · next hd =>
    have hd' : (0 : ℚ) < d := by exact_mod_cast hd
    exact ⟨by positivity, by rw [div_le_one hd']; exact_mod_cast h⟩
  · simp

theorem numWith_le {p q : Char → Bool} (h : ∀ c, p c = true → q c = true) (text : List Char) :
    numWith p text ≤ numWith q text := by
  unfold numWith
  induction text with
  | nil => simp
  | cons c cs ih =>
    rw [List.filter_cons, List.filter_cons]
    by_cases hp : p c = true
    · rw [if_pos hp, if_pos (h c hp)]; simp; exact ih
    · rw [if_neg hp]
      split
      · simp; omega
      · exact ih

/-- No character counts as space and at the same time as digit, punctuation, upper-case or "not
ASCII". -/
structure SaneClasses (cc : CharClasses) (text : List Char) : Prop where
  digit : ∀ c ∈ text, cc.isDigit c = true → cc.isSpace c = false
  upper : ∀ c ∈ text, cc.isUpper c = true → cc.isSpace c = false
  punct : ∀ c ∈ text, cc.isPunct c = true → cc.isSpace c = false
  ascii : ∀ c ∈ text, 127 < c.toNat % 256 → cc.isSpace c = false

theorem numWith_le' {p q : Char → Bool} (text : List Char) (h : ∀ c ∈ text, p c = true → q c = true) :
    numWith p text ≤ numWith q text := by
  unfold numWith
  induction text with
  | nil => simp
  | cons c cs ih =>
    have ih := ih fun c hc => h c (by simp [hc])
    rw [List.filter_cons, List.filter_cons]
    by_cases hp : p c = true
    · rw [if_pos hp, if_pos (h c (by simp) hp)]; simp; exact ih
    · rw [if_neg hp]
      split
      · simp; omega
      · exact ih

/-- A block within its page, with a known font, on one of the pages, whose words start with a
character up to U+00FF. -/
structure GoodBlock (cc : CharClasses) (fontInfos : Verif.Text.Str → Option (ℚ × Bool)) (numPages : ℕ)
    (page : FPage) (b : FBlock) : Prop where
  font : (fontInfos b.fontName).isSome = true
  pageNum : 1 ≤ b.pos.pageNum ∧ b.pos.pageNum ≤ numPages
  x : 0 ≤ b.pos.leftX ∧ b.pos.leftX ≤ page.width ∧ 0 ≤ b.pos.rightX ∧ b.pos.rightX ≤ page.width
  y : 0 ≤ b.pos.upperY ∧ b.pos.upperY ≤ page.height ∧ 0 ≤ b.pos.lowerY ∧ b.pos.lowerY ≤ page.height
  latin : ∀ w ∈ b.words, ∀ c, w.head? = some c → c.toNat ≤ 255
  classes : SaneClasses cc b.text

theorem features_unit (cc : CharClasses) (fontInfos : Verif.Text.Str → Option (ℚ × Bool)) (numPages : ℕ)
    (minFs maxFs : ℚ) (page : FPage) (b : FBlock) (hb : GoodBlock cc fontInfos numPages page b)
    (hfs : minFs ≤ b.fontSize ∧ b.fontSize ≤ maxFs) :
    ∃ xs, layoutFeatures cc fontInfos numPages minFs maxFs page b = .ok xs ∧ xs.length = 15 ∧
      ∀ x ∈ xs, 0 ≤ x ∧ x ≤ 1 := by
  obtain ⟨info, hinfo⟩ := Option.isSome_iff_exists.mp hb.font
  obtain ⟨n, hn1, hn2⟩ := (upperWords_spec cc b.words).1 hb.latin
  unfold layoutFeatures
  rw [hinfo]
  simp only [hn1, Outcome.bind]
  refine ⟨_, rfl, rfl, ?_⟩
  have hquot : ∀ (a w : ℚ), 0 ≤ a → a ≤ w → 0 ≤ (if w > 0 then a / w else 0) ∧ (if w > 0 then a / w else 0) ≤ 1 := by
    intro a w h1 h2
    split
    · next hw => exact ⟨div_nonneg h1 hw.le, (div_le_one hw).mpr h2⟩
    · simp
  have h01 : ∀ (p : Prop) [Decidable p], (0:ℚ) ≤ (if p then 1 else 0) ∧ (if p then (1:ℚ) else 0) ≤ 1 := by
    intro p _; split <;> norm_num
  obtain ⟨x1, x2, x3, x4⟩ := hb.x
  obtain ⟨y1, y2, y3, y4⟩ := hb.y
  have hs : ∀ p : Char → Bool, (∀ c ∈ b.text, p c = true → cc.isSpace c = false) →
      numWith p b.text ≤ numWith (fun c => !cc.isSpace c) b.text := by
    intro p hp
    apply numWith_le'
    intro c hc h
    simp [hp c hc h]
  intro x hx
  simp only [List.mem_cons, List.not_mem_nil, or_false] at hx
  rcases hx with rfl | rfl | rfl | rfl | rfl | rfl | rfl | rfl | rfl | rfl | rfl | rfl | rfl | rfl | rfl
  · split
    · next h =>
      have h1 : (0 : ℚ) < (numPages : ℚ) - 1 := by
        have : (1 : ℚ) < numPages := by exact_mod_cast h
        linarith
      obtain ⟨p1, p2⟩ := hb.pageNum
      have q1 : (0 : ℚ) ≤ ((b.pos.pageNum - 1 : ℤ) : ℚ) := by exact_mod_cast (by omega : 0 ≤ b.pos.pageNum - 1)
      have q2 : ((b.pos.pageNum - 1 : ℤ) : ℚ) ≤ (numPages : ℚ) - 1 := by
        have : ((b.pos.pageNum : ℤ) : ℚ) ≤ numPages := by exact_mod_cast p2
        push_cast; linarith
      exact ⟨div_nonneg q1 h1.le, (div_le_one h1).mpr q2⟩
    · simp
  · exact hquot _ _ x1 x2
  · exact hquot _ _ (by linarith) (by linarith)
  · exact hquot _ _ x3 x4
  · exact hquot _ _ (by linarith) (by linarith)
  · split
    · next h =>
      have : (0:ℚ) < maxFs - minFs := by linarith
      exact ⟨div_nonneg (by linarith [hfs.1]) this.le, (div_le_one this).mpr (by linarith [hfs.2])⟩
    · simp
  · exact h01 _
  · exact h01 _
  · exact h01 _
  · split
    · norm_num
    · exact h01 _
  · exact share_unit _ _ (hs _ hb.classes.digit)
  · refine share_unit _ _ (hs _ ?_)
    intro c hc h
    exact hb.classes.ascii c hc (by simpa [countsAsNonAscii] using h)
  · exact share_unit _ _ (hs _ hb.classes.punct)
  · exact share_unit _ _ hn2
  · exact share_unit _ _ (hs _ hb.classes.upper)

theorem pageFeatures_spec {P : FBlock → List ℚ → Prop} (f : FPage → FBlock → Outcome (List ℚ)) (page : FPage)
    (bs : List FBlock) (h : ∀ b ∈ bs, ∃ xs, f page b = .ok xs ∧ P b xs) :
    ∃ xss, pageFeatures f page bs = .ok xss.flatten ∧ List.Forall₂ P bs xss := by
  induction bs with
  | nil => exact ⟨[], rfl, List.Forall₂.nil⟩
  | cons b bs ih =>
    obtain ⟨xs, h1, h2⟩ := h b (by simp)
    obtain ⟨xss, g1, g2⟩ := ih fun b hb => h b (by simp [hb])
    refine ⟨xs :: xss, ?_, List.Forall₂.cons h2 g2⟩
    simp [pageFeatures, h1, g1, Outcome.bind]

theorem docFeatures_spec {P : FBlock → List ℚ → Prop} (f : FPage → FBlock → Outcome (List ℚ)) (pages : List FPage)
    (h : ∀ p ∈ pages, ∀ b ∈ p.blocks, ∃ xs, f p b = .ok xs ∧ P b xs) :
    ∃ xss, docFeatures f pages = .ok xss.flatten ∧ List.Forall₂ P (pages.flatMap (·.blocks)) xss := by
  induction pages with
  | nil => exact ⟨[], rfl, List.Forall₂.nil⟩
  | cons p ps ih =>
    obtain ⟨xs, h1, h2⟩ := pageFeatures_spec f p p.blocks (h p (by simp))
    obtain ⟨xss, g1, g2⟩ := ih fun p hp => h p (by simp [hp])
    refine ⟨xs ++ xss, ?_, by rw [List.flatMap_cons]; exact List.rel_append h2 g2⟩
    simp [docFeatures, h1, g1, Outcome.bind]

/-- C59: for a document whose blocks lie within their pages, have known fonts and whose words start
with a character up to U+00FF, the input of the network has one row per block, in the order of the
blocks; every row has 15 values, and all of them are between 0 and 1.  Missing from the full
property: documents with words that start with other characters, see `c59_wide_character_undefined`. -/
theorem c59_features_partial (cc : CharClasses) (fontInfos : Verif.Text.Str → Option (ℚ × Bool))
    (pages : List FPage) (h : ∀ p ∈ pages, ∀ b ∈ p.blocks, GoodBlock cc fontInfos pages.length p b) :
    ∃ rows : List (List ℚ), layoutTensor cc fontInfos pages = .ok ((pages.flatMap (·.blocks)).length, rows.flatten) ∧
      rows.length = (pages.flatMap (·.blocks)).length ∧
      ∀ row ∈ rows, row.length = 15 ∧ ∀ x ∈ row, 0 ≤ x ∧ x ≤ 1 := by
  obtain ⟨xss, h1, h2⟩ := docFeatures_spec (P := fun _ xs => xs.length = 15 ∧ ∀ x ∈ xs, 0 ≤ x ∧ x ≤ 1)
    (layoutFeatures cc fontInfos pages.length (fontSizeRange (pages.flatMap (·.blocks))).1
      (fontSizeRange (pages.flatMap (·.blocks))).2) pages (by
      intro p hp b hb
      exact features_unit cc fontInfos pages.length _ _ p b (h p hp b hb)
        (fontSizeRange_spec _ b (List.mem_flatMap.mpr ⟨p, hp, hb⟩)))
  refine ⟨xss, by unfold layoutTensor; simp [h1, Outcome.bind], h2.length_eq.symm, ?_⟩
  clear h1
  generalize pages.flatMap (·.blocks) = bs at h2
  induction h2 with
  | nil => simp
  | cons hr _ ih =>
    intro row hrow
    rcases List.mem_cons.mp hrow with rfl | hrow
    · exact hr
    · exact ih row hrow

/-- What the 15 values of a block (`row`) say about the block `b` on a page. -/
structure RowMeaning (cc : CharClasses) (fontInfos : Verif.Text.Str → Option (ℚ × Bool)) (pages : List FPage)
    (page : FPage) (b : FBlock) (row : List ℚ) : Prop where
  length : row.length = 15
  pageNum : 1 < pages.length → row[0]! * ((pages.length : ℚ) - 1) = b.pos.pageNum - 1
  left : 0 < page.width → row[1]! * page.width = b.pos.leftX
  right : 0 < page.width → row[3]! * page.width = b.pos.rightX
  /-- Measured from the lower edge of the page. -/
  lower : 0 < page.height → row[2]! * page.height + b.pos.lowerY = page.height
  upper : 0 < page.height → row[4]! * page.height + b.pos.upperY = page.height
  /-- The font sizes of the document are mapped to the whole interval from 0 to 1. -/
  fontSize : ∀ p₁ ∈ pages, ∀ b₁ ∈ p₁.blocks, ∀ p₂ ∈ pages, ∀ b₂ ∈ p₂.blocks, b₁.fontSize < b₂.fontSize →
    (∀ p ∈ pages, ∀ x ∈ p.blocks, b₁.fontSize ≤ x.fontSize ∧ x.fontSize ≤ b₂.fontSize) →
    row[5]! * (b₂.fontSize - b₁.fontSize) = b.fontSize - b₁.fontSize
  bold : IsFlag row[6]! (∃ weight italic, fontInfos b.fontName = some (weight, italic) ∧ 500 < weight)
  italic : IsFlag row[7]! (∃ weight, fontInfos b.fontName = some (weight, true))
  at' : IsFlag row[8]! ('@' ∈ b.text)
  firstDigit : IsFlag row[9]! (∃ c cs, b.text = c :: cs ∧ cc.isDigit c = true)
  digits : IsShare row[10]! (b.text.countP cc.isDigit) (b.text.countP fun c => !cc.isSpace c)
  nonAscii : IsShare row[11]! (b.text.countP fun c => decide (127 < c.toNat % 256))
    (b.text.countP fun c => !cc.isSpace c)
  punctuation : IsShare row[12]! (b.text.countP cc.isPunct) (b.text.countP fun c => !cc.isSpace c)
  upperWords : IsShare row[13]! (b.words.countP fun w => w.head?.any fun c => cc.isUpperByte c.toNat) b.words.length
  upperChars : IsShare row[14]! (b.text.countP cc.isUpper) (b.text.countP fun c => !cc.isSpace c)

theorem upperWords_count (cc : CharClasses) (ws : List (List Char)) (n : ℕ) (h : upperWords cc ws = .ok n) :
    n = ws.countP fun w => w.head?.any fun c => cc.isUpperByte c.toNat := by
  induction ws generalizing n with
  | nil => simp only [upperWords, Outcome.ok.injEq] at h; simp [← h]
  | cons w ws ih =>
    cases hu : upperWords cc ws with
    | throw m => 
      cases w with
      | nil => simp [upperWords, hu, Outcome.bind] at h
      | cons c cs =>
        by_cases hc : c.toNat > 255 <;> simp [upperWords, hu, Outcome.bind, hc] at h
    | ub m =>
      cases w with
      | nil => simp [upperWords, hu, Outcome.bind] at h
      | cons c cs =>
        by_cases hc : c.toNat > 255 <;> simp [upperWords, hu, Outcome.bind, hc] at h
    | ok k =>
      have := ih k hu
      cases w with
      | nil =>
        simp only [upperWords, hu, Outcome.bind, Outcome.ok.injEq] at h
        rw [← h, List.countP_cons]; simp [this]
      | cons c cs =>
        by_cases hc : c.toNat > 255
        · simp [upperWords, hu, Outcome.bind, hc] at h
        · simp only [upperWords, hu, Outcome.bind, hc, if_false, Outcome.ok.injEq] at h
          rw [← h, List.countP_cons, this]
          simp only [List.head?_cons, Option.any_some]
          by_cases hi : cc.isUpperByte c.toNat = true <;> simp [hi] <;> omega

theorem share_isShare' (n d : ℕ) : IsShare (share n d) n d := by
  unfold share IsShare
  refine ⟨?_, ?_⟩
  · intro hd
    have : (d : ℚ) ≠ 0 := by exact_mod_cast hd.ne'
    rw [if_pos hd]; field_simp
  · intro hd; rw [if_neg (by omega)]

/-- C59: the start values of the search for the smallest and the largest font size are the largest and the smallest positive normal
single-precision number (IEEE 754 binary32). -/
theorem c59_float_limits : fltMax = 2 ^ 128 - 2 ^ 104 ∧ fltMin * 2 ^ 126 = 1 := by
  constructor
  · unfold fltMax; norm_num
  · unfold fltMin; exact one_div_mul_cancel (by positivity)

/-- The range of the font sizes if there are two different (realistic) sizes. -/
theorem fontSizeRange_eq (blocks : List FBlock) (b₁ b₂ : FBlock) (h₁ : b₁ ∈ blocks) (h₂ : b₂ ∈ blocks)
    (hr : ∀ b ∈ blocks, b₁.fontSize ≤ b.fontSize ∧ b.fontSize ≤ b₂.fontSize)
    (hmin : b₁.fontSize ≤ fltMax) (hmax : fltMin ≤ b₂.fontSize) :
    fontSizeRange blocks = (b₁.fontSize, b₂.fontSize) := by
  have hgen : ∀ (bs : List FBlock) (r : ℚ × ℚ), (∀ b ∈ bs, b₁.fontSize ≤ b.fontSize ∧ b.fontSize ≤ b₂.fontSize) →
      b₁.fontSize ≤ r.1 → r.2 ≤ b₂.fontSize →
      b₁.fontSize ≤ (bs.foldl (fun (r : ℚ × ℚ) b =>
        (if b.fontSize < r.1 then b.fontSize else r.1, if b.fontSize > r.2 then b.fontSize else r.2)) r).1 ∧
      (bs.foldl (fun (r : ℚ × ℚ) b =>
        (if b.fontSize < r.1 then b.fontSize else r.1, if b.fontSize > r.2 then b.fontSize else r.2)) r).2
        ≤ b₂.fontSize := by
    intro bs
    induction bs with
    | nil => intro r _ h1 h2; exact ⟨h1, h2⟩
    | cons b bs ih =>
      intro r hb h1 h2
      rw [List.foldl_cons]
      obtain ⟨c1, c2⟩ := hb b (by simp)
      refine ih _ (fun b hb' => hb b (by simp [hb'])) ?_ ?_
      · dsimp only; split <;> assumption
      · dsimp only; split <;> assumption
  obtain ⟨g1, g2⟩ := hgen blocks (fltMax, fltMin) hr hmin hmax
  have s1 := (fontSizeRange_spec blocks b₁ h₁).1
  have s2 := (fontSizeRange_spec blocks b₂ h₂).2
  exact Prod.ext (le_antisymm s1 g1) (le_antisymm g2 s2)

/-- C59: what the values mean: if the program gets to the network at all, the row of every block
describes this block, as stated in `RowMeaning`.  The font sizes are positive `float`s. -/
theorem c59_row_meaning (cc : CharClasses) (fontInfos : Verif.Text.Str → Option (ℚ × Bool))
    (pages : List FPage) (n : ℕ) (xs : List ℚ) (h : layoutTensor cc fontInfos pages = .ok (n, xs))
    (hfs : ∀ p ∈ pages, ∀ b ∈ p.blocks,
      1 / 2 ^ 126 ≤ b.fontSize ∧ b.fontSize ≤ (2 ^ 24 - 1) * 2 ^ 104) :
    n = (pages.flatMap (·.blocks)).length ∧ ∃ rows : List (List ℚ), xs = rows.flatten ∧
      List.Forall₂ (fun (pb : FPage × FBlock) row => RowMeaning cc fontInfos pages pb.1 pb.2 row)
        (pages.flatMap fun p => p.blocks.map fun b => (p, b)) rows := by
  have hone : ∀ (p : FPage) (b : FBlock) (row : List ℚ), p ∈ pages → b ∈ p.blocks →
      layoutFeatures cc fontInfos pages.length (fontSizeRange (pages.flatMap (·.blocks))).1
        (fontSizeRange (pages.flatMap (·.blocks))).2 p b = .ok row →
      RowMeaning cc fontInfos pages p b row := by
    intro p b row hp hb hrow
    unfold layoutFeatures at hrow
    cases hinfo : fontInfos b.fontName with
    | none => rw [hinfo] at hrow; cases hrow
    | some info =>
      cases hu : upperWords cc b.words with
      | throw m => rw [hinfo] at hrow; simp only [hu, Outcome.bind] at hrow; cases hrow
      | ub m => rw [hinfo] at hrow; simp only [hu, Outcome.bind] at hrow; cases hrow
      | ok k =>
        rw [hinfo] at hrow
        simp only [hu, Outcome.bind, Outcome.ok.injEq] at hrow
        have hk := upperWords_count cc b.words k hu
        subst hrow
        have hquot : ∀ (a w : ℚ), 0 < w → (if w > 0 then a / w else 0) * w = a := by
          intro a w hw
          rw [if_pos hw]; field_simp
        have hflag : ∀ (p q : Prop) [Decidable p], (p ↔ q) → IsFlag (if p then (1:ℚ) else 0) q := by
          intro p q _ hpq
          exact ⟨fun hq => if_pos (hpq.mpr hq), fun hq => if_neg fun hp => hq (hpq.mp hp)⟩
        have hcount : ∀ q : Char → Bool, numWith q b.text = b.text.countP q := by
          intro q; rw [numWith, List.countP_eq_length_filter]
        refine ⟨rfl, ?_, ?_, ?_, ?_, ?_, ?_, ?_, ?_, ?_, ?_, ?_, ?_, ?_, ?_, ?_⟩
        · intro hn
          have h1 : (0 : ℚ) < (pages.length : ℚ) - 1 := by
            have : (1 : ℚ) < pages.length := by exact_mod_cast hn
            linarith
          show (if pages.length > 1 then ((b.pos.pageNum - 1 : ℤ) : ℚ) / ((pages.length : ℚ) - 1) else 0) *
            ((pages.length : ℚ) - 1) = _
          rw [if_pos hn]
          push_cast
          rw [div_mul_cancel₀ _ h1.ne']
        · exact hquot _ _
        · exact hquot _ _
        · intro hh
          have := hquot (p.height - b.pos.lowerY) p.height hh
          show (if p.height > 0 then (p.height - b.pos.lowerY) / p.height else 0) * p.height + _ = _
          rw [this]; ring
        · intro hh
          have := hquot (p.height - b.pos.upperY) p.height hh
          show (if p.height > 0 then (p.height - b.pos.upperY) / p.height else 0) * p.height + _ = _
          rw [this]; ring
        · intro p₁ hp₁ b₁ hb₁ p₂ hp₂ b₂ hb₂ hlt hall
          have hR := fontSizeRange_eq (pages.flatMap (·.blocks)) b₁ b₂ (List.mem_flatMap.mpr ⟨p₁, hp₁, hb₁⟩)
            (List.mem_flatMap.mpr ⟨p₂, hp₂, hb₂⟩) (by
              intro x hx
              obtain ⟨q, hq, hx⟩ := List.mem_flatMap.mp hx
              exact hall q hq x hx) (hfs p₁ hp₁ b₁ hb₁).2 (hfs p₂ hp₂ b₂ hb₂).1
          show (if (fontSizeRange (pages.flatMap (·.blocks))).1 < (fontSizeRange (pages.flatMap (·.blocks))).2 then
            (b.fontSize - (fontSizeRange (pages.flatMap (·.blocks))).1) /
              ((fontSizeRange (pages.flatMap (·.blocks))).2 - (fontSizeRange (pages.flatMap (·.blocks))).1) else 0) *
            (b₂.fontSize - b₁.fontSize) = _
          rw [hR, if_pos hlt]
          rw [div_mul_cancel₀ _ (by linarith : b₂.fontSize - b₁.fontSize ≠ 0)]
        · refine hflag _ _ ?_
          constructor
          · intro hw; exact ⟨info.1, info.2, hinfo, hw⟩
          · rintro ⟨w, i, hwi, hw⟩
            rw [hinfo] at hwi; cases hwi; exact hw
        · refine hflag _ _ ?_
          constructor
          · intro hw; exact ⟨info.1, by rw [hinfo, ← hw]⟩
          · rintro ⟨w, hwi⟩
            rw [hinfo] at hwi; cases hwi; rfl
        · refine hflag _ _ ?_
          simp
        · show IsFlag (match b.text with
            | [] => 0
            | c :: _ => if cc.isDigit c then 1 else 0) _
          cases ht : b.text with
          | nil => exact ⟨(by rintro ⟨c, cs, h, _⟩; cases h), fun _ => rfl⟩
          | cons c cs =>
            refine hflag _ _ ?_
            constructor
            · intro h; exact ⟨c, cs, rfl, h⟩
            · rintro ⟨d, ds, h, hd⟩; cases h; exact hd
        · have := share_isShare' (numWith cc.isDigit b.text) (numWith (fun c => !cc.isSpace c) b.text)
          rw [← hcount, ← hcount]; exact this
        · have := share_isShare' (numWith countsAsNonAscii b.text) (numWith (fun c => !cc.isSpace c) b.text)
          have e : (fun c : Char => decide (127 < c.toNat % 256)) = countsAsNonAscii := rfl
          rw [e, ← hcount, ← hcount]; exact this
        · have := share_isShare' (numWith cc.isPunct b.text) (numWith (fun c => !cc.isSpace c) b.text)
          rw [← hcount, ← hcount]; exact this
        · rw [← hk]; exact share_isShare' _ _
        · have := share_isShare' (numWith cc.isUpper b.text) (numWith (fun c => !cc.isSpace c) b.text)
          rw [← hcount, ← hcount]; exact this
  unfold layoutTensor at h
  simp only at h
  generalize hf : layoutFeatures cc fontInfos pages.length (fontSizeRange (pages.flatMap (·.blocks))).1
        (fontSizeRange (pages.flatMap (·.blocks))).2 = f at h hone
  have hpage : ∀ (p : FPage) (bs : List FBlock) (ys : List ℚ), pageFeatures f p bs = .ok ys →
      ∃ rows : List (List ℚ), ys = rows.flatten ∧ List.Forall₂ (fun b row => f p b = .ok row) bs rows := by
    intro p bs
    induction bs with
    | nil => intro ys h; cases h; exact ⟨[], rfl, List.Forall₂.nil⟩
    | cons b bs ih =>
      intro ys h
      unfold pageFeatures at h
      cases hx : f p b with
      | throw m => rw [hx] at h; cases h
      | ub m => rw [hx] at h; cases h
      | ok x =>
        rw [hx] at h
        cases hy : pageFeatures f p bs with
        | throw m => simp [hy, Outcome.bind] at h
        | ub m => simp [hy, Outcome.bind] at h
        | ok y =>
          simp only [hy, Outcome.bind, Outcome.ok.injEq] at h
          obtain ⟨rows, r1, r2⟩ := ih y hy
          exact ⟨x :: rows, by rw [← h, r1]; rfl, List.Forall₂.cons hx r2⟩
  have hdoc : ∀ (ps : List FPage) (ys : List ℚ), docFeatures f ps = .ok ys →
      ∃ rows : List (List ℚ), ys = rows.flatten ∧
        List.Forall₂ (fun (pb : FPage × FBlock) row => f pb.1 pb.2 = .ok row)
          (ps.flatMap fun p => p.blocks.map fun b => (p, b)) rows := by
    intro ps
    induction ps with
    | nil => intro ys h; cases h; exact ⟨[], rfl, List.Forall₂.nil⟩
    | cons p ps ih =>
      intro ys h
      unfold docFeatures at h
      cases hx : pageFeatures f p p.blocks with
      | throw m => rw [hx] at h; cases h
      | ub m => rw [hx] at h; cases h
      | ok x =>
        rw [hx] at h
        cases hy : docFeatures f ps with
        | throw m => simp [hy, Outcome.bind] at h
        | ub m => simp [hy, Outcome.bind] at h
        | ok y =>
          simp only [hy, Outcome.bind, Outcome.ok.injEq] at h
          obtain ⟨rows, r1, r2⟩ := ih y hy
          obtain ⟨rows', s1, s2⟩ := hpage p p.blocks x hx
          refine ⟨rows' ++ rows, by rw [← h, r1, s1, List.flatten_append], ?_⟩
          rw [List.flatMap_cons]
          exact List.rel_append (List.forall₂_map_left_iff.mpr s2) r2
  cases hx : docFeatures f pages with
  | throw m => rw [hx] at h; cases h
  | ub m => rw [hx] at h; cases h
  | ok ys =>
    rw [hx] at h
    simp only [Outcome.bind, Outcome.ok.injEq, Prod.mk.injEq] at h
    obtain ⟨rows, r1, r2⟩ := hdoc pages ys hx
    refine ⟨h.1.symm, rows, by rw [← h.2, r1], ?_⟩
    have hmem : ∀ pb ∈ (pages.flatMap fun p => p.blocks.map fun b => (p, b)), pb.1 ∈ pages ∧ pb.2 ∈ pb.1.blocks := by
      intro pb hpb
      obtain ⟨p, hp, hpb⟩ := List.mem_flatMap.mp hpb
      obtain ⟨b, hb, rfl⟩ := List.mem_map.mp hpb
      exact ⟨hp, hb⟩
    clear hx r1
    generalize (pages.flatMap fun p => p.blocks.map fun b => (p, b)) = l at r2 hmem
    induction r2 with
    | nil => exact List.Forall₂.nil
    | @cons pb row l rows' h1 _ ih =>
      refine List.Forall₂.cons ?_ (ih fun pb hpb => hmem pb (by simp [hpb]))
      obtain ⟨m1, m2⟩ := hmem pb (by simp)
      exact hone pb.1 pb.2 row m1 m2 h1

/-- C59 is violated: a word that starts with a character above U+00FF (a Greek letter, a mathematical
symbol, a typographic quote, ...) is passed to `isupper`, which is undefined. -/
theorem c59_wide_character_undefined (cc : CharClasses) (fontInfos : Verif.Text.Str → Option (ℚ × Bool))
    (page : FPage) (b : FBlock) (hb : page.blocks = [b]) (hf : (fontInfos b.fontName).isSome = true)
    (hw : ∃ w ∈ b.words, ∃ c, w.head? = some c ∧ 255 < c.toNat) :
    (layoutTensor cc fontInfos [page]).isUb = true := by
  obtain ⟨info, hinfo⟩ := Option.isSome_iff_exists.mp hf
  have hu := (upperWords_spec cc b.words).2 hw
  unfold layoutTensor
  simp only [docFeatures, hb, pageFeatures, layoutFeatures, hinfo]
  cases h : upperWords cc b.words with
  | ok n => rw [h] at hu; cases hu
  | throw m => rw [h] at hu; cases hu
  | ub m => simp [Outcome.bind, Outcome.isUb]

/-- A block in a font without font information ends the program with an exception. -/
theorem c59_missing_font_throws (cc : CharClasses) (fontInfos : Verif.Text.Str → Option (ℚ × Bool))
    (page : FPage) (b : FBlock) (hb : page.blocks = [b]) (hf : fontInfos b.fontName = none) :
    (layoutTensor cc fontInfos [page]).isThrow = true := by
  simp [layoutTensor, docFeatures, hb, pageFeatures, layoutFeatures, hf, Outcome.bind, Outcome.isThrow]

/-- The share of characters outside of ASCII looks at the lowest byte of a character only: a character
is counted exactly if its code point modulo 256 is above 127; e.g. Greek omega and the bullet are
not, although they are no ASCII characters (every ASCII character is classified correctly). -/
theorem c59_non_ascii_count (c : Char) :
    (countsAsNonAscii c = true ↔ 127 < c.toNat % 256) ∧ (c.toNat ≤ 127 → countsAsNonAscii c = false) ∧
    countsAsNonAscii '∈' = false ∧ countsAsNonAscii '•' = false := by
  refine ⟨by simp [countsAsNonAscii], ?_, by decide, by decide⟩
  intro h
  simp only [countsAsNonAscii, decide_eq_false_iff_not]
  omega

/-! ### Examples -/

/-- Two blocks with three roles. -/
example : (∀ row ∈ [[(1:ℚ)/2, 1/4, 1/4], [1/5, 2/5, 2/5]], row.length = 3 ∧ ∀ x ∈ row, 0 ≤ x) ∧
    predict (([[(1:ℚ)/2, 1/4, 1/4], [1/5, 2/5, 2/5]]).flatten.map some) 3 2 =
      .ok [some .paragraph, some .reference] := by decide +kernel

/-- A row without positive value. -/
example : ∀ q, some q ∈ ([some (-2), none, some (-1)] : List (Option ℚ)) → q ≤ 0 := by
  intro q hq
  simp at hq
  rcases hq with rfl | rfl <;> norm_num

/-- Character classes for examples. -/
def asciiClasses : CharClasses :=
  { isDigit := fun c => decide (48 ≤ c.toNat ∧ c.toNat ≤ 57)
    isUpper := fun c => decide (65 ≤ c.toNat ∧ c.toNat ≤ 90)
    isPunct := fun c => decide (33 ≤ c.toNat ∧ c.toNat ≤ 47)
    isSpace := fun c => decide (c.toNat = 32)
    isUpperByte := fun n => decide (65 ≤ n ∧ n ≤ 90) }

/-- A block on a page for examples. -/
def featureBlock (w : List Char) : FBlock :=
  { pos := { pageNum := 1, leftX := 10, upperY := 20, rightX := 50, lowerY := 40 }, fontName := ['f'], fontSize := 10,
    text := w ++ [' ', 'b'], words := [w, ['b']] }

/-- The hypotheses of `c59_features_partial` hold for a page with one block. -/
example : ∀ p ∈ [({ width := 100, height := 200, blocks := [featureBlock ['A', 'é']] } : FPage)],
    ∀ b ∈ p.blocks, GoodBlock asciiClasses (fun _ => some (400, false)) 1 p b := by
  intro p hp b hb
  rw [List.mem_singleton] at hp
  subst hp
  rw [List.mem_singleton] at hb
  subst hb
  refine ⟨rfl, by decide, by norm_num [featureBlock], by norm_num [featureBlock], ?_, ?_⟩
  · intro w hw c hc
    simp only [featureBlock, List.mem_cons, List.not_mem_nil, or_false] at hw
    rcases hw with rfl | rfl <;> (simp only [List.head?_cons, Option.some.injEq] at hc; subst hc; decide)
  · constructor <;> decide +kernel

/-- The hypothesis of `c59_wide_character_undefined` holds for the word "∈". -/
example : ∃ w ∈ (featureBlock ['∈']).words, ∃ c, w.head? = some c ∧ 255 < c.toNat :=
  ⟨['∈'], by simp [featureBlock], '∈', rfl, by decide⟩

end Verif.Props
