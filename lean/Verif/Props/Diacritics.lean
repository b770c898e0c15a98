import Verif.Model.Diacritics
import Verif.Spec.Diacritics
import Verif.Props.Geometry
import Verif.Props.Words

/-!
# C38: merging of diacritical marks
-/

namespace Verif.Props

open Verif.Diacritics Verif.Spec Verif.Words Verif.Text Verif.Math Verif.Elements

theorem xOverlap_eq (a b : Box) : computeMaxXOverlapRatio a b = xOverlap a b := by
  rw [(c04_elements a b).2.2.1, (c04_elements a b).1, c04_value]
  rfl

theorem xOverlap_nonneg (a b : Box) : 0 ≤ xOverlap a b :=
  le_max_of_le_left (div_nonneg (interLen_nonneg _ _ _ _) (abs_nonneg _))

/-- The boxes of a list of characters by position. -/
def boxes (s : List Glyph) (k : ℕ) : Box := (s[k]?.map (·.pos)).getD {}

theorem boxes_some {s : List Glyph} {k : ℕ} {g : Glyph} (h : s[k]? = some g) : boxes s k = g.pos := by
  simp [boxes, h]

/-- The position of the base chosen in an iteration. -/
def chosen (s : List Glyph) (i : ℕ) : Option ℕ :=
  match s[i]? with
  | none => none
  | some cur =>
    match markUnicode cur with
    | none => none
    | some _ =>
      let prev := if i > 0 then s[i - 1]? else none
      if equal (prevRatio prev cur) 0 tol && equal (nextRatio cur s[i + 1]?) 0 tol then none
      else if larger (prevRatio prev cur) (nextRatio cur s[i + 1]?) tol then some (i - 1) else some (i + 1)

theorem chosen_isChoice {s : List Glyph} {i : ℕ} {cur : Glyph} {u : ℕ} (hi : s[i]? = some cur) (hu : markUnicode cur = some u) :
    IsChoice s.length i (boxes s) (chosen s i) := by
  have hlt : i < s.length := (List.getElem?_eq_some_iff.1 hi).1
  -- the ratios
  have hp : (∃ b p, b + 1 = i ∧ s[b]? = some p ∧ (if i > 0 then s[i - 1]? else none) = some p ∧
      prevRatio (some p) cur = xOverlap (boxes s b) (boxes s i)) ∨ (i = 0 ∧ (if i > 0 then s[i - 1]? else none) = none) := by
    rcases i with _ | b
    · right; simp
    · left
      have hb : b < s.length := by omega
      refine ⟨b, s[b], rfl, List.getElem?_eq_getElem hb, by simp [hb], ?_⟩
      rw [prevRatio, xOverlap_eq, boxes_some hi, boxes_some (List.getElem?_eq_getElem hb)]
  have hn : (∃ q, i + 1 < s.length ∧ s[i + 1]? = some q ∧ nextRatio cur (some q) = xOverlap (boxes s i) (boxes s (i + 1))) ∨
      (¬ i + 1 < s.length ∧ s[i + 1]? = none) := by
    by_cases h : i + 1 < s.length
    · left
      refine ⟨s[i + 1], h, List.getElem?_eq_getElem h, ?_⟩
      rw [nextRatio, xOverlap_eq, boxes_some hi, boxes_some (List.getElem?_eq_getElem h)]
    · right
      exact ⟨h, List.getElem?_eq_none (by omega)⟩
  have htol : tol = 1 / 10000 := rfl
  have hz : ∀ r : ℚ, 0 ≤ r → (equal r 0 tol = true ↔ r ≤ 1 / 10000) := by
    intro r hr
    rw [equal_iff, sub_zero, abs_of_nonneg hr, htol]
  have hl : ∀ a b : ℚ, larger a b tol = true ↔ a > b + 1 / 10000 := by intro a b; rw [larger_iff, htol]
  have h00 : equal 0 0 tol = true := by rw [hz 0 le_rfl]; norm_num
  unfold chosen
  simp only [hi, hu]
  rcases hp with ⟨b, p, rfl, hb, hpe, hpr⟩ | ⟨rfl, hpe⟩
  · have hp0 := xOverlap_nonneg (boxes s b) (boxes s (b + 1))
    rw [hpe, hpr]
    simp only [Nat.add_sub_cancel]
    rcases hn with ⟨q, hq1, hq2, hnr⟩ | ⟨hq1, hq2⟩
    · have hn0 := xOverlap_nonneg (boxes s (b + 1)) (boxes s (b + 1 + 1))
      rw [hq2, hnr]
      by_cases h1 : equal (xOverlap (boxes s b) (boxes s (b + 1))) 0 tol && equal (xOverlap (boxes s (b + 1)) (boxes s (b + 1 + 1))) 0 tol
      · rw [if_pos h1]
        rw [Bool.and_eq_true, hz _ hp0, hz _ hn0] at h1
        refine ⟨by simp, ?_, ?_⟩
        · simp only [true_iff]
          refine ⟨fun b' hb' => ?_, fun _ => h1.2⟩
          obtain rfl : b' = b := by omega
          exact h1.1
        · intro b' hb'
          obtain rfl : b' = b := by omega
          simp only [reduceCtorEq, false_iff, not_and]
          intro h; linarith [h1.1]
      · rw [if_neg h1]
        rw [Bool.and_eq_true, hz _ hp0, hz _ hn0] at h1
        by_cases h2 : larger (xOverlap (boxes s b) (boxes s (b + 1))) (xOverlap (boxes s (b + 1)) (boxes s (b + 1 + 1))) tol
        · rw [if_pos h2]
          rw [hl] at h2
          refine ⟨?_, ?_, ?_⟩
          · intro b' hb'; simp at hb'; subst hb'; exact ⟨by omega, Or.inl rfl⟩
          · simp only [reduceCtorEq, false_iff]
            rintro ⟨h3, -⟩
            have := h3 b rfl
            linarith
          · intro b' hb'
            obtain rfl : b' = b := by omega
            simp only [true_iff]
            exact ⟨by linarith, fun _ => h2⟩
        · rw [if_neg h2]
          rw [hl] at h2
          refine ⟨?_, ?_, ?_⟩
          · intro b' hb'; simp at hb'; subst hb'; exact ⟨hq1, Or.inr rfl⟩
          · simp only [reduceCtorEq, false_iff]
            rintro ⟨h3, h4⟩
            exact h1 ⟨h3 b rfl, h4 hq1⟩
          · intro b' hb'
            obtain rfl : b' = b := by omega
            constructor
            · intro h; have := Option.some.inj h; omega
            · rintro ⟨-, h4⟩; exact absurd (h4 hq1) h2
    · rw [hq2]
      have hnone : nextRatio cur none = 0 := rfl
      rw [hnone, h00, Bool.and_true]
      by_cases h1 : equal (xOverlap (boxes s b) (boxes s (b + 1))) 0 tol
      · rw [if_pos h1]
        rw [hz _ hp0] at h1
        refine ⟨by simp, ?_, ?_⟩
        · simp only [true_iff]
          refine ⟨fun b' hb' => ?_, fun h => absurd h hq1⟩
          obtain rfl : b' = b := by omega
          exact h1
        · intro b' hb'
          obtain rfl : b' = b := by omega
          simp only [reduceCtorEq, false_iff, not_and]
          intro h; linarith
      · rw [if_neg h1]
        rw [hz _ hp0] at h1
        have h2 : larger (xOverlap (boxes s b) (boxes s (b + 1))) 0 tol = true := by rw [hl]; linarith [not_le.1 h1]
        rw [if_pos h2]
        refine ⟨?_, ?_, ?_⟩
        · intro b' hb'; simp at hb'; subst hb'; exact ⟨by omega, Or.inl rfl⟩
        · simp only [reduceCtorEq, false_iff]
          rintro ⟨h3, -⟩
          exact h1 (h3 b rfl)
        · intro b' hb'
          obtain rfl : b' = b := by omega
          simp only [true_iff]
          exact ⟨not_le.1 h1, fun h => absurd h hq1⟩
  · rw [hpe]
    have hnone' : prevRatio none cur = 0 := rfl
    rw [hnone', h00, Bool.true_and]
    rcases hn with ⟨q, hq1, hq2, hnr⟩ | ⟨hq1, hq2⟩
    · have hn0 := xOverlap_nonneg (boxes s 0) (boxes s (0 + 1))
      rw [hq2, hnr]
      by_cases h1 : equal (xOverlap (boxes s 0) (boxes s (0 + 1))) 0 tol
      · rw [if_pos h1]
        rw [hz _ hn0] at h1
        exact ⟨by simp, by simp only [true_iff]; exact ⟨fun b hb => by omega, fun _ => h1⟩, fun b hb => by omega⟩
      · rw [if_neg h1]
        rw [hz _ hn0] at h1
        have h2 : ¬ larger 0 (xOverlap (boxes s 0) (boxes s (0 + 1))) tol = true := by rw [hl]; linarith [not_le.1 h1]
        rw [if_neg h2]
        refine ⟨?_, ?_, fun b hb => by omega⟩
        · intro b' hb'; simp at hb'; subst hb'; exact ⟨hq1, Or.inr rfl⟩
        · simp only [reduceCtorEq, false_iff]
          rintro ⟨-, h4⟩
          exact h1 (h4 hq1)
    · rw [hq2]
      have hnone : nextRatio cur none = 0 := rfl
      rw [hnone, h00, if_pos rfl]
      exact ⟨by simp, by simp only [true_iff]; exact ⟨fun b hb => by omega, fun h => absurd h hq1⟩, fun b hb => by omega⟩

/-- An iteration in terms of the choice; a base always exists. -/
theorem step_eq (compose : List ℕ → Str) (s : List Glyph) (i : ℕ) :
    (chosen s i = none ∧ Diacritics.step compose s i = .ok s) ∨
    ∃ b u cur base, chosen s i = some b ∧ s[i]? = some cur ∧ markUnicode cur = some u ∧ s[b]? = some base ∧ b ≠ i ∧
      Diacritics.step compose s i = .ok (attach compose s i b u cur base) := by
  rcases hi : s[i]? with _ | cur
  · left; simp [chosen, Diacritics.step, hi]
  · rcases hu : markUnicode cur with _ | u
    · left; simp [chosen, Diacritics.step, hi, hu]
    · have hch := chosen_isChoice hi hu
      by_cases h1 : (equal (prevRatio (if i > 0 then s[i - 1]? else none) cur) 0 tol &&
          equal (nextRatio cur s[i + 1]?) 0 tol) = true
      · left
        constructor
        · unfold chosen; simp only [hi, hu]; rw [if_pos h1]
        · unfold Diacritics.step; simp only [hi, hu]; rw [if_pos h1]
      · right
        by_cases h2 : larger (prevRatio (if i > 0 then s[i - 1]? else none) cur) (nextRatio cur s[i + 1]?) tol = true
        · have hc : chosen s i = some (i - 1) := by
            unfold chosen; simp only [hi, hu]; rw [if_neg h1, if_pos h2]
          obtain ⟨h3, h4⟩ := hch.neighbour _ hc
          have hi0 : i > 0 := by omega
          refine ⟨i - 1, u, cur, s[i - 1], hc, rfl, hu, List.getElem?_eq_getElem h3, by omega, ?_⟩
          unfold Diacritics.step
          simp only [hi, hu]
          rw [if_neg h1, if_pos h2]
          simp only [hi0, if_true, List.getElem?_eq_getElem h3]
        · have hc : chosen s i = some (i + 1) := by
            unfold chosen; simp only [hi, hu]; rw [if_neg h1, if_neg h2]
          obtain ⟨h3, h4⟩ := hch.neighbour _ hc
          refine ⟨i + 1, u, cur, s[i + 1], hc, rfl, hu, List.getElem?_eq_getElem h3, by omega, ?_⟩
          unfold Diacritics.step
          simp only [hi, hu]
          rw [if_neg h1, if_neg h2]
          simp only [List.getElem?_eq_getElem h3]

/-- The characters after `n` iterations. -/
def stateAt (compose : List ℕ → Str) (cs : List Glyph) (n : ℕ) : List Glyph :=
  match run compose cs n with
  | .ok s => s
  | _ => []

theorem run_ok (compose : List ℕ → Str) (cs : List Glyph) (n : ℕ) :
    run compose cs n = .ok (stateAt compose cs n) ∧ (stateAt compose cs n).length = cs.length := by
  induction n with
  | zero => exact ⟨rfl, rfl⟩
  | succ n ih =>
    have hr : run compose cs (n + 1) = Diacritics.step compose (stateAt compose cs n) n := by
      rw [run, ih.1]; rfl
    rcases step_eq compose (stateAt compose cs n) n with ⟨-, h⟩ | ⟨b, u, cur, base, -, -, -, -, -, h⟩
    · have : stateAt compose cs (n + 1) = stateAt compose cs n := by
        rw [stateAt, hr, h]
      exact ⟨by rw [hr, h, this], by rw [this]; exact ih.2⟩
    · have : stateAt compose cs (n + 1) = attach compose (stateAt compose cs n) n b u cur base := by
        rw [stateAt, hr, h]
      exact ⟨by rw [hr, h, this], by rw [this]; simp [attach, ih.2]⟩

theorem isHull_extend {l : List Box} {b e : Box} (h : IsHull l b) : IsHull (l ++ [e]) (b.extend e) := by
  have hl : ∀ (f : Box → ℚ) v, IsLeastOf l f v → IsLeastOf (l ++ [e]) f (min v (f e)) := by
    rintro f v ⟨⟨x, hx, hv⟩, hle⟩
    refine ⟨?_, ?_⟩
    · rcases le_total v (f e) with h | h
      · exact ⟨x, by simp [hx], by rw [min_eq_left h, hv]⟩
      · exact ⟨e, by simp, by rw [min_eq_right h]⟩
    · intro y hy
      rcases List.mem_append.1 hy with hy | hy
      · exact (min_le_left _ _).trans (hle y hy)
      · simp at hy; subst hy; exact min_le_right _ _
  have hg : ∀ (f : Box → ℚ) v, IsGreatestOf l f v → IsGreatestOf (l ++ [e]) f (max v (f e)) := by
    rintro f v ⟨⟨x, hx, hv⟩, hle⟩
    refine ⟨?_, ?_⟩
    · rcases le_total v (f e) with h | h
      · exact ⟨e, by simp, by rw [max_eq_right h]⟩
      · exact ⟨x, by simp [hx], by rw [max_eq_left h, hv]⟩
    · intro y hy
      rcases List.mem_append.1 hy with hy | hy
      · exact (hle y hy).trans (le_max_left _ _)
      · simp at hy; subst hy; exact le_max_right _ _
  unfold Box.extend
  simp only [minimum_eq_min, maximum_eq_max]
  exact ⟨hl _ _ h.left, hl _ _ h.upper, hg _ _ h.right, hg _ _ h.lower⟩

/-- The marks (positions below `n`) merged with the character at position `k`. -/
def marksOn (D : ℕ → Option ℕ) (n k : ℕ) : List ℕ := (List.range n).filter fun j => D j = some k

theorem marksOn_succ (D : ℕ → Option ℕ) (n k : ℕ) :
    marksOn D (n + 1) k = marksOn D n k ++ if D n = some k then [n] else [] := by
  unfold marksOn
  rw [List.range_succ, List.filter_append]
  by_cases h : D n = some k <;> simp [h]

/-- What has become of the character `c` at position `k` of the page `cs`, given the choices `D` of the marks below `n`: the mark
points to its base, the base to the last mark merged with it, and gets the composed text. -/
def mergedGlyph (compose : List ℕ → Str) (cs : List Glyph) (D : ℕ → Option ℕ) (n k : ℕ) (box : Box) (c : Glyph) : Glyph :=
  { c with
    pos := box
    markOf := if k < n then (D k).bind fun b => cs[b]?.map (·.uid) else none
    baseOf := (marksOn D n k).getLast?.bind fun j => cs[j]?.map (·.uid)
    textWithMark := ((marksOn D n k).getLast?.bind fun j => cs[j]?.bind fun m => (markUnicode m).map fun u =>
      compose (c.unicodes ++ [u])).getD c.textWithMark }

theorem merged_invariant (compose : List ℕ → Str) (cs : List Glyph)
    (hfresh : ∀ c ∈ cs, c.markOf = none ∧ c.baseOf = none) (n : ℕ) :
    ∀ (k : ℕ) (c : Glyph), cs[k]? = some c →
      (stateAt compose cs n)[k]? = some (mergedGlyph compose cs (fun j => chosen (stateAt compose cs j) j) n k
        (boxes (stateAt compose cs n) k) c) := by
  induction n with
  | zero =>
    intro k c hk
    have hs : stateAt compose cs 0 = cs := rfl
    have hc := hfresh c (List.mem_of_getElem? hk)
    rw [hs, hk, boxes_some hk]
    obtain ⟨h1, h2⟩ := hc
    cases c
    simp_all [mergedGlyph, marksOn]
  | succ n ih =>
    intro k c hk
    set D := fun j => chosen (stateAt compose cs j) j with hD
    have hr : run compose cs (n + 1) = Diacritics.step compose (stateAt compose cs n) n := by
      rw [run, (run_ok compose cs n).1]; rfl
    have hsame : ∀ g, (stateAt compose cs n)[k]? = some g → g.unicodes = c.unicodes ∧ g.uid = c.uid := by
      intro g hg
      rw [ih k c hk] at hg
      rw [← Option.some.inj hg]
      exact ⟨rfl, rfl⟩
    rcases step_eq compose (stateAt compose cs n) n with ⟨hd, h⟩ | ⟨b, u, cur, base, hd, hcur, hu, hbase, hbn, h⟩
    · have hs : stateAt compose cs (n + 1) = stateAt compose cs n := by rw [stateAt, hr, h]
      rw [hs, ih k c hk]
      congr 1
      have hm : ∀ k, marksOn D (n + 1) k = marksOn D n k := by
        intro k; rw [marksOn_succ, if_neg (by simp [hD, hd])]; simp
      unfold mergedGlyph
      rw [hm]
      congr 1
      by_cases h1 : k < n
      · simp [h1, Nat.lt_succ_of_lt h1]
      · by_cases h2 : k = n
        · subst h2; simp [hD, hd]
        · have : ¬ k < n + 1 := by omega
          simp [h1, this]
    · have hs : stateAt compose cs (n + 1) = attach compose (stateAt compose cs n) n b u cur base := by
        rw [stateAt, hr, h]
      have hDn : D n = some b := hd
      -- the characters concerned
      have hlen := (run_ok compose cs n).2
      have hnlt : n < cs.length := by rw [← hlen]; exact (List.getElem?_eq_some_iff.1 hcur).1
      have hblt : b < cs.length := by rw [← hlen]; exact (List.getElem?_eq_some_iff.1 hbase).1
      have hcn : cs[n]? = some cs[n] := List.getElem?_eq_getElem hnlt
      have hcb : cs[b]? = some cs[b] := List.getElem?_eq_getElem hblt
      have hcur' := ih n cs[n] hcn
      have hbase' := ih b cs[b] hcb
      rw [hcur] at hcur'
      rw [hbase] at hbase'
      have ecur := Option.some.inj hcur'
      have ebase := Option.some.inj hbase'
      have hmu : markUnicode cs[n] = some u := by
        rw [← hu, ecur]; rfl
      have hub : base.uid = cs[b].uid := by rw [ebase]; rfl
      have huc : cur.uid = cs[n].uid := by rw [ecur]; rfl
      have hunib : base.unicodes = cs[b].unicodes := by rw [ebase]; rfl
      have hget : (stateAt compose cs (n + 1))[k]? =
          if k = b then some { base with
            baseOf := some cur.uid
            textWithMark := compose (base.unicodes ++ [u])
            pos := base.pos.extend cur.pos }
          else if k = n then some { cur with markOf := some base.uid } else (stateAt compose cs n)[k]? := by
        rw [hs, attach, List.getElem?_set]
        have h1 : b < ((stateAt compose cs n).set n { cur with markOf := some base.uid }).length := by simp [hlen, hblt]
        by_cases hkb : k = b
        · subst hkb; simp [h1] at *; simp [hlen, hblt]
        · rw [if_neg (Ne.symm hkb), if_neg hkb, List.getElem?_set]
          by_cases hkn : k = n
          · subst hkn; simp [hlen, hnlt]
          · rw [if_neg (Ne.symm hkn), if_neg hkn]
      by_cases hkb : k = b
      · subst hkb
        have hcc : cs[k] = c := by rw [hk] at hcb; exact (Option.some.inj hcb).symm
        rw [hget, if_pos rfl]
        have hbox : boxes (stateAt compose cs (n + 1)) k = base.pos.extend cur.pos := by
          rw [boxes, hget, if_pos rfl]; rfl
        rw [hbox]
        congr 1
        rw [ebase, ecur]
        unfold mergedGlyph
        rw [marksOn_succ, hDn, if_pos rfl, hcc]
        simp only [List.getLast?_append, List.getLast?_singleton, Option.some_or, Option.bind_some, hcn, hmu, Option.map_some,
          Option.getD_some]
        congr 1
        by_cases h1 : k < n
        · simp [h1, Nat.lt_succ_of_lt h1]
        · have : ¬ k < n + 1 := by omega
          simp [h1, this]
      · have hmk : marksOn D (n + 1) k = marksOn D n k := by
          rw [marksOn_succ, hDn, if_neg (by simpa using Ne.symm hkb)]; simp
        by_cases hkn : k = n
        · subst hkn
          have hcc : cs[k] = c := by rw [hk] at hcn; exact (Option.some.inj hcn).symm
          rw [hget, if_neg hkb, if_pos rfl]
          have hbox : boxes (stateAt compose cs (k + 1)) k = boxes (stateAt compose cs k) k := by
            rw [boxes, hget, if_neg hkb, if_pos rfl, boxes, hcur]; rfl
          rw [hbox]
          congr 1
          rw [ecur]
          unfold mergedGlyph
          rw [hmk, hcc]
          simp only [Nat.lt_irrefl, if_false, Nat.lt_succ_self, if_true, hDn, Option.bind_some, hcb, Option.map_some, hub]
        · rw [hget, if_neg hkb, if_neg hkn, ih k c hk]
          have hbox : boxes (stateAt compose cs (n + 1)) k = boxes (stateAt compose cs n) k := by
            rw [boxes, hget, if_neg hkb, if_neg hkn, boxes]
          rw [hbox]
          congr 1
          unfold mergedGlyph
          rw [hmk]
          congr 1
          by_cases h1 : k < n
          · simp [h1, Nat.lt_succ_of_lt h1]
          · have : ¬ k < n + 1 := by omega
            simp [h1, this]

/-! ## The theorems -/

/-- The position of the character with which the character at position `i` is merged. -/
def mergedWith (compose : List ℕ → Str) (cs : List Glyph) (i : ℕ) : Option ℕ := chosen (stateAt compose cs i) i

/-- The box of the character at position `k` after `n` iterations. -/
def boxAfter (compose : List ℕ → Str) (cs : List Glyph) (n k : ℕ) : Box := boxes (stateAt compose cs n) k

theorem boxAfter_isHull (compose : List ℕ → Str) (cs : List Glyph) (n : ℕ) : ∀ (k : ℕ) (c : Glyph), cs[k]? = some c →
    IsHull (c.pos :: (marksOn (mergedWith compose cs) n k).map fun j => boxAfter compose cs j j) (boxAfter compose cs n k) := by
  induction n with
  | zero =>
    intro k c hk
    have : boxAfter compose cs 0 k = c.pos := boxes_some hk
    rw [this]
    exact ⟨⟨⟨c.pos, by simp, rfl⟩, by simp [marksOn]⟩, ⟨⟨c.pos, by simp, rfl⟩, by simp [marksOn]⟩,
      ⟨⟨c.pos, by simp, rfl⟩, by simp [marksOn]⟩, ⟨⟨c.pos, by simp, rfl⟩, by simp [marksOn]⟩⟩
  | succ n ih =>
    intro k c hk
    have hr : run compose cs (n + 1) = Diacritics.step compose (stateAt compose cs n) n := by
      rw [run, (run_ok compose cs n).1]; rfl
    rw [marksOn_succ]
    rcases step_eq compose (stateAt compose cs n) n with ⟨hd, h⟩ | ⟨b, u, cur, base, hd, hcur, hu, hbase, hbn, h⟩
    · have hs : stateAt compose cs (n + 1) = stateAt compose cs n := by rw [stateAt, hr, h]
      have : mergedWith compose cs n = none := hd
      rw [this, if_neg (by simp), List.append_nil, boxAfter, hs]
      exact ih k c hk
    · have hs : stateAt compose cs (n + 1) = attach compose (stateAt compose cs n) n b u cur base := by
        rw [stateAt, hr, h]
      have hm : mergedWith compose cs n = some b := hd
      have hbl : b < (stateAt compose cs n).length := (List.getElem?_eq_some_iff.1 hbase).1
      have hnl : n < (stateAt compose cs n).length := (List.getElem?_eq_some_iff.1 hcur).1
      by_cases hkb : k = b
      · subst hkb
        rw [hm, if_pos rfl]
        have h1 : boxAfter compose cs (n + 1) k = (boxAfter compose cs n k).extend (boxAfter compose cs n n) := by
          have e1 : boxAfter compose cs n k = base.pos := boxes_some hbase
          have e2 : boxAfter compose cs n n = cur.pos := boxes_some hcur
          rw [e1, e2, boxAfter, boxes, hs, attach, List.getElem?_set_self (by simpa using hbl)]
          rfl
        rw [h1]
        have := isHull_extend (e := boxAfter compose cs n n) (ih k c hk)
        simpa using this
      · rw [hm, if_neg (by simpa using Ne.symm hkb), List.append_nil]
        have h1 : boxAfter compose cs (n + 1) k = boxAfter compose cs n k := by
          rw [boxAfter, boxes, hs, attach, List.getElem?_set_ne (Ne.symm hkb)]
          by_cases hkn : k = n
          · subst hkn
            rw [List.getElem?_set_self hnl]
            exact (boxes_some hcur).symm
          · rw [List.getElem?_set_ne (Ne.symm hkn)]; rfl
        rw [h1]
        exact ih k c hk

/-- **C38.** Which characters count as diacritical marks: those with a single unicode that is a spacing modifier letter, a combining
diacritical mark or one of 17 further signs, among them the ASCII characters `"`, `'`, `^`, `_`, `` ` `` and `~`. -/
theorem c38_which_marks (c : Glyph) :
    (markUnicode c).isSome = true ↔ ∃ u, c.unicodes = [u] ∧ ((0x02B0 ≤ u ∧ u ≤ 0x036F) ∨
      u ∈ [0x22, 0x27, 0x5E, 0x5F, 0x60, 0x7E, 0xA8, 0xAF, 0xB0, 0xB4, 0xB8, 0x0384, 0x0485, 0x0486, 0x0559, 0x055A, 0x204E]) := by
  have key : ∀ u, ((0x02B0 ≤ combining u ∧ combining u ≤ 0x02FF) ∨ (0x0300 ≤ combining u ∧ combining u ≤ 0x036F)) ↔
      ((0x02B0 ≤ u ∧ u ≤ 0x036F) ∨
      u ∈ [0x22, 0x27, 0x5E, 0x5F, 0x60, 0x7E, 0xA8, 0xAF, 0xB0, 0xB4, 0xB8, 0x0384, 0x0485, 0x0486, 0x0559, 0x055A, 0x204E]) := by
    intro u
    rcases hl : combiningMap.lookup u with _ | v
    · have h1 : combining u = u := by simp [combining, hl]
      have h2 : ∀ p ∈ combiningMap, u ≠ p.1 := by
        rw [List.lookup_eq_none_iff] at hl
        intro p hp e
        have := hl p hp
        simp [e] at this
      have h3 : u ∉ [0x22, 0x27, 0x5E, 0x5F, 0x60, 0x7E, 0xA8, 0xAF, 0xB0, 0xB4, 0xB8, 0x0384, 0x0485, 0x0486, 0x0559, 0x055A, 0x204E] := by
        have hk : ∀ v ∈ [0x22, 0x27, 0x5E, 0x5F, 0x60, 0x7E, 0xA8, 0xAF, 0xB0, 0xB4, 0xB8, 0x0384, 0x0485, 0x0486, 0x0559, 0x055A, 0x204E],
            ∃ p ∈ combiningMap, v = p.1 := by decide
        intro hm
        obtain ⟨p, hp, e⟩ := hk u hm
        exact h2 p hp e
      rw [h1]
      constructor
      · rintro (h | h)
        · left; omega
        · left; omega
      · rintro (h | h)
        · omega
        · exact absurd h h3
    · have h1 : combining u = v := by simp [combining, hl]
      have hk : ∀ p ∈ combiningMap, (0x0300 ≤ p.2 ∧ p.2 ≤ 0x036F) ∧ ((0x02B0 ≤ p.1 ∧ p.1 ≤ 0x036F) ∨
          p.1 ∈ [0x22, 0x27, 0x5E, 0x5F, 0x60, 0x7E, 0xA8, 0xAF, 0xB0, 0xB4, 0xB8, 0x0384, 0x0485, 0x0486, 0x0559, 0x055A, 0x204E]) := by decide
      have hmem : (u, v) ∈ combiningMap := by
        obtain ⟨l1, l2, e, -⟩ := List.lookup_eq_some_iff.1 hl
        rw [e]; simp
      rw [h1]
      exact ⟨fun _ => (hk _ hmem).2, fun _ => Or.inr (hk _ hmem).1⟩
  unfold markUnicode
  rcases hc : c.unicodes with _ | ⟨u, _ | ⟨w, ws⟩⟩
  · simp
  · simp only
    rw [show (∃ u', [u] = [u'] ∧ ((0x02B0 ≤ u' ∧ u' ≤ 0x036F) ∨
      u' ∈ [0x22, 0x27, 0x5E, 0x5F, 0x60, 0x7E, 0xA8, 0xAF, 0xB0, 0xB4, 0xB8, 0x0384, 0x0485, 0x0486, 0x0559, 0x055A, 0x204E])) ↔ _ from
      ⟨fun ⟨u', e, h⟩ => by obtain rfl : u = u' := by simpa using e
                            exact h, fun h => ⟨u, rfl, h⟩⟩, ← key u]
    split_ifs with h
    · simp [h]
    · simp [h]
  · simp

/-- **C38.** For every page: merging never dereferences a missing character; every mark is merged with the direct neighbour it overlaps
more, or left alone if it overlaps neither (`IsChoice`, with the boxes at that moment); other characters are merged with nothing. The result differs from the input only
in the links between marks and bases, the composed text (base, last mark merged with it) and the boxes: a base's box becomes the
smallest box around it and its marks. -/
theorem c38_exact (compose : List ℕ → Str) (cs : List Glyph) (hfresh : ∀ c ∈ cs, c.markOf = none ∧ c.baseOf = none) :
    ∃ out, processPage compose cs = .ok out ∧ out.length = cs.length ∧
    (∀ (i : ℕ) (c : Glyph), cs[i]? = some c →
      (markUnicode c = none → mergedWith compose cs i = none) ∧
      ((markUnicode c).isSome = true → IsChoice cs.length i (boxAfter compose cs i) (mergedWith compose cs i))) ∧
    (∀ (n k : ℕ) (c : Glyph), cs[k]? = some c →
      IsHull (c.pos :: (marksOn (mergedWith compose cs) n k).map fun j => boxAfter compose cs j j) (boxAfter compose cs n k)) ∧
    (∀ (k : ℕ) (c : Glyph), cs[k]? = some c → out[k]? = some
      { c with
        pos := boxAfter compose cs cs.length k
        markOf := (mergedWith compose cs k).bind fun b => cs[b]?.map (·.uid)
        baseOf := (marksOn (mergedWith compose cs) cs.length k).getLast?.bind fun j => cs[j]?.map (·.uid)
        textWithMark := ((marksOn (mergedWith compose cs) cs.length k).getLast?.bind fun j => cs[j]?.bind fun m =>
          (markUnicode m).map fun u => compose (c.unicodes ++ [u])).getD c.textWithMark }) := by
  refine ⟨stateAt compose cs cs.length, (run_ok compose cs _).1, (run_ok compose cs _).2, ?_,
    fun n k c hk => boxAfter_isHull compose cs n k c hk, ?_⟩
  · intro i c hi
    have hst := merged_invariant compose cs hfresh i i c hi
    have hmu : markUnicode (mergedGlyph compose cs (fun j => chosen (stateAt compose cs j) j) i i
        (boxes (stateAt compose cs i) i) c) = markUnicode c := rfl
    constructor
    · intro h
      unfold mergedWith chosen
      rw [hst]
      simp only [hmu, h]
    · intro h
      obtain ⟨u, hu⟩ := Option.isSome_iff_exists.1 h
      have := chosen_isChoice hst (hmu.trans hu)
      rw [(run_ok compose cs i).2] at this
      exact this
  · intro k c hk
    have h := merged_invariant compose cs hfresh cs.length k c hk
    have hlt : k < cs.length := (List.getElem?_eq_some_iff.1 hk).1
    rw [h]
    unfold mergedGlyph
    rw [if_pos hlt]
    rfl

/-- Two marks are never merged with the same character, and a merged mark is never the base of another mark. -/
def NoClash (D : ℕ → Option ℕ) : Prop :=
  (∀ i j b, D i = some b → D j = some b → i = j) ∧ (∀ i b, D i = some b → D b = none)

/-- **C38.** If no two marks are merged with the same character and no mark is merged with a merged mark, nothing is lost: an unmerged character without marks contributes its own text to its word, a merged mark nothing, and its base —
a direct neighbour, which is not skipped — the composition of the base and this mark. Missing: the two excluded cases, in which a mark is
lost, see below. -/
theorem c38_nothing_lost_partial (compose : List ℕ → Str) (cs : List Glyph)
    (hfresh : ∀ c ∈ cs, c.markOf = none ∧ c.baseOf = none) (hclash : NoClash (mergedWith compose cs)) :
    ∃ out, processPage compose cs = .ok out ∧ out.length = cs.length ∧ ∀ (k : ℕ) (c : Glyph), cs[k]? = some c →
      ∃ o, out[k]? = some o ∧
        ((o.markOf = none ∧ glyphText o = c.text ∧ ∀ j, mergedWith compose cs j ≠ some k) ∨
         (∃ j m u, (j + 1 = k ∨ j = k + 1) ∧ cs[j]? = some m ∧ markUnicode m = some u ∧ mergedWith compose cs j = some k ∧
            o.markOf = none ∧ glyphText o = compose (c.unicodes ++ [u])) ∨
         (∃ b u cb ob, (b + 1 = k ∨ b = k + 1) ∧ markUnicode c = some u ∧ cs[b]? = some cb ∧ out[b]? = some ob ∧
            mergedWith compose cs k = some b ∧ o.markOf = some cb.uid ∧ glyphText o = [] ∧
            ob.markOf = none ∧ glyphText ob = compose (cb.unicodes ++ [u]))) := by
  obtain ⟨out, h1, h2, h3, -, h5⟩ := c38_exact compose cs hfresh
  refine ⟨out, h1, h2, ?_⟩
  set D := mergedWith compose cs with hD
  -- a merged character is a mark next to its base
  have hmark : ∀ i b, D i = some b → i < cs.length → ∃ m u cb, cs[i]? = some m ∧ markUnicode m = some u ∧ cs[b]? = some cb ∧
      (b + 1 = i ∨ b = i + 1) := by
    intro i b hb hi
    have hm : cs[i]? = some cs[i] := List.getElem?_eq_getElem hi
    rcases hu : markUnicode cs[i] with _ | u
    · rw [(h3 i _ hm).1 hu] at hb; simp at hb
    · have hc := ((h3 i _ hm).2 (by simp [hu])).neighbour b hb
      exact ⟨_, u, cs[b], hm, hu, List.getElem?_eq_getElem hc.1, hc.2⟩
  -- the marks on a base
  have hmarks : ∀ i b, D i = some b → i < cs.length → marksOn D cs.length b = [i] := by
    intro i b hb hi
    unfold marksOn
    have hfe : (List.range cs.length).filter (fun j => decide (D j = some b)) = (List.range cs.length).filter (fun j => j == i) := by
      apply List.filter_congr
      intro j _
      by_cases hj : D j = some b
      · have := hclash.1 i j b hb hj
        subst this
        simp [hb]
      · have : j ≠ i := by rintro rfl; exact hj hb
        simp [hj, this]
    rw [hfe, List.filter_beq, List.count_eq_one_of_mem List.nodup_range (List.mem_range.2 hi)]
    rfl
  have hbase : ∀ i b m u cb, D i = some b → i < cs.length → cs[i]? = some m → markUnicode m = some u → cs[b]? = some cb →
      ∃ ob, out[b]? = some ob ∧ ob.markOf = none ∧ glyphText ob = compose (cb.unicodes ++ [u]) := by
    intro i b m u cb hb hi hm hu hcb
    refine ⟨_, h5 b cb hcb, ?_, ?_⟩
    · simp only
      rw [hclash.2 i b hb]; rfl
    · simp [glyphText, hmarks i b hb hi, hm, hu]
  intro k c hk
  have hklt : k < cs.length := (List.getElem?_eq_some_iff.1 hk).1
  refine ⟨_, h5 k c hk, ?_⟩
  rcases hd : D k with _ | b
  · by_cases hj : ∃ j, D j = some k
    · right; left
      obtain ⟨j, hj⟩ := hj
      have hjlt : j < cs.length := by
        by_contra hge
        have hnone : (stateAt compose cs j)[j]? = none :=
          List.getElem?_eq_none (by rw [(run_ok compose cs j).2]; omega)
        have : D j = none := by
          rw [hD]; unfold mergedWith chosen; rw [hnone]
        rw [this] at hj; simp at hj
      obtain ⟨m, u, cb, hm, hu, hcb, hn⟩ := hmark j k hj hjlt
      refine ⟨j, m, u, by omega, hm, hu, hj, rfl, ?_⟩
      simp [glyphText, hmarks j k hj hjlt, hm, hu]
    · left
      push Not at hj
      have hempty : marksOn D cs.length k = [] := by
        unfold marksOn
        rw [List.filter_eq_nil_iff]
        intro j _
        simpa using hj j
      refine ⟨rfl, ?_, hj⟩
      simp [glyphText, hempty]
  · right; right
    obtain ⟨m, u, cb, hm, hu, hcb, hn⟩ := hmark k b hd hklt
    rw [hk] at hm
    obtain rfl := Option.some.inj hm
    obtain ⟨ob, hob, ho1, ho2⟩ := hbase k b c u cb hd hklt hk hu hcb
    have hkm : marksOn D cs.length k = [] := by
      unfold marksOn
      rw [List.filter_eq_nil_iff]
      intro j _ hj
      have := hclash.2 j k (by simpa using hj)
      rw [hd] at this; simp at this
    refine ⟨b, u, cb, ob, hn, hu, hcb, hob, rfl, ?_, ?_, ho1, ho2⟩
    · simp [hcb]
    · simp [glyphText, hkm, hcb]

/-- **C38.** The condition of `c38_nothing_lost_partial` holds on every page on which there are at least two other characters between any two marks. -/
theorem c38_sparse_marks (compose : List ℕ → Str) (cs : List Glyph) (hfresh : ∀ c ∈ cs, c.markOf = none ∧ c.baseOf = none)
    (hsparse : ∀ (i j : ℕ) (a b : Glyph), cs[i]? = some a → cs[j]? = some b → (markUnicode a).isSome = true →
      (markUnicode b).isSome = true → i < j → i + 3 ≤ j) : NoClash (mergedWith compose cs) := by
  obtain ⟨out, h1, h2, h3, -, -⟩ := c38_exact compose cs hfresh
  have hmark : ∀ i b, mergedWith compose cs i = some b → ∃ m, cs[i]? = some m ∧ (markUnicode m).isSome = true ∧ b < cs.length ∧
      (b + 1 = i ∨ b = i + 1) := by
    intro i b hb
    by_cases hi : i < cs.length
    · have hm : cs[i]? = some cs[i] := List.getElem?_eq_getElem hi
      rcases hu : markUnicode cs[i] with _ | u
      · rw [(h3 i _ hm).1 hu] at hb; simp at hb
      · have := ((h3 i _ hm).2 (by simp [hu])).neighbour b hb
        exact ⟨_, hm, by simp [hu], this⟩
    · have hnone : (stateAt compose cs i)[i]? = none :=
        List.getElem?_eq_none (by rw [(run_ok compose cs i).2]; omega)
      have : mergedWith compose cs i = none := by unfold mergedWith chosen; rw [hnone]
      rw [this] at hb; simp at hb
  constructor
  · intro i j b hi hj
    obtain ⟨m, hm1, hm2, -, hm3⟩ := hmark i b hi
    obtain ⟨m', hm1', hm2', -, hm3'⟩ := hmark j b hj
    rcases Nat.lt_trichotomy i j with h | h | h
    · have := hsparse i j m m' hm1 hm1' hm2 hm2' h; omega
    · exact h
    · have := hsparse j i m' m hm1' hm1 hm2' hm2 h; omega
  · intro i b hi
    obtain ⟨m, hm1, hm2, hb, hm3⟩ := hmark i b hi
    rcases hd : mergedWith compose cs b with _ | b'
    · rfl
    · obtain ⟨m', hm1', hm2', -, hm3'⟩ := hmark b b' hd
      rcases Nat.lt_trichotomy i b with h | h | h
      · have := hsparse i b m m' hm1 hm1' hm2 hm2' h; omega
      · omega
      · have := hsparse b i m' m hm1' hm1 hm2' hm2 h; omega

/-- A character for the examples: number, x-range, unicode. -/
def glyphAt (uid : ℕ) (l r : ℚ) (u : ℕ) : Glyph :=
  { uid := uid, pos := { pageNum := 1, leftX := l, upperY := 10, rightX := r, lowerY := 20 }, text := [Char.ofNat u], unicodes := [u] }

/-- The composition used in the examples: the unicodes as characters. -/
def plainCompose (us : List ℕ) : Str := us.map Char.ofNat

/-- The page `n`, `´` over `a`, `a`, `b`. -/
def accentPage : List Glyph := [glyphAt 0 0 5 110, glyphAt 1 6 8 0xB4, glyphAt 2 6 11 97, glyphAt 3 12 17 98]

example : (∀ c ∈ accentPage, c.markOf = none ∧ c.baseOf = none) ∧
    (processPage plainCompose accentPage).bind (fun out => .ok (out.map glyphText)) =
      .ok [['n'], [], ['a', Char.ofNat 0x0301], ['b']] := by
  constructor <;> decide +kernel

example : ∀ (i j : ℕ) (a b : Glyph), accentPage[i]? = some a → accentPage[j]? = some b → (markUnicode a).isSome = true →
      (markUnicode b).isSome = true → i < j → i + 3 ≤ j := by
  intro i j a b hi hj ha hb hij
  have hj4 : j < 4 := (List.getElem?_eq_some_iff.1 hj).1
  have hi4 : i < 4 := by omega
  have key : ∀ i < 4, ∀ j < 4, i < j → (accentPage[i]?.any fun a => (markUnicode a).isSome) = true →
      (accentPage[j]?.any fun a => (markUnicode a).isSome) = true → i + 3 ≤ j := by decide +kernel
  exact key i hi4 j hj4 hij (by rw [hi]; simpa using ha) (by rw [hj]; simpa using hb)

/-- **C38, refuted part.** Two marks above the same character (one in front of it, one behind it): only the last one is printed, the first one is lost. -/
theorem c38_two_marks_lose_one :
    (processPage plainCompose [glyphAt 0 6 8 0x5E, glyphAt 1 6 11 97, glyphAt 2 6 8 0xB4]).bind (fun out => .ok (out.map glyphText)) =
      .ok [[], ['a', Char.ofNat 0x0301], []] := by decide +kernel

/-- **C38, refuted part.** Two stacked marks behind their character: each of them is merged with the other one, so both are skipped by the
word detection and lost. -/
theorem c38_stacked_marks_lost :
    (processPage plainCompose [glyphAt 0 6 11 97, glyphAt 1 6 8 0x5E, glyphAt 2 6 8 0xB4]).bind
      (fun out => .ok (out.map fun c => (c.markOf, glyphText c))) =
      .ok [(none, ['a']), (some 2, ['^', Char.ofNat 0x0301]), (some 1, ['´', Char.ofNat 0x0302])] := by decide +kernel

/-- **C38, finding.** An ASCII apostrophe that touches the next letter is turned into an accent. -/
theorem c38_apostrophe_becomes_accent :
    (processPage plainCompose [glyphAt 0 0 5 110, glyphAt 1 5 7 0x27, glyphAt 2 (69/10) 9 116]).bind (fun out => .ok (out.map glyphText)) =
      .ok [['n'], [], ['t', Char.ofNat 0x0301]] := by decide +kernel

end Verif.Props
