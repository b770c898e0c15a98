import Verif.Model.Box
import Verif.Spec.Order
import Verif.Spec.Geometry
import Verif.Lemmas.Math
import Verif.Lemmas.Sort

/-!
# Property theorems C01 - C06 (numbers, comparators, boxes)
-/

namespace Verif.Props

open Verif Verif.Math Verif.Elements Verif.Spec

/-! ## C01 -/

/-- C01: exactly one of `equal`, `smaller`, `larger` holds. -/
theorem c01_trichotomy (a b t : ℚ) (ht : 0 ≤ t) :
    (equal a b t = true ∧ smaller a b t = false ∧ larger a b t = false) ∨
    (equal a b t = false ∧ smaller a b t = true ∧ larger a b t = false) ∨
    (equal a b t = false ∧ smaller a b t = false ∧ larger a b t = true) := by
  simp only [equal_iff, equal_false, smaller_iff, smaller_false, larger_iff, larger_false]
  rcases le_or_gt |a - b| t with h | h
  · left; rw [abs_le] at h; refine ⟨by rw [abs_le]; exact h, by linarith, by linarith⟩
  · rcases lt_abs.mp h with h' | h'
    · right; right; exact ⟨h, by linarith, by linarith⟩
    · right; left; exact ⟨h, by linarith, by linarith⟩

/-- C01: `smaller` / `larger` mean "differs by more than the tolerance, in that direction";
`equal` means "differs by at most the tolerance". -/
theorem c01_meaning (a b t : ℚ) (ht : 0 ≤ t) :
    (smaller a b t = true ↔ a < b ∧ t < |b - a|) ∧
    (larger a b t = true ↔ b < a ∧ t < |b - a|) ∧
    (equal a b t = true ↔ |b - a| ≤ t) := by
  simp only [equal_iff, smaller_iff, larger_iff, abs_sub_comm a b, and_true, iff_self]
  constructor
  · constructor
    · intro h
      have hab : a < b := by linarith
      refine ⟨hab, ?_⟩
      rw [abs_of_pos (by linarith)]; linarith
    · rintro ⟨h1, h2⟩
      rw [abs_of_pos (by linarith)] at h2; linarith
  · constructor
    · intro h
      have hab : b < a := by linarith
      refine ⟨hab, ?_⟩
      rw [abs_of_neg (by linarith)]; linarith
    · rintro ⟨h1, h2⟩
      rw [abs_of_neg (by linarith)] at h2; linarith

/-- C01: the non-strict comparisons are the negations of the strict ones, and are the disjunction
of `equal` and the strict one. -/
theorem c01_nonstrict (a b t : ℚ) (ht : 0 ≤ t) :
    equalOrLarger a b t = !(smaller a b t) ∧ equalOrSmaller a b t = !(larger a b t) ∧
    equalOrLarger a b t = (equal a b t || larger a b t) ∧
    equalOrSmaller a b t = (equal a b t || smaller a b t) := by
  have e1 : equalOrLarger a b t = !(smaller a b t) := by
    unfold equalOrLarger smaller; rw [← decide_not]; simp
  have e2 : equalOrSmaller a b t = !(larger a b t) := by
    unfold equalOrSmaller larger; rw [← decide_not]; simp
  refine ⟨e1, e2, ?_, ?_⟩
  · rw [e1]; rcases c01_trichotomy a b t ht with ⟨h1, h2, h3⟩ | ⟨h1, h2, h3⟩ | ⟨h1, h2, h3⟩ <;> simp [*]
  · rw [e2]; rcases c01_trichotomy a b t ht with ⟨h1, h2, h3⟩ | ⟨h1, h2, h3⟩ | ⟨h1, h2, h3⟩ <;> simp [*]

/-- C01: swapping the arguments mirrors the comparison. -/
theorem c01_swap (a b t : ℚ) :
    larger a b t = smaller b a t ∧ equal a b t = equal b a t ∧
    equalOrLarger a b t = equalOrSmaller b a t := by
  refine ⟨?_, ?_, ?_⟩
  · rw [Bool.eq_iff_iff, larger_iff, smaller_iff]; constructor <;> intro h <;> linarith
  · rw [Bool.eq_iff_iff, equal_iff, equal_iff, abs_sub_comm]
  · rw [Bool.eq_iff_iff, eol_iff, eos_iff]; constructor <;> intro h <;> linarith

/-- C01: `between` is membership in the interval widened by the tolerance: some point of
`[low, up]` is at distance at most `t`. -/
theorem c01_between (d low up t : ℚ) (h : low ≤ up) (ht : 0 ≤ t) :
    between d low up t = true ↔ ∃ x, low ≤ x ∧ x ≤ up ∧ |d - x| ≤ t := by
  unfold between
  rw [Bool.and_eq_true, eol_iff, eos_iff]
  constructor
  · rintro ⟨h1, h2⟩
    refine ⟨max low (min d up), le_max_left _ _, max_le h (min_le_right _ _), ?_⟩
    rcases le_or_gt d low with h3 | h3
    · rw [min_eq_left (by linarith), max_eq_left h3, abs_le]; constructor <;> linarith
    · rcases le_or_gt d up with h4 | h4
      · rw [min_eq_left h4, max_eq_right (by linarith)]; simpa
      · rw [min_eq_right (by linarith), max_eq_right h, abs_le]; constructor <;> linarith
  · rintro ⟨x, h1, h2, h3⟩
    rw [abs_le] at h3; constructor <;> linarith

example : between 3 3 4 (1/10) = true ∧ between (29/10) 3 4 (1/10) = true ∧
    between (28/10) 3 4 (1/10) = false := by
  norm_num [between, equalOrLarger, equalOrSmaller]

/-! ## C02 -/

/-- All comparators of `/repo/src/utils/Comparators.h`. -/
def allComparators : List (Box → Box → Bool) :=
  [Comparators.leftXAsc, Comparators.rightXDesc, Comparators.upperYAsc, Comparators.rotLeftXAsc,
   Comparators.rotLeftXDesc, Comparators.rotLowerYAsc, Comparators.rotLowerYDesc]

/-- The four coordinates of the box were rounded to `n` decimals
(`/repo/src/PdfParsing.cpp:460-463` rounds every coordinate it stores). -/
def RoundedBox (n : ℕ) (b : Box) : Prop :=
  (∃ x, b.leftX = roundTo x n) ∧ (∃ x, b.upperY = roundTo x n) ∧
  (∃ x, b.rightX = roundTo x n) ∧ (∃ x, b.lowerY = roundTo x n)

/-- C02: every comparator is irreflexive, asymmetric and transitive on all boxes. -/
theorem c02_strict_partial_order : ∀ cmp ∈ allComparators, StrictPartialOrder cmp := by
  have ht := tol_pos
  have asc : ∀ key : Box → ℚ, StrictPartialOrder (fun a b => smaller (key a) (key b) tol) := by
    intro key
    refine ⟨?_, ?_, ?_⟩
    · intro a; simp only [smaller_false]; linarith
    · intro a b h; simp only [smaller_iff, smaller_false] at *; linarith
    · intro a b c h1 h2; simp only [smaller_iff] at *; linarith
  have desc : ∀ key : Box → ℚ, StrictPartialOrder (fun a b => larger (key a) (key b) tol) := by
    intro key
    refine ⟨?_, ?_, ?_⟩
    · intro a; simp only [larger_false]; linarith
    · intro a b h; simp only [larger_iff, larger_false] at *; linarith
    · intro a b c h1 h2; simp only [larger_iff] at *; linarith
  intro cmp hc
  simp only [allComparators, List.mem_cons, List.not_mem_nil, or_false] at hc
  rcases hc with rfl | rfl | rfl | rfl | rfl | rfl | rfl
  · exact asc Box.leftX
  · exact desc Box.rightX
  · exact asc Box.upperY
  · exact asc Box.getRotLeftX
  · exact desc Box.getRotLeftX
  · exact asc Box.getRotLowerY
  · exact desc Box.getRotLowerY

/-- On decimals with at most three places the tolerance comparison is the exact comparison. -/
theorem smaller_exact_of_decimal {n : ℕ} (hn : n ≤ 3) {a b : ℚ} (ha : IsDecimal n a)
    (hb : IsDecimal n b) : smaller a b tol = true ↔ a < b := by
  rw [smaller_iff]
  have ht := tol_pos
  refine ⟨fun h => by linarith, fun h => ?_⟩
  obtain ⟨x, rfl⟩ := ha
  obtain ⟨y, rfl⟩ := hb
  have hpos : (0 : ℚ) < 10 ^ n := by positivity
  have hxy : x < y := by
    have := (div_lt_div_iff_of_pos_right hpos).mp h
    exact_mod_cast this
  have h1 : (x : ℚ) + 1 ≤ y := by exact_mod_cast hxy
  have h3 : (10 : ℚ) ^ n ≤ 1000 := by
    calc (10 : ℚ) ^ n ≤ 10 ^ 3 := pow_le_pow_right₀ (by norm_num) hn
      _ = 1000 := by norm_num
  have h4 : (1 : ℚ) / 1000 ≤ 1 / 10 ^ n := one_div_le_one_div_of_le hpos h3
  have h5 : (x : ℚ) / 10 ^ n + 1 / 10 ^ n ≤ y / 10 ^ n := by
    rw [← add_div]; exact (div_le_div_iff_of_pos_right hpos).mpr h1
  have h6 : tol < 1 / 1000 := by norm_num [tol]
  linarith

theorem larger_exact_of_decimal {n : ℕ} (hn : n ≤ 3) {a b : ℚ} (ha : IsDecimal n a)
    (hb : IsDecimal n b) : larger a b tol = true ↔ b < a := by
  rw [(c01_swap a b tol).1]; exact smaller_exact_of_decimal hn hb ha

theorem isDecimal_round (x : ℚ) (n : ℕ) : IsDecimal n (roundTo x n) := ⟨_, roundTo_eq x n⟩

/-- The exact order by a numeric key is a strict weak order. -/
theorem swo_of_exact {α : Type} {lt : α → α → Bool} {l : List α} (key : α → ℚ)
    (h : ∀ a ∈ l, ∀ b ∈ l, (lt a b = true ↔ key a < key b)) : StrictWeakOrderOn lt l := by
  have hf : ∀ a ∈ l, ∀ b ∈ l, (lt a b = false ↔ key b ≤ key a) := by
    intro a ha b hb
    rw [← Bool.not_eq_true, h a ha b hb, not_lt]
  refine ⟨?_, ?_, ?_⟩
  · intro a ha; rw [hf a ha a ha]
  · intro a ha b hb c hc; rw [h a ha b hb, h b hb c hc, h a ha c hc]; exact lt_trans
  · intro a ha b hb c hc ⟨h1, h2⟩ ⟨h3, h4⟩
    rw [hf a ha b hb] at h1; rw [hf b hb a ha] at h2
    rw [hf b hb c hc] at h3; rw [hf c hc b hb] at h4
    exact ⟨(hf a ha c hc).mpr (le_trans h3 h1), (hf c hc a ha).mpr (le_trans h2 h4)⟩

theorem rotLeftX_decimal {n : ℕ} {b : Box} (h : RoundedBox n b) : IsDecimal n b.getRotLeftX := by
  obtain ⟨⟨x1, h1⟩, ⟨x2, h2⟩, ⟨x3, h3⟩, ⟨x4, h4⟩⟩ := h
  unfold Box.getRotLeftX
  split
  · rw [h2]; exact isDecimal_round _ _
  split
  · rw [h3]; exact isDecimal_round _ _
  split
  · rw [h4]; exact isDecimal_round _ _
  · rw [h1]; exact isDecimal_round _ _

theorem rotLowerY_decimal {n : ℕ} {b : Box} (h : RoundedBox n b) : IsDecimal n b.getRotLowerY := by
  obtain ⟨⟨x1, h1⟩, ⟨x2, h2⟩, ⟨x3, h3⟩, ⟨x4, h4⟩⟩ := h
  unfold Box.getRotLowerY
  split
  · rw [h1]; exact isDecimal_round _ _
  split
  · rw [h2]; exact isDecimal_round _ _
  split
  · rw [h3]; exact isDecimal_round _ _
  · rw [h4]; exact isDecimal_round _ _

/-- C02: on boxes whose coordinates were rounded to at most three decimals, every comparator is a
strict weak order, i.e. sorting with it is defined behaviour. -/
theorem c02_strict_weak_order_on_rounded (n : ℕ) (hn : n ≤ 3) (l : List Box)
    (h : ∀ b ∈ l, RoundedBox n b) : ∀ cmp ∈ allComparators, StrictWeakOrderOn cmp l := by
  have asc : ∀ key : Box → ℚ, (∀ b ∈ l, IsDecimal n (key b)) →
      StrictWeakOrderOn (fun a b => smaller (key a) (key b) tol) l := fun key hk =>
    swo_of_exact key fun a ha b hb => smaller_exact_of_decimal hn (hk a ha) (hk b hb)
  have desc : ∀ key : Box → ℚ, (∀ b ∈ l, IsDecimal n (key b)) →
      StrictWeakOrderOn (fun a b => larger (key a) (key b) tol) l := fun key hk =>
    swo_of_exact (fun b => - key b) fun a ha b hb => by
      rw [larger_exact_of_decimal hn (hk a ha) (hk b hb)]; exact neg_lt_neg_iff.symm
  intro cmp hc
  simp only [allComparators, List.mem_cons, List.not_mem_nil, or_false] at hc
  rcases hc with rfl | rfl | rfl | rfl | rfl | rfl | rfl
  · exact asc Box.leftX fun b hb => by obtain ⟨x, hx⟩ := (h b hb).1; rw [hx]; exact isDecimal_round _ _
  · exact desc Box.rightX fun b hb => by
      obtain ⟨x, hx⟩ := (h b hb).2.2.1; rw [hx]; exact isDecimal_round _ _
  · exact asc Box.upperY fun b hb => by
      obtain ⟨x, hx⟩ := (h b hb).2.1; rw [hx]; exact isDecimal_round _ _
  · exact asc Box.getRotLeftX fun b hb => rotLeftX_decimal (h b hb)
  · exact desc Box.getRotLeftX fun b hb => rotLeftX_decimal (h b hb)
  · exact asc Box.getRotLowerY fun b hb => rotLowerY_decimal (h b hb)
  · exact desc Box.getRotLowerY fun b hb => rotLowerY_decimal (h b hb)

/-- C02: sorting rounded boxes by left edge (by any `std::sort` that keeps its contract) gives a
rearrangement ordered by the exact left edges; likewise for the right edge (descending) and the
upper edge. -/
theorem c02_sorted_exactly (n : ℕ) (hn : n ≤ 3) (l : List Box) (h : ∀ b ∈ l, RoundedBox n b)
    (sortL sortR sortU : List Box → List Box)
    (hL : SortContract Comparators.leftXAsc sortL) (hR : SortContract Comparators.rightXDesc sortR)
    (hU : SortContract Comparators.upperYAsc sortU) :
    ((sortL l).Perm l ∧ (sortL l).Pairwise (fun a b => a.leftX ≤ b.leftX)) ∧
    ((sortR l).Perm l ∧ (sortR l).Pairwise (fun a b => a.rightX ≥ b.rightX)) ∧
    ((sortU l).Perm l ∧ (sortU l).Pairwise (fun a b => a.upperY ≤ b.upperY)) := by
  have w := c02_strict_weak_order_on_rounded n hn l h
  have dL : ∀ b ∈ l, IsDecimal n b.leftX := fun b hb => by
    obtain ⟨x, hx⟩ := (h b hb).1; rw [hx]; exact isDecimal_round _ _
  have dU : ∀ b ∈ l, IsDecimal n b.upperY := fun b hb => by
    obtain ⟨x, hx⟩ := (h b hb).2.1; rw [hx]; exact isDecimal_round _ _
  have dR : ∀ b ∈ l, IsDecimal n b.rightX := fun b hb => by
    obtain ⟨x, hx⟩ := (h b hb).2.2.1; rw [hx]; exact isDecimal_round _ _
  refine ⟨?_, ?_, ?_⟩
  · obtain ⟨p, s⟩ := hL l (w _ (by simp [allComparators]))
    refine ⟨p, s.imp_of_mem fun {a b} ha hb hab => ?_⟩
    by_contra hc
    have := (smaller_exact_of_decimal hn (dL b (p.subset hb)) (dL a (p.subset ha))).mpr (not_le.mp hc)
    simp [Comparators.leftXAsc, this] at hab
  · obtain ⟨p, s⟩ := hR l (w _ (by simp [allComparators]))
    refine ⟨p, s.imp_of_mem fun {a b} ha hb hab => ?_⟩
    by_contra hc
    have := (larger_exact_of_decimal hn (dR b (p.subset hb)) (dR a (p.subset ha))).mpr (not_le.mp hc)
    simp [Comparators.rightXDesc, this] at hab
  · obtain ⟨p, s⟩ := hU l (w _ (by simp [allComparators]))
    refine ⟨p, s.imp_of_mem fun {a b} ha hb hab => ?_⟩
    by_contra hc
    have := (smaller_exact_of_decimal hn (dU b (p.subset hb)) (dU a (p.subset ha))).mpr (not_le.mp hc)
    simp [Comparators.upperYAsc, this] at hab

/-- Three boxes that are pairwise closer than the tolerance to the middle one. -/
def driftBox (x : ℚ) : Box := { leftX := x, upperY := x, rightX := x, lowerY := x }

/-- C02 (negative part): without rounding no comparator is a strict weak order: three elements whose
coordinates differ by less than one tolerance step each already break it (so that the C++
standard gives no guarantee about sorting them). -/
theorem c02_not_strict_weak_order : ∃ l : List Box, l.length = 3 ∧
    ∀ cmp ∈ allComparators, ¬ StrictWeakOrderOn cmp l := by
  refine ⟨[driftBox 0, driftBox (1/10000), driftBox (2/10000)], rfl, ?_⟩
  intro cmp hc hw
  have key : ¬ Incomp cmp (driftBox 0) (driftBox (2/10000)) ∧
      Incomp cmp (driftBox 0) (driftBox (1/10000)) ∧
      Incomp cmp (driftBox (1/10000)) (driftBox (2/10000)) := by
    simp only [allComparators, List.mem_cons, List.not_mem_nil, or_false] at hc
    rcases hc with rfl | rfl | rfl | rfl | rfl | rfl | rfl <;>
    norm_num [Incomp, driftBox, Comparators.leftXAsc, Comparators.rightXDesc,
      Comparators.upperYAsc, Comparators.rotLeftXAsc, Comparators.rotLeftXDesc,
      Comparators.rotLowerYAsc, Comparators.rotLowerYDesc, smaller, larger, tol,
      Box.getRotLeftX, Box.getRotLowerY]
  exact key.1 (hw.incompTrans _ (by simp) _ (by simp) _ (by simp) key.2.1 key.2.2)

/-- Non-vacuity for C02: two different rounded boxes. -/
example : RoundedBox 1 { leftX := 1/2, upperY := 1, rightX := 3/2, lowerY := 2 } := by
  refine ⟨⟨1/2, ?_⟩, ⟨1, ?_⟩, ⟨3/2, ?_⟩, ⟨2, ?_⟩⟩ <;> simp [roundTo_eq] <;>
    first
    | (rw [show ((2:ℚ)⁻¹ * 10) = ((5:ℤ):ℚ) by norm_num, stdRound_int]; norm_num)
    | (rw [show ((10:ℚ)) = ((10:ℤ):ℚ) by norm_num, stdRound_int]; norm_num)
    | (rw [show ((3:ℚ)/2 * 10) = ((15:ℤ):ℚ) by norm_num, stdRound_int]; norm_num)
    | (rw [show ((2:ℚ) * 10) = ((20:ℤ):ℚ) by norm_num, stdRound_int]; norm_num)


/-- Non-vacuity for C02: there is a sort routine that keeps the contract for every comparator. -/
example : ∀ cmp ∈ allComparators, ∃ sort, SortContract cmp sort :=
  fun cmp _ => ⟨insSort cmp, insSort_contract cmp⟩

/-! ## C03 -/

/-- C03: the rounded value is a decimal with `n` places, at most half a unit away, and no other
decimal with `n` places is nearer. -/
theorem c03_nearest (d : ℚ) (n : ℕ) :
    IsDecimal n (roundTo d n) ∧ |roundTo d n - d| ≤ 1 / 2 / 10 ^ n ∧
    ∀ z, IsDecimal n z → |roundTo d n - d| ≤ |z - d| := by
  have hpos : (0 : ℚ) < 10 ^ n := by positivity
  have key : |roundTo d n - d| ≤ 1 / 2 / 10 ^ n := by
    have h := stdRound_close (d * 10 ^ n)
    rw [roundTo_eq]
    have e : (stdRound (d * 10 ^ n) : ℚ) / 10 ^ n - d
        = ((stdRound (d * 10 ^ n) : ℚ) - d * 10 ^ n) / 10 ^ n := by
      field_simp
    rw [e, abs_div, abs_of_pos hpos]
    exact (div_le_div_iff_of_pos_right hpos).mpr h
  refine ⟨isDecimal_round d n, key, ?_⟩
  rintro z ⟨k, rfl⟩
  by_cases hk : k = stdRound (d * 10 ^ n)
  · rw [hk, ← roundTo_eq]
  · -- a different decimal is at least one unit away from the rounded value
    have h1 : (1 : ℚ) ≤ |(k : ℚ) - (stdRound (d * 10 ^ n) : ℚ)| := by
      have : (1 : ℤ) ≤ |k - stdRound (d * 10 ^ n)| := Int.one_le_abs (sub_ne_zero.mpr hk)
      exact_mod_cast this
    have h2 : 1 / 10 ^ n ≤ |(k : ℚ) / 10 ^ n - roundTo d n| := by
      rw [roundTo_eq, ← sub_div, abs_div, abs_of_pos hpos]
      exact (div_le_div_iff_of_pos_right hpos).mpr h1
    have h3 : |(k : ℚ) / 10 ^ n - roundTo d n| ≤ |(k : ℚ) / 10 ^ n - d| + |roundTo d n - d| := by
      have e : (k : ℚ) / 10 ^ n - roundTo d n = ((k : ℚ) / 10 ^ n - d) - (roundTo d n - d) := by ring
      rw [e]; exact abs_sub _ _
    have h4 : (1 : ℚ) / 10 ^ n = 1 / 2 / 10 ^ n + 1 / 2 / 10 ^ n := by ring
    linarith

/-- C03: ties are rounded away from zero. -/
theorem c03_ties_away (d : ℚ) (n : ℕ) (h : |roundTo d n - d| = 1 / 2 / 10 ^ n) :
    |d| < |roundTo d n| := by
  have hpos : (0 : ℚ) < 10 ^ n := by positivity
  have hh : (0 : ℚ) < 1 / 2 / 10 ^ n := by positivity
  have e : roundTo d n - d = ((stdRound (d * 10 ^ n) : ℚ) - d * 10 ^ n) / 10 ^ n := by
    rw [roundTo_eq]; field_simp
  rw [e, abs_div, abs_of_pos hpos] at h
  have h' : |(stdRound (d * 10 ^ n) : ℚ) - d * 10 ^ n| = 1 / 2 := by
    field_simp at h; linarith
  have hr : roundTo d n = (stdRound (d * 10 ^ n) : ℚ) / 10 ^ n := roundTo_eq d n
  rcases le_or_gt 0 d with hd | hd
  · have hx : 0 ≤ d * 10 ^ n := by positivity
    have f1 := Int.lt_floor_add_one (d * 10 ^ n + 1 / 2)
    have hs : stdRound (d * 10 ^ n) = ⌊d * 10 ^ n + 1 / 2⌋ := by unfold stdRound; rw [if_pos hx]
    rw [hs] at h' hr
    have : (⌊d * 10 ^ n + 1 / 2⌋ : ℚ) - d * 10 ^ n = 1 / 2 := by
      rcases abs_eq (by norm_num : (0:ℚ) ≤ 1/2) |>.mp h' with g | g
      · exact g
      · linarith
    have hval : (⌊d * 10 ^ n + 1 / 2⌋ : ℚ) / 10 ^ n = d + 1 / 2 / 10 ^ n := by
      rw [show (⌊d * 10 ^ n + 1 / 2⌋ : ℚ) = d * 10 ^ n + 1 / 2 by linarith]; field_simp
    rw [hr, hval, abs_of_nonneg hd, abs_of_nonneg (by linarith)]; linarith
  · have hx : ¬ 0 ≤ d * 10 ^ n := by
      have := mul_neg_of_neg_of_pos hd hpos
      linarith
    have f1 := Int.lt_floor_add_one (-(d * 10 ^ n) + 1 / 2)
    have hs : stdRound (d * 10 ^ n) = -⌊-(d * 10 ^ n) + 1 / 2⌋ := by
      unfold stdRound; rw [if_neg hx]
    rw [hs] at h' hr
    push_cast at h' hr
    have : (⌊-(d * 10 ^ n) + 1 / 2⌋ : ℚ) + d * 10 ^ n = 1 / 2 := by
      rcases abs_eq (by norm_num : (0:ℚ) ≤ 1/2) |>.mp h' with g | g
      · linarith
      · linarith
    have hval : -(⌊-(d * 10 ^ n) + 1 / 2⌋ : ℚ) / 10 ^ n = d - 1 / 2 / 10 ^ n := by
      rw [show -(⌊-(d * 10 ^ n) + 1 / 2⌋ : ℚ) = d * 10 ^ n - 1 / 2 by linarith]; field_simp
    rw [hr, hval, abs_of_neg hd, abs_of_neg (by linarith)]; linarith

/-- C03: rounding is idempotent, monotone and odd. -/
theorem c03_laws (d e : ℚ) (n : ℕ) :
    roundTo (roundTo d n) n = roundTo d n ∧ (d ≤ e → roundTo d n ≤ roundTo e n) ∧
    roundTo (-d) n = -roundTo d n := by
  have hpos : (0 : ℚ) < 10 ^ n := by positivity
  refine ⟨?_, ?_, ?_⟩
  · rw [roundTo_eq (roundTo d n), roundTo_eq d n, div_mul_cancel₀ _ hpos.ne', stdRound_int]
  · intro h
    rw [roundTo_eq, roundTo_eq]
    apply (div_le_div_iff_of_pos_right hpos).mpr
    exact_mod_cast stdRound_mono (mul_le_mul_of_nonneg_right h hpos.le)
  · rw [roundTo_eq, roundTo_eq, neg_mul, stdRound_neg]; push_cast; ring

/-- Non-vacuity for the tie case of C03: 0.25 to one decimal is a tie and gives 0.3. -/
example : |roundTo (1/4) 1 - 1/4| = 1 / 2 / 10 ^ 1 ∧ roundTo (1/4) 1 = 3/10 := by
  have : roundTo (1/4) 1 = 3/10 := by
    rw [roundTo_eq]; unfold stdRound; norm_num
  rw [this]; norm_num

/-! ## C04 -/

/-- C04: the two results are the length of the intersection divided by the length of the first
(second) interval, and 0 for an interval of length 0; the end points may be given in either
order. -/
theorem c04_value (s1 e1 s2 e2 : ℚ) :
    computeOverlapRatios s1 e1 s2 e2 =
      (interLen (min s1 e1) (max s1 e1) (min s2 e2) (max s2 e2) / |e1 - s1|,
       interLen (min s1 e1) (max s1 e1) (min s2 e2) (max s2 e2) / |e2 - s2|) := by
  have hlen : ∀ a b : ℚ, max a b - min a b = |b - a| := fun a b => by
    rw [max_sub_min_eq_abs]
  unfold computeOverlapRatios interLen
  simp only [minimum_eq_min, maximum_eq_max, hlen]
  refine Prod.ext ?_ ?_
  · dsimp only
    split
    · rfl
    · next h => rw [show |e1 - s1| = 0 from le_antisymm (not_lt.mp h) (abs_nonneg _)]; simp
  · dsimp only
    split
    · rfl
    · next h => rw [show |e2 - s2| = 0 from le_antisymm (not_lt.mp h) (abs_nonneg _)]; simp

theorem interLen_nonneg (a b c d : ℚ) : 0 ≤ interLen a b c d := le_max_left _ _

theorem interLen_le (a b c d : ℚ) (h : a ≤ b) : interLen a b c d ≤ b - a := by
  unfold interLen
  refine max_le (by linarith) ?_
  have := min_le_left b d
  have := le_max_left a c
  linarith

theorem interLen_comm (a b c d : ℚ) : interLen a b c d = interLen c d a b := by
  unfold interLen; rw [min_comm, max_comm a c]

/-- C04: both results lie in `[0,1]`. -/
theorem c04_bounds (s1 e1 s2 e2 : ℚ) :
    0 ≤ (computeOverlapRatios s1 e1 s2 e2).1 ∧ (computeOverlapRatios s1 e1 s2 e2).1 ≤ 1 ∧
    0 ≤ (computeOverlapRatios s1 e1 s2 e2).2 ∧ (computeOverlapRatios s1 e1 s2 e2).2 ≤ 1 := by
  rw [c04_value]
  have h1 := interLen_le (min s1 e1) (max s1 e1) (min s2 e2) (max s2 e2) min_le_max
  have h2 := interLen_le (min s2 e2) (max s2 e2) (min s1 e1) (max s1 e1) min_le_max
  rw [max_sub_min_eq_abs] at h1 h2
  rw [interLen_comm] at h2
  have h0 := interLen_nonneg (min s1 e1) (max s1 e1) (min s2 e2) (max s2 e2)
  exact ⟨div_nonneg h0 (abs_nonneg _), div_le_one_of_le₀ h1 (abs_nonneg _),
    div_nonneg h0 (abs_nonneg _), div_le_one_of_le₀ h2 (abs_nonneg _)⟩

/-- C04: swapping the intervals swaps the results; reversing an interval changes nothing. -/
theorem c04_symmetry (s1 e1 s2 e2 : ℚ) :
    computeOverlapRatios s2 e2 s1 e1 = (computeOverlapRatios s1 e1 s2 e2).swap ∧
    computeOverlapRatios e1 s1 s2 e2 = computeOverlapRatios s1 e1 s2 e2 ∧
    computeOverlapRatios s1 e1 e2 s2 = computeOverlapRatios s1 e1 s2 e2 := by
  simp only [c04_value, Prod.swap]
  refine ⟨?_, ?_, ?_⟩
  · rw [interLen_comm]
  · rw [min_comm e1, max_comm e1, abs_sub_comm s1]
  · rw [min_comm e2, max_comm e2, abs_sub_comm s2]

/-- C04: a ratio is positive exactly when the interiors of the intervals share a point (and the
interval itself is not degenerate). -/
theorem c04_positive (s1 e1 s2 e2 : ℚ) :
    0 < (computeOverlapRatios s1 e1 s2 e2).1 ↔
      ∃ x, min s1 e1 < x ∧ x < max s1 e1 ∧ min s2 e2 < x ∧ x < max s2 e2 := by
  rw [c04_value]
  dsimp only
  constructor
  · intro h
    have hi : 0 < interLen (min s1 e1) (max s1 e1) (min s2 e2) (max s2 e2) := by
      rcases (interLen_nonneg (min s1 e1) (max s1 e1) (min s2 e2) (max s2 e2)).lt_or_eq with g | g
      · exact g
      · rw [← g] at h; simp at h
    unfold interLen at hi
    rcases lt_max_iff.mp hi with g | g
    · exact absurd g (lt_irrefl _)
    · obtain ⟨x, hx1, hx2⟩ := exists_between (sub_pos.mp g)
      exact ⟨x, (le_max_left _ _).trans_lt hx1, hx2.trans_le (min_le_left _ _),
        (le_max_right _ _).trans_lt hx1, hx2.trans_le (min_le_right _ _)⟩
  · rintro ⟨x, h1, h2, h3, h4⟩
    apply div_pos
    · unfold interLen
      apply lt_max_of_lt_right
      have := max_lt h1 h3
      have := lt_min h2 h4
      linarith
    · rw [← max_sub_min_eq_abs]; linarith

/-- C04 for elements: the x (y) ratios are those of the horizontal (vertical) projections and the
maximum variants return the larger of the two. -/
theorem c04_elements (a b : Box) :
    computeXOverlapRatios a b = computeOverlapRatios a.leftX a.rightX b.leftX b.rightX ∧
    computeYOverlapRatios a b = computeOverlapRatios a.upperY a.lowerY b.upperY b.lowerY ∧
    computeMaxXOverlapRatio a b = max (computeXOverlapRatios a b).1 (computeXOverlapRatios a b).2 ∧
    computeMaxYOverlapRatio a b = max (computeYOverlapRatios a b).1 (computeYOverlapRatios a b).2 ∧
    computeMaxXOverlapRatio a b = computeMaxXOverlapRatio b a ∧
    computeMaxYOverlapRatio a b = computeMaxYOverlapRatio b a := by
  refine ⟨rfl, rfl, ?_, ?_, ?_, ?_⟩
  · simp [computeMaxXOverlapRatio, maximum_eq_max]
  · simp [computeMaxYOverlapRatio, maximum_eq_max]
  · unfold computeMaxXOverlapRatio computeXOverlapRatios
    rw [(c04_symmetry a.leftX a.rightX b.leftX b.rightX).1]
    simp [maximum_eq_max, max_comm]
  · unfold computeMaxYOverlapRatio computeYOverlapRatios
    rw [(c04_symmetry a.upperY a.lowerY b.upperY b.lowerY).1]
    simp [maximum_eq_max, max_comm]

/-- The example of the documentation (`/repo/src/utils/PdfElementsUtils.h`): [1,7] and [4,16]. -/
example : computeOverlapRatios 1 7 4 16 = (1/2, 1/4) := by
  norm_num [computeOverlapRatios, minimum, maximum]

/-! ## C05 -/

/-- Text that is upright or turned by 90 degrees clockwise. -/
def Upright (b : Box) : Prop := b.rotation ≠ 2 ∧ b.rotation ≠ 3

/-- C05 (partial): for elements of rotation 0 or 1 whose left edges differ by more than the
tolerance the horizontal gap is the distance from the right edge of the left element to the left
edge of the right element, in either argument order, and is positive exactly when the
projections are disjoint.
Missing: elements of rotation 2 or 3 (`c05_rotated_sign_flipped`: the sign is wrong) and elements
with (nearly) equal left edges (`c05_order_matters`: the result depends on the argument order). -/
theorem c05_horizontal_partial (a b : Box) (ha : Upright a) (hb : Upright b)
    (hwa : a.leftX ≤ a.rightX) (hwb : b.leftX ≤ b.rightX) (h : tol < |a.leftX - b.leftX|) :
    computeHorizontalGap a b = max a.leftX b.leftX -
      (if a.leftX < b.leftX then a.rightX else b.rightX) ∧
    computeHorizontalGap b a = computeHorizontalGap a b ∧
    (0 < computeHorizontalGap a b ↔ a.rightX < b.leftX ∨ b.rightX < a.leftX) := by
  have ht := tol_pos
  rcases lt_abs.mp h with h' | h'
  · have e1 : computeHorizontalGap a b = a.leftX - b.rightX := by
      unfold computeHorizontalGap
      rw [if_neg (by rw [smaller_iff]; linarith)]
      simp only
      rw [if_neg (by rintro (g | g); exacts [hb.1 g, hb.2 g])]
    have e2 : computeHorizontalGap b a = a.leftX - b.rightX := by
      unfold computeHorizontalGap
      rw [if_pos (by rw [smaller_iff]; linarith)]
      simp only
      rw [if_neg (by rintro (g | g); exacts [hb.1 g, hb.2 g])]
    rw [e1, e2, max_eq_left (by linarith), if_neg (by linarith)]
    refine ⟨rfl, rfl, ?_⟩
    constructor
    · intro g; right; linarith
    · rintro (g | g) <;> linarith
  · have e1 : computeHorizontalGap a b = b.leftX - a.rightX := by
      unfold computeHorizontalGap
      rw [if_pos (by rw [smaller_iff]; linarith)]
      simp only
      rw [if_neg (by rintro (g | g); exacts [ha.1 g, ha.2 g])]
    have e2 : computeHorizontalGap b a = b.leftX - a.rightX := by
      unfold computeHorizontalGap
      rw [if_neg (by rw [smaller_iff]; linarith)]
      simp only
      rw [if_neg (by rintro (g | g); exacts [ha.1 g, ha.2 g])]
    rw [e1, e2, max_eq_right (by linarith), if_pos (by linarith)]
    refine ⟨rfl, rfl, ?_⟩
    constructor
    · intro g; left; linarith
    · rintro (g | g) <;> linarith

/-- C05 (partial): the same for the vertical gap. -/
theorem c05_vertical_partial (a b : Box) (ha : Upright a) (hb : Upright b)
    (hwa : a.upperY ≤ a.lowerY) (hwb : b.upperY ≤ b.lowerY) (h : tol < |a.upperY - b.upperY|) :
    computeVerticalGap a b = max a.upperY b.upperY -
      (if a.upperY < b.upperY then a.lowerY else b.lowerY) ∧
    computeVerticalGap b a = computeVerticalGap a b ∧
    (0 < computeVerticalGap a b ↔ a.lowerY < b.upperY ∨ b.lowerY < a.upperY) := by
  have ht := tol_pos
  rcases lt_abs.mp h with h' | h'
  · have e1 : computeVerticalGap a b = a.upperY - b.lowerY := by
      unfold computeVerticalGap
      rw [if_neg (by rw [smaller_iff]; linarith)]
      simp only
      rw [if_neg (by rintro (g | g); exacts [hb.1 g, hb.2 g])]
    have e2 : computeVerticalGap b a = a.upperY - b.lowerY := by
      unfold computeVerticalGap
      rw [if_pos (by rw [smaller_iff]; linarith)]
      simp only
      rw [if_neg (by rintro (g | g); exacts [hb.1 g, hb.2 g])]
    rw [e1, e2, max_eq_left (by linarith), if_neg (by linarith)]
    refine ⟨rfl, rfl, ?_⟩
    constructor
    · intro g; right; linarith
    · rintro (g | g) <;> linarith
  · have e1 : computeVerticalGap a b = b.upperY - a.lowerY := by
      unfold computeVerticalGap
      rw [if_pos (by rw [smaller_iff]; linarith)]
      simp only
      rw [if_neg (by rintro (g | g); exacts [ha.1 g, ha.2 g])]
    have e2 : computeVerticalGap b a = b.upperY - a.lowerY := by
      unfold computeVerticalGap
      rw [if_neg (by rw [smaller_iff]; linarith)]
      simp only
      rw [if_neg (by rintro (g | g); exacts [ha.1 g, ha.2 g])]
    rw [e1, e2, max_eq_right (by linarith), if_pos (by linarith)]
    refine ⟨rfl, rfl, ?_⟩
    constructor
    · intro g; left; linarith
    · rintro (g | g) <;> linarith

/-- Non-vacuity for C05: "HELLO" at [0,5] and "WORLD" at [7,12] with gap 2. -/
example : computeHorizontalGap { leftX := 0, rightX := 5 } { leftX := 7, rightX := 12 } = 2 := by
  norm_num [computeHorizontalGap, smaller, tol]

/-- C05 (violated): for text of rotation 2 or 3 both gaps are the negated distance, i.e. positive
exactly when the elements overlap (shown for every pair whose left/upper edges differ). -/
theorem c05_rotated_sign_flipped (a b : Box) (ha : a.rotation = 2 ∨ a.rotation = 3)
    (hx : a.leftX + tol < b.leftX) (hy : a.upperY + tol < b.upperY) :
    computeHorizontalGap a b = -(b.leftX - a.rightX) ∧
    computeVerticalGap a b = -(b.upperY - a.lowerY) ∧
    (0 < computeHorizontalGap a b ↔ b.leftX < a.rightX) := by
  have e1 : computeHorizontalGap a b = -(b.leftX - a.rightX) := by
    unfold computeHorizontalGap
    rw [if_pos (by rw [smaller_iff]; linarith)]
    simp only
    rw [if_pos ha]; ring
  have e2 : computeVerticalGap a b = -(b.upperY - a.lowerY) := by
    unfold computeVerticalGap
    rw [if_pos (by rw [smaller_iff]; linarith)]
    simp only
    rw [if_pos ha]; ring
  refine ⟨e1, e2, ?_⟩
  rw [e1]; constructor <;> intro h <;> linarith

/-- C05 (violated): for equal left edges the gap depends on the order of the arguments. -/
theorem c05_order_matters : ∃ a b : Box, Upright a ∧ Upright b ∧ a.leftX ≤ a.rightX ∧
    b.leftX ≤ b.rightX ∧ computeHorizontalGap a b ≠ computeHorizontalGap b a := by
  refine ⟨{ leftX := 0, rightX := 1 }, { leftX := 0, rightX := 2 }, ?_, ?_, ?_, ?_, ?_⟩ <;>
    norm_num [Upright, computeHorizontalGap, smaller, tol]

/-! ## C06 -/

/-- The four corners of a box. -/
def corners (b : Box) : List (ℚ × ℚ) :=
  [(b.leftX, b.upperY), (b.rightX, b.upperY), (b.leftX, b.lowerY), (b.rightX, b.lowerY)]

/-- `v` is the extreme (smallest) value of `f` on the points `ps`. -/
def IsLeastOn (ps : List (ℚ × ℚ)) (f : ℚ × ℚ → ℚ) (v : ℚ) : Prop :=
  (∃ p ∈ ps, f p = v) ∧ ∀ p ∈ ps, v ≤ f p

/-- C06: measured in the coordinate system of the text (x along the reading direction, y towards
the next line), the rotation-aware left/right edges are the first/last corner position in reading
direction, and upper/lower the first/last corner position in line direction (up to the sign of
the axis). -/
theorem c06_rot_edges (b : Box) (hw : b.leftX ≤ b.rightX) (hh : b.upperY ≤ b.lowerY) :
    IsLeastOn (corners b) (along (readDir b.rotation)) (sign (readDir b.rotation) * b.getRotLeftX) ∧
    IsLeastOn (corners b) (fun p => -along (readDir b.rotation) p)
      (-(sign (readDir b.rotation) * b.getRotRightX)) ∧
    IsLeastOn (corners b) (along (lineDir b.rotation)) (sign (lineDir b.rotation) * b.getRotUpperY) ∧
    IsLeastOn (corners b) (fun p => -along (lineDir b.rotation) p)
      (-(sign (lineDir b.rotation) * b.getRotLowerY)) := by
  unfold IsLeastOn corners lineDir readDir sign along Box.getRotLeftX Box.getRotRightX
    Box.getRotUpperY Box.getRotLowerY
  by_cases h1 : b.rotation = 1
  · simp [h1, hw, hh]
  by_cases h2 : b.rotation = 2
  · simp [h2, hw, hh]
  by_cases h3 : b.rotation = 3
  · simp [h3, hw, hh]
  · simp [h1, h2, h3, hw, hh]

/-- C06: for every well-formed box the rotation-aware width and height are non-negative and are the
plain extents, exchanged for the rotations 1 and 3. -/
theorem c06_rot_extents (b : Box) (hw : b.leftX ≤ b.rightX) (hh : b.upperY ≤ b.lowerY) :
    0 ≤ b.getRotWidth ∧ 0 ≤ b.getRotHeight ∧
    (b.getRotWidth, b.getRotHeight) =
      (if b.rotation = 1 ∨ b.rotation = 3 then (b.lowerY - b.upperY, b.rightX - b.leftX)
       else (b.rightX - b.leftX, b.lowerY - b.upperY)) := by
  have key : (b.getRotWidth, b.getRotHeight) =
      (if b.rotation = 1 ∨ b.rotation = 3 then (b.lowerY - b.upperY, b.rightX - b.leftX)
       else (b.rightX - b.leftX, b.lowerY - b.upperY)) := by
    unfold Box.getRotWidth Box.getRotHeight Box.getRotLeftX Box.getRotRightX
      Box.getRotUpperY Box.getRotLowerY
    by_cases h1 : b.rotation = 1
    · simp [h1]
    by_cases h2 : b.rotation = 2
    · simp [h2]
    by_cases h3 : b.rotation = 3
    · simp [h3]
    · simp [h1, h2, h3]
  have k1 := congrArg Prod.fst key
  have k2 := congrArg Prod.snd key
  refine ⟨?_, ?_, key⟩
  · simp only at k1; rw [k1]; split <;> simp <;> linarith
  · simp only at k2; rw [k2]; split <;> simp <;> linarith

/-- Non-vacuity for C06: a well-formed box of rotation 1. -/
example : ({ leftX := 0, rightX := 1, upperY := 0, lowerY := 5, rotation := 1 } : Box).getRotWidth = 5 := by
  norm_num [Box.getRotWidth, Box.getRotLeftX, Box.getRotRightX]

end Verif.Props
