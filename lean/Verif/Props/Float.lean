import Verif.Model.FloatMath
import Verif.Spec.Float
import Verif.Props.Geometry
import Mathlib.Tactic.Linarith
import Mathlib.Tactic.NormNum
import Mathlib.Tactic.Positivity
import Mathlib.Tactic.FieldSimp
import Mathlib.Algebra.Order.Group.MinMax
import Mathlib.Tactic.Ring

/-!
# C78: rounding errors do not change comparisons
-/

namespace Verif.Props

open Verif.Math Verif.Spec Verif.Spec.Float

/-! ### Rounding to nearest -/

theorem fl_halfEven (q : ℚ) : |(halfEven q : ℚ) - q| ≤ 1 / 2 := by
  have h1 := Int.floor_le q
  have h2 := Int.lt_floor_add_one q
  unfold halfEven
  split_ifs with h3 h4 h5 <;> push_cast <;> rw [abs_le] <;> constructor <;> linarith

theorem fl_halfEven_nearest (q : ℚ) (n : ℤ) : |(halfEven q : ℚ) - q| ≤ |(n : ℚ) - q| := by
  have h := fl_halfEven q
  by_cases hn : n = halfEven q
  · rw [hn]
  · have h1 : (1 : ℚ) ≤ |(n : ℚ) - halfEven q| := by
      have : 1 ≤ |n - halfEven q| := Int.one_le_abs (sub_ne_zero.mpr hn)
      calc (1 : ℚ) ≤ ((|n - halfEven q| : ℤ) : ℚ) := by exact_mod_cast this
        _ = _ := by push_cast; rfl
    have h2 : |(n : ℚ) - halfEven q| ≤ |(n : ℚ) - q| + |(halfEven q : ℚ) - q| := by
      have := abs_sub_le (n : ℚ) q (halfEven q)
      rwa [abs_sub_comm q] at this
    linarith

theorem fl_two_pos (e : ℤ) : (0 : ℚ) < (2 : ℚ) ^ e := zpow_pos (by norm_num) e

theorem fl_dblMax : dblMax = ((2 ^ 53 - 1 : ℤ) : ℚ) * (2 : ℚ) ^ (971 : ℤ) := by
  unfold dblMax
  have : (2 : ℚ) ^ (971 : ℤ) = 2 ^ 971 := by exact_mod_cast zpow_natCast (2 : ℚ) 971
  rw [this]; norm_num

theorem fl_lastBit_le {x : ℚ} (hx : x ≠ 0) (h : |x| ≤ dblMax) : lastBit x ≤ 971 := by
  have h0 : 0 < |x| := abs_pos.mpr hx
  have h1 : |x| < ((2 : ℕ) : ℚ) ^ (1024 : ℤ) := by
    refine lt_of_le_of_lt h ?_
    rw [fl_dblMax]
    have : ((2 : ℕ) : ℚ) ^ (1024 : ℤ) = 2 ^ (53 : ℤ) * (2 : ℚ) ^ (971 : ℤ) := by
      rw [← zpow_add₀ (by norm_num)]; norm_num
    rw [this]
    exact mul_lt_mul_of_pos_right (by norm_num) (fl_two_pos _)
  have h2 : Int.log 2 |x| < 1024 := (Int.lt_zpow_iff_log_lt (by norm_num) h0).mp h1
  unfold lastBit
  omega

theorem fl_log_bounds {x : ℚ} (hx : x ≠ 0) : (2 : ℚ) ^ (Int.log 2 |x|) ≤ |x| ∧ |x| < (2 : ℚ) ^ (Int.log 2 |x| + 1) := by
  have h0 : 0 < |x| := abs_pos.mpr hx
  exact ⟨by exact_mod_cast Int.zpow_log_le_self (b := 2) (by norm_num) h0, by exact_mod_cast Int.lt_zpow_succ_log_self (b := 2) (by norm_num) |x|⟩

/-- The significand has at most 53 bits. -/
theorem fl_quotient {x : ℚ} (hx : x ≠ 0) : |x / (2 : ℚ) ^ lastBit x| < 2 ^ 53 := by
  rw [abs_div, abs_of_pos (fl_two_pos _), div_lt_iff₀ (fl_two_pos _)]
  refine lt_of_lt_of_le (fl_log_bounds hx).2 ?_
  have : (2 : ℚ) ^ 53 * (2 : ℚ) ^ lastBit x = (2 : ℚ) ^ (53 + lastBit x) := by
    rw [zpow_add₀ (by norm_num)]; norm_cast
  rw [this]
  exact zpow_le_zpow_right₀ (by norm_num) (by unfold lastBit; omega)

theorem fl_double_zero : Double 0 := ⟨0, 0, by norm_num, by norm_num, by norm_num, by norm_num⟩

/-- Multiples of the last bit of a number are doubles if they have at most 53 bits, or exactly the next power of two. -/
theorem fl_double_of {m e : ℤ} (hm : |m| ≤ 2 ^ 53) (h1 : -1074 ≤ e) (h2 : e ≤ 971) (h3 : |m| = 2 ^ 53 → e < 971) :
    Double ((m : ℚ) * (2 : ℚ) ^ e) := by
  rcases lt_or_eq_of_le hm with h | h
  · exact ⟨m, e, h, h1, h2, rfl⟩
  · have he := h3 h
    have h2e : (2 : ℚ) ^ (e + 1) = 2 ^ e * 2 := zpow_add_one₀ (by norm_num) e
    rcases le_or_gt 0 m with h0 | h0
    · rw [abs_of_nonneg h0] at h
      subst h
      exact ⟨2 ^ 52, e + 1, by norm_num, by omega, by omega, by rw [h2e]; push_cast; ring⟩
    · rw [abs_of_neg h0] at h
      have : m = -2 ^ 53 := by omega
      subst this
      exact ⟨-2 ^ 52, e + 1, by norm_num, by omega, by omega, by rw [h2e]; push_cast; ring⟩

theorem fl_halfEven_abs_le {q : ℚ} {b : ℤ} (h : |q| ≤ b) : |halfEven q| ≤ b := by
  have h1 := fl_halfEven q
  by_contra hc
  have h2 : b + 1 ≤ |halfEven q| := by omega
  have h3 : ((b + 1 : ℤ) : ℚ) ≤ |(halfEven q : ℚ)| := by
    rw [← Int.cast_abs]; exact_mod_cast h2
  push_cast at h3
  have h4 : |(halfEven q : ℚ)| ≤ |(halfEven q : ℚ) - q| + |q| := by
    have := abs_add_le ((halfEven q : ℚ) - q) q
    rwa [sub_add_cancel] at this
  linarith

/-- **C78.** The rounding of IEEE 754 (ties to even) rounds to nearest. -/
theorem c78_binary64 : RoundsToNearest binary64 := by
  constructor
  · intro x hx
    unfold binary64
    by_cases h0 : x = 0
    · rw [if_pos h0]; exact fl_double_zero
    · rw [if_neg h0]
      have hq := fl_quotient h0
      refine fl_double_of (fl_halfEven_abs_le (by push_cast; exact le_of_lt hq)) (by unfold lastBit; omega) (fl_lastBit_le h0 hx) ?_
      intro h
      by_contra hc
      have he : lastBit x = 971 := le_antisymm (fl_lastBit_le h0 hx) (by omega)
      have : |x / (2 : ℚ) ^ lastBit x| ≤ ((2 ^ 53 - 1 : ℤ) : ℚ) := by
        rw [abs_div, abs_of_pos (fl_two_pos _), div_le_iff₀ (fl_two_pos _), he]
        rw [← fl_dblMax]; exact hx
      have := fl_halfEven_abs_le this
      omega
  · intro x hx y hy
    unfold binary64
    by_cases h0 : x = 0
    · rw [if_pos h0, h0]; simp
    rw [if_neg h0]
    have hp := fl_two_pos (lastBit x)
    have key : ∀ n : ℤ, |(halfEven (x / (2 : ℚ) ^ lastBit x) : ℚ) * (2 : ℚ) ^ lastBit x - x| ≤ |(n : ℚ) * (2 : ℚ) ^ lastBit x - x| := by
      intro n
      have h := fl_halfEven_nearest (x / (2 : ℚ) ^ lastBit x) n
      have e : ∀ z : ℚ, z * (2 : ℚ) ^ lastBit x - x = (z - x / (2 : ℚ) ^ lastBit x) * (2 : ℚ) ^ lastBit x := by
        intro z; rw [sub_mul, div_mul_cancel₀ _ (ne_of_gt hp)]
      rw [e, e, abs_mul, abs_mul, abs_of_pos hp]
      exact mul_le_mul_of_nonneg_right h (le_of_lt hp)
    obtain ⟨m, e, hm, he1, he2, rfl⟩ := hy
    rcases le_or_gt (lastBit x) e with hle | hlt
    · have : (m : ℚ) * (2 : ℚ) ^ e = ((m * 2 ^ (e - lastBit x).toNat : ℤ) : ℚ) * (2 : ℚ) ^ lastBit x := by
        push_cast
        rw [mul_assoc, ← zpow_natCast, Int.toNat_of_nonneg (by omega), ← zpow_add₀ (by norm_num)]
        congr 2; omega
      rw [this]
      exact key _
    · -- the last bit of y is below that of x: y is smaller than the power of two below x
      have hlb : lastBit x = Int.log 2 |x| - 52 := by unfold lastBit at hlt ⊢; omega
      have hy : |(m : ℚ) * (2 : ℚ) ^ e| ≤ (2 : ℚ) ^ (Int.log 2 |x|) := by
        rw [abs_mul, abs_of_pos (fl_two_pos e)]
        have h1 : |(m : ℚ)| ≤ (2 : ℚ) ^ (53 : ℤ) := by
          rw [← Int.cast_abs]
          calc ((|m| : ℤ) : ℚ) ≤ ((2 ^ 53 : ℤ) : ℚ) := by exact_mod_cast le_of_lt hm
            _ = _ := by norm_num
        calc |(m : ℚ)| * (2 : ℚ) ^ e ≤ (2 : ℚ) ^ (53 : ℤ) * (2 : ℚ) ^ e := mul_le_mul_of_nonneg_right h1 (le_of_lt (fl_two_pos e))
          _ = (2 : ℚ) ^ (53 + e) := by rw [zpow_add₀ (by norm_num)]
          _ ≤ _ := zpow_le_zpow_right₀ (by norm_num) (by omega)
      have hk := (fl_log_bounds h0).1
      have hpow : (2 : ℚ) ^ (Int.log 2 |x|) = ((2 ^ 52 : ℤ) : ℚ) * (2 : ℚ) ^ lastBit x := by
        have : ((2 ^ 52 : ℤ) : ℚ) = (2 : ℚ) ^ (52 : ℤ) := by norm_num
        rw [this, ← zpow_add₀ (by norm_num), hlb]; congr 1; omega
      rcases lt_or_gt_of_ne h0 with hneg | hpos
      · refine le_trans (key (-2 ^ 52)) ?_
        have e1 : (((-2 ^ 52 : ℤ)) : ℚ) * (2 : ℚ) ^ lastBit x = -(2 : ℚ) ^ (Int.log 2 |x|) := by rw [hpow]; push_cast; ring
        rw [e1]
        rw [abs_of_neg hneg] at hk hy ⊢
        have h1 := (abs_le.mp hy).1
        rw [abs_of_nonneg (by linarith), abs_of_nonneg (by linarith)]
        linarith
      · refine le_trans (key (2 ^ 52)) ?_
        rw [← hpow]
        have h1 := (abs_le.mp hy).2
        rw [abs_of_pos hpos] at hk h1 ⊢
        rw [abs_of_nonpos (by linarith), abs_of_nonpos (by linarith)]
        linarith

/-! ### Consequences of rounding to nearest -/

theorem fl_of_double {fl : ℚ → ℚ} (h : RoundsToNearest fl) {x : ℚ} (hb : |x| ≤ dblMax) (hx : Double x) : fl x = x := by
  have := h.nearest x hb x hx
  rw [sub_self, abs_zero] at this
  have := abs_nonpos_iff.mp this
  linarith

theorem fl_mono {fl : ℚ → ℚ} (h : RoundsToNearest fl) {x y : ℚ} (hx : |x| ≤ dblMax) (hy : |y| ≤ dblMax) (hxy : x ≤ y) : fl x ≤ fl y := by
  rcases eq_or_lt_of_le hxy with rfl | hlt
  · exact le_refl _
  by_contra hc
  have hc : fl y < fl x := not_le.mp hc
  have h1 := h.nearest x hx (fl y) (h.double y hy)
  have h2 := h.nearest y hy (fl x) (h.double x hx)
  rcases abs_cases (fl x - x) with ⟨a1, a2⟩ | ⟨a1, a2⟩ <;> rcases abs_cases (fl y - x) with ⟨b1, b2⟩ | ⟨b1, b2⟩ <;>
    rcases abs_cases (fl y - y) with ⟨c1, c2⟩ | ⟨c1, c2⟩ <;> rcases abs_cases (fl x - y) with ⟨d1, d2⟩ | ⟨d1, d2⟩ <;> linarith

theorem fl_huge : (10 : ℚ) ^ 30 ≤ dblMax := by
  rw [fl_dblMax]
  have h1 : (2 : ℚ) ^ (100 : ℤ) ≤ (2 : ℚ) ^ (971 : ℤ) := zpow_le_zpow_right₀ (by norm_num) (by norm_num)
  have h2 : (10 : ℚ) ^ 30 ≤ (2 : ℚ) ^ (100 : ℤ) := by norm_num
  have h3 : 1 * (2 : ℚ) ^ (971 : ℤ) ≤ ((2 ^ 53 - 1 : ℤ) : ℚ) * (2 : ℚ) ^ (971 : ℤ) := mul_le_mul_of_nonneg_right (by norm_num) (le_of_lt (fl_two_pos _))
  rw [one_mul] at h3
  exact le_trans h2 (le_trans h1 h3)

theorem fl_bound {x M : ℚ} (h : |x| ≤ M) (hM : M ≤ 10 ^ 30) : |x| ≤ dblMax := le_trans h (le_trans hM fl_huge)

/-- The rounding error is at most about one part in 2^53. -/
theorem fl_err {fl : ℚ → ℚ} (h : RoundsToNearest fl) {x M : ℚ} (hx : |x| ≤ M) (h1 : 1 ≤ M) (hM : M ≤ 10 ^ 30) :
    |fl x - x| ≤ M / 9000000000000000 := by
  have hb := fl_bound hx hM
  refine le_trans (h.nearest x hb (binary64 x) (c78_binary64.double x hb)) ?_
  unfold binary64
  by_cases h0 : x = 0
  · rw [if_pos h0, h0, sub_self, abs_zero]; positivity
  rw [if_neg h0]
  have hp := fl_two_pos (lastBit x)
  have e : (halfEven (x / (2 : ℚ) ^ lastBit x) : ℚ) * (2 : ℚ) ^ lastBit x - x =
      ((halfEven (x / (2 : ℚ) ^ lastBit x) : ℚ) - x / (2 : ℚ) ^ lastBit x) * (2 : ℚ) ^ lastBit x := by
    rw [sub_mul, div_mul_cancel₀ _ (ne_of_gt hp)]
  rw [e, abs_mul, abs_of_pos hp]
  have h2 : |(halfEven (x / (2 : ℚ) ^ lastBit x) : ℚ) - x / (2 : ℚ) ^ lastBit x| * (2 : ℚ) ^ lastBit x ≤ 1 / 2 * (2 : ℚ) ^ lastBit x :=
    mul_le_mul_of_nonneg_right (fl_halfEven _) (le_of_lt hp)
  have h3 : (2 : ℚ) ^ lastBit x ≤ M / 4503599627370496 := by
    rcases le_total (Int.log 2 |x| - 52) (-1074) with hl | hl
    · have : lastBit x = -1074 := by unfold lastBit; omega
      rw [this]
      have : (2 : ℚ) ^ (-1074 : ℤ) ≤ (2 : ℚ) ^ (-52 : ℤ) := zpow_le_zpow_right₀ (by norm_num) (by norm_num)
      have h52 : (2 : ℚ) ^ (-52 : ℤ) = 1 / 4503599627370496 := by norm_num
      rw [h52] at this
      refine le_trans this ?_
      exact div_le_div_of_nonneg_right h1 (by norm_num)
    · have : lastBit x = Int.log 2 |x| + -52 := by unfold lastBit; omega
      rw [this, zpow_add₀ (by norm_num)]
      have h52 : (2 : ℚ) ^ (-52 : ℤ) = 1 / 4503599627370496 := by norm_num
      rw [h52, mul_one_div]
      exact div_le_div_of_nonneg_right (le_trans (fl_log_bounds h0).1 hx) (by norm_num)
  have h4 : M / 9000000000000000 = M * (1 / 9000000000000000) := by ring
  have h5 : M / 4503599627370496 = M * (1 / 4503599627370496) := by ring
  rw [h4]; rw [h5] at h3
  nlinarith

theorem fl_double_int {k : ℤ} (h : |k| < 2 ^ 53) : Double (k : ℚ) := ⟨k, 0, h, by norm_num, by norm_num, by norm_num⟩

theorem fl_int {fl : ℚ → ℚ} (h : RoundsToNearest fl) {k : ℤ} (hk : |k| < 2 ^ 53) : fl k = k := by
  refine fl_of_double h (fl_bound (M := 2 ^ 53) ?_ (by norm_num)) (fl_double_int hk)
  rw [← Int.cast_abs]
  calc ((|k| : ℤ) : ℚ) ≤ ((2 ^ 53 : ℤ) : ℚ) := by exact_mod_cast le_of_lt hk
    _ = 2 ^ 53 := by norm_num

theorem fl_zero {fl : ℚ → ℚ} (h : RoundsToNearest fl) : fl 0 = 0 := by
  have := fl_int h (k := 0) (by norm_num)
  simpa using this

theorem fl_one {fl : ℚ → ℚ} (h : RoundsToNearest fl) : fl 1 = 1 := by
  have := fl_int h (k := 1) (by norm_num)
  simpa using this

/-! ### Comparisons -/

/-- The numbers are at most 10^9. -/
def Usual (x : ℚ) : Prop := |x| ≤ 10 ^ 9

/-- **C78 (comparisons).** `x`, `y` and `t` are stored as doubles and compared in double arithmetic.  Unless the difference of `x` and `y`
is the tolerance up to one millionth, every comparison has the result of the exact comparison of the unrounded numbers. -/
theorem c78_comparisons {fl : ℚ → ℚ} (h : RoundsToNearest fl) {x y t : ℚ} (hx : Usual x) (hy : Usual y) (ht : Usual t)
    (h1 : 1 / 10 ^ 6 < |x - y - t|) (h2 : 1 / 10 ^ 6 < |y - x - t|) :
    FloatMath.equal fl (fl x) (fl y) (fl t) = equal x y t ∧
    FloatMath.smaller fl (fl x) (fl y) (fl t) = smaller x y t ∧
    FloatMath.larger fl (fl x) (fl y) (fl t) = larger x y t ∧
    FloatMath.equalOrSmaller fl (fl x) (fl y) (fl t) = equalOrSmaller x y t ∧
    FloatMath.equalOrLarger fl (fl x) (fl y) (fl t) = equalOrLarger x y t := by
  unfold Usual at hx hy ht
  have ex := fl_err h hx (by norm_num) (by norm_num)
  have ey := fl_err h hy (by norm_num) (by norm_num)
  have et := fl_err h ht (by norm_num) (by norm_num)
  rw [abs_le] at hx hy ht ex ey et
  have e1 := fl_err h (x := fl x - fl y) (M := 2 * 10 ^ 9 + 1) (by rw [abs_le]; constructor <;> linarith) (by norm_num) (by norm_num)
  have e2 := fl_err h (x := fl y - fl t) (M := 2 * 10 ^ 9 + 1) (by rw [abs_le]; constructor <;> linarith) (by norm_num) (by norm_num)
  have e3 := fl_err h (x := fl y + fl t) (M := 2 * 10 ^ 9 + 1) (by rw [abs_le]; constructor <;> linarith) (by norm_num) (by norm_num)
  rw [abs_le] at e1 e2 e3
  have c1 : 1 / 10 ^ 6 < x - y - t ∨ x - y - t < -(1 / 10 ^ 6) := by
    rcases lt_abs.mp h1 with h | h
    · exact Or.inl h
    · exact Or.inr (by linarith)
  have c2 : 1 / 10 ^ 6 < y - x - t ∨ y - x - t < -(1 / 10 ^ 6) := by
    rcases lt_abs.mp h2 with h | h
    · exact Or.inl h
    · exact Or.inr (by linarith)
  simp only [FloatMath.equal, FloatMath.smaller, FloatMath.larger, FloatMath.equalOrSmaller, FloatMath.equalOrLarger, equal, smaller, larger,
    equalOrSmaller, equalOrLarger, decide_eq_decide, abs_le, gt_iff_lt, ge_iff_le]
  norm_num at *
  refine ⟨?_, ?_, ?_, ?_, ?_⟩
  · rcases c1 with c1 | c1 <;> rcases c2 with c2 | c2 <;> constructor <;> intro hh <;> (try constructor) <;> linarith
  · rcases c2 with c2 | c2 <;> constructor <;> intro hh <;> linarith
  · rcases c1 with c1 | c1 <;> constructor <;> intro hh <;> linarith
  · rcases c1 with c1 | c1 <;> constructor <;> intro hh <;> linarith
  · rcases c2 with c2 | c2 <;> constructor <;> intro hh <;> linarith

/-! ### Decimal numbers -/

theorem fl_decimal_gap {n : ℕ} (hn : n ≤ 3) {x y : ℚ} (hx : IsDecimal n x) (hy : IsDecimal n y) (hne : x ≠ y) : 1 / 1000 ≤ |x - y| := by
  obtain ⟨k, rfl⟩ := hx
  obtain ⟨l, rfl⟩ := hy
  have hp : (0 : ℚ) < 10 ^ n := by positivity
  rw [← sub_div, abs_div, abs_of_pos hp, le_div_iff₀ hp]
  have h1 : k ≠ l := by rintro rfl; exact hne rfl
  have h2 : (1 : ℚ) ≤ |(k : ℚ) - l| := by
    have : 1 ≤ |k - l| := Int.one_le_abs (sub_ne_zero.mpr h1)
    calc (1 : ℚ) ≤ ((|k - l| : ℤ) : ℚ) := by exact_mod_cast this
      _ = _ := by push_cast; rfl
  have h3 : (10 : ℚ) ^ n ≤ 10 ^ 3 := pow_le_pow_right₀ (by norm_num) hn
  linarith

theorem fl_decimal_away {n : ℕ} (hn : n ≤ 3) {x y : ℚ} (hx : IsDecimal n x) (hy : IsDecimal n y) :
    1 / 10 ^ 6 < |x - y - tol| ∧ 1 / 10 ^ 6 < |y - x - tol| := by
  unfold tol
  by_cases h : x = y
  · subst h; norm_num
  · have := fl_decimal_gap hn hx hy h
    rcases le_abs.mp this with h1 | h1 <;> constructor <;> rw [lt_abs] <;> [left; right; right; left] <;> norm_num at * <;> linarith

/-- **C78 (parsed coordinates).** For coordinates rounded to at most three decimals, stored as doubles and compared with the default
tolerance, also stored as a double, the comparisons in double arithmetic are the comparisons of the decimal numbers. -/
theorem c78_decimals {fl : ℚ → ℚ} (h : RoundsToNearest fl) {n : ℕ} (hn : n ≤ 3) {x y : ℚ} (hx : IsDecimal n x) (hy : IsDecimal n y)
    (ux : Usual x) (uy : Usual y) :
    (FloatMath.equal fl (fl x) (fl y) (FloatMath.tolerance fl) = true ↔ x = y) ∧
    (FloatMath.smaller fl (fl x) (fl y) (FloatMath.tolerance fl) = true ↔ x < y) ∧
    (FloatMath.larger fl (fl x) (fl y) (FloatMath.tolerance fl) = true ↔ y < x) ∧
    (FloatMath.equalOrSmaller fl (fl x) (fl y) (FloatMath.tolerance fl) = true ↔ x ≤ y) ∧
    (FloatMath.equalOrLarger fl (fl x) (fl y) (FloatMath.tolerance fl) = true ↔ y ≤ x) := by
  obtain ⟨a1, a2⟩ := fl_decimal_away hn hx hy
  have ut : Usual tol := by unfold Usual tol; norm_num
  obtain ⟨c1, c2, c3, c4, c5⟩ := c78_comparisons h ux uy ut a1 a2
  unfold FloatMath.tolerance
  rw [c1, c2, c3, c4, c5]
  unfold equal smaller larger equalOrSmaller equalOrLarger tol
  simp only [decide_eq_true_eq]
  by_cases he : x = y
  · subst he; norm_num
  · have := fl_decimal_gap hn hx hy he
    rcases le_abs.mp this with h1 | h1
    · refine ⟨⟨fun hh => ?_, fun hh => absurd hh he⟩, ?_, ?_, ?_, ?_⟩
      · have := (abs_le.mp hh).2; linarith
      all_goals constructor <;> intro hh <;> linarith
    · refine ⟨⟨fun hh => ?_, fun hh => absurd hh he⟩, ?_, ?_, ?_, ?_⟩
      · have := (abs_le.mp hh).1; linarith
      all_goals constructor <;> intro hh <;> linarith

/-- **C78 (rounding).** What the parser stores for a number `d` is the double closest to a decimal number, which differs from `d` by at
most half a unit of the last decimal (and a thousandth of a unit for the rounding of the product). -/
theorem c78_round {fl : ℚ → ℚ} (h : RoundsToNearest fl) {d : ℚ} (hd : Usual d) {n : ℕ} (h0 : 0 < n) (hn : n ≤ 3) :
    ∃ x, IsDecimal n x ∧ FloatMath.roundTo fl d n = fl x ∧ |x - d| ≤ (1 / 2 + 1 / 1000) / 10 ^ n := by
  have hp : (0 : ℚ) < 10 ^ n := by positivity
  have h3 : (10 : ℚ) ^ n ≤ 10 ^ 3 := pow_le_pow_right₀ (by norm_num) hn
  refine ⟨(stdRound (fl (d * 10 ^ n)) : ℚ) / 10 ^ n, ⟨_, rfl⟩, ?_, ?_⟩
  · unfold FloatMath.roundTo
    rw [if_neg (by omega)]
  · have h4 : |d * 10 ^ n| ≤ 10 ^ 12 := by
      rw [abs_mul, abs_of_pos hp]
      unfold Usual at hd
      calc |d| * 10 ^ n ≤ 10 ^ 9 * 10 ^ 3 := mul_le_mul hd h3 (le_of_lt hp) (by norm_num)
        _ = 10 ^ 12 := by norm_num
    have h5 := fl_err h h4 (by norm_num) (by norm_num)
    have h6 : |(stdRound (fl (d * 10 ^ n)) : ℚ) - fl (d * 10 ^ n)| ≤ 1 / 2 := by
      unfold stdRound
      split_ifs with hh
      · have a := Int.floor_le (fl (d * 10 ^ n) + 1 / 2)
        have b := Int.lt_floor_add_one (fl (d * 10 ^ n) + 1 / 2)
        rw [abs_le]; constructor <;> linarith
      · have a := Int.floor_le (-fl (d * 10 ^ n) + 1 / 2)
        have b := Int.lt_floor_add_one (-fl (d * 10 ^ n) + 1 / 2)
        push_cast
        rw [abs_le]; constructor <;> linarith
    have e : (stdRound (fl (d * 10 ^ n)) : ℚ) / 10 ^ n - d = ((stdRound (fl (d * 10 ^ n)) : ℚ) - d * 10 ^ n) / 10 ^ n := by
      rw [sub_div, mul_div_cancel_right₀ _ (ne_of_gt hp)]
    rw [e, abs_div, abs_of_pos hp]
    apply div_le_div_of_nonneg_right _ (le_of_lt hp)
    rw [abs_le] at *
    constructor <;> linarith

/-! ### Boxes -/

/-- All coordinates of the box are at most 10^9. -/
def UsualBox (b : Box) : Prop := Usual b.leftX ∧ Usual b.upperY ∧ Usual b.rightX ∧ Usual b.lowerY

/-- **C78 (sorting).** Every comparator by which elements are sorted gives, in double arithmetic on the stored boxes, the same result as
the exact comparator on the parsed boxes; so C02 (the comparators are strict weak orders on parsed boxes) holds for the program's arithmetic. -/
theorem c78_comparators {fl : ℚ → ℚ} (h : RoundsToNearest fl) {n : ℕ} (hn : n ≤ 3) (a b : Box) (ha : RoundedBox n a) (hb : RoundedBox n b)
    (ua : UsualBox a) (ub : UsualBox b) :
    (FloatMath.comparators fl).map (fun cmp => cmp (FloatMath.stored fl a) (FloatMath.stored fl b)) = allComparators.map (fun cmp => cmp a b) := by
  have dec : ∀ {z : ℚ}, (∃ x, z = roundTo x n) → IsDecimal n z := by rintro z ⟨x, rfl⟩; exact isDecimal_round _ _
  have ut : Usual tol := by unfold Usual tol; norm_num
  have sm : ∀ {x y : ℚ}, IsDecimal n x → IsDecimal n y → Usual x → Usual y →
      FloatMath.smaller fl (fl x) (fl y) (FloatMath.tolerance fl) = smaller x y tol := fun hx hy ux uy =>
    (c78_comparisons h ux uy ut (fl_decimal_away hn hx hy).1 (fl_decimal_away hn hx hy).2).2.1
  have la : ∀ {x y : ℚ}, IsDecimal n x → IsDecimal n y → Usual x → Usual y →
      FloatMath.larger fl (fl x) (fl y) (FloatMath.tolerance fl) = larger x y tol := fun hx hy ux uy =>
    (c78_comparisons h ux uy ut (fl_decimal_away hn hx hy).1 (fl_decimal_away hn hx hy).2).2.2.1
  have rl : ∀ b : Box, RoundedBox n b → UsualBox b → (FloatMath.stored fl b).getRotLeftX = fl b.getRotLeftX ∧ IsDecimal n b.getRotLeftX ∧ Usual b.getRotLeftX := by
    intro b hb ub
    unfold Box.getRotLeftX FloatMath.stored
    simp only
    split_ifs
    · exact ⟨rfl, dec hb.2.1, ub.2.1⟩
    · exact ⟨rfl, dec hb.2.2.1, ub.2.2.1⟩
    · exact ⟨rfl, dec hb.2.2.2, ub.2.2.2⟩
    · exact ⟨rfl, dec hb.1, ub.1⟩
  have rw' : ∀ b : Box, RoundedBox n b → UsualBox b → (FloatMath.stored fl b).getRotLowerY = fl b.getRotLowerY ∧ IsDecimal n b.getRotLowerY ∧ Usual b.getRotLowerY := by
    intro b hb ub
    unfold Box.getRotLowerY FloatMath.stored
    simp only
    split_ifs
    · exact ⟨rfl, dec hb.1, ub.1⟩
    · exact ⟨rfl, dec hb.2.1, ub.2.1⟩
    · exact ⟨rfl, dec hb.2.2.1, ub.2.2.1⟩
    · exact ⟨rfl, dec hb.2.2.2, ub.2.2.2⟩
  obtain ⟨la1, la2, la3⟩ := rl a ha ua
  obtain ⟨lb1, lb2, lb3⟩ := rl b hb ub
  obtain ⟨wa1, wa2, wa3⟩ := rw' a ha ua
  obtain ⟨wb1, wb2, wb3⟩ := rw' b hb ub
  simp only [FloatMath.comparators, allComparators, List.map_cons, List.map_nil, la1, lb1, wa1, wb1, sm la2 lb2 la3 lb3, la la2 lb2 la3 lb3,
    sm wa2 wb2 wa3 wb3, la wa2 wb2 wa3 wb3]
  have e1 : FloatMath.smaller fl (FloatMath.stored fl a).leftX (FloatMath.stored fl b).leftX (FloatMath.tolerance fl) = smaller a.leftX b.leftX tol :=
    sm (dec ha.1) (dec hb.1) ua.1 ub.1
  have e2 : FloatMath.larger fl (FloatMath.stored fl a).rightX (FloatMath.stored fl b).rightX (FloatMath.tolerance fl) = larger a.rightX b.rightX tol :=
    la (dec ha.2.2.1) (dec hb.2.2.1) ua.2.2.1 ub.2.2.1
  have e3 : FloatMath.smaller fl (FloatMath.stored fl a).upperY (FloatMath.stored fl b).upperY (FloatMath.tolerance fl) = smaller a.upperY b.upperY tol :=
    sm (dec ha.2.1) (dec hb.2.1) ua.2.1 ub.2.1
  rw [e1, e2, e3]
  rfl

/-- **C78 (bounding boxes).** Minima and maxima of stored coordinates are the stored minima and maxima: the bounding boxes of words, lines,
blocks and segments computed from stored boxes are the stored bounding boxes. -/
theorem c78_hull {fl : ℚ → ℚ} (h : RoundsToNearest fl) {x y : ℚ} (hx : |x| ≤ dblMax) (hy : |y| ≤ dblMax) :
    minimum (fl x) (fl y) = fl (minimum x y) ∧ maximum (fl x) (fl y) = fl (maximum x y) := by
  simp only [minimum_eq_min, maximum_eq_max]
  rcases le_total x y with hxy | hxy
  · have := fl_mono h hx hy hxy
    rw [min_eq_left this, max_eq_right this, min_eq_left hxy, max_eq_right hxy]; exact ⟨rfl, rfl⟩
  · have := fl_mono h hy hx hxy
    rw [min_eq_right this, max_eq_left this, min_eq_right hxy, max_eq_left hxy]; exact ⟨rfl, rfl⟩

/-! ### Overlaps and gaps -/

theorem fl_overlap_parts {fl : ℚ → ℚ} (h : RoundsToNearest fl) {lo1 hi1 lo2 hi2 : ℚ} (b1 : |lo1| ≤ 10 ^ 29) (b2 : |hi1| ≤ 10 ^ 29) (b3 : |lo2| ≤ 10 ^ 29)
    (b4 : |hi2| ≤ 10 ^ 29) :
    0 ≤ max 0 (fl (min hi1 hi2 - max lo1 lo2)) ∧ (lo1 ≤ hi1 → max 0 (fl (min hi1 hi2 - max lo1 lo2)) ≤ fl (hi1 - lo1)) := by
  refine ⟨le_max_left _ _, ?_⟩
  intro h1
  rw [abs_le] at b1 b2 b3 b4
  have m1 := min_le_left hi1 hi2
  have m2 := le_max_left lo1 lo2
  have m3 : -10 ^ 29 ≤ min hi1 hi2 := le_min b2.1 b4.1
  have m4 : max lo1 lo2 ≤ 10 ^ 29 := max_le b1.2 b3.2
  have d1 : |hi1 - lo1| ≤ dblMax := fl_bound (M := 10 ^ 30) (by rw [abs_le]; constructor <;> linarith) (le_refl _)
  have d2 : |min hi1 hi2 - max lo1 lo2| ≤ dblMax := fl_bound (M := 10 ^ 30) (by rw [abs_le]; constructor <;> linarith) (le_refl _)
  have d0 : |(0 : ℚ)| ≤ dblMax := fl_bound (M := 10 ^ 30) (by norm_num) (le_refl _)
  apply max_le
  · rw [← fl_zero h]; exact fl_mono h d0 d1 (by linarith)
  · exact fl_mono h d2 d1 (by linarith)

theorem fl_ratio_le_one {fl : ℚ → ℚ} (h : RoundsToNearest fl) {o l : ℚ} (h0 : 0 ≤ o) (h1 : o ≤ l) (hl : 0 < l) : 0 ≤ fl (o / l) ∧ fl (o / l) ≤ 1 := by
  have q0 : 0 ≤ o / l := div_nonneg h0 (le_of_lt hl)
  have q1 : o / l ≤ 1 := (div_le_one hl).mpr h1
  have d0 : |(0 : ℚ)| ≤ dblMax := fl_bound (M := 10 ^ 30) (by norm_num) (le_refl _)
  have d1 : |(1 : ℚ)| ≤ dblMax := fl_bound (M := 10 ^ 30) (by norm_num) (le_refl _)
  have dq : |o / l| ≤ dblMax := fl_bound (M := 10 ^ 30) (by rw [abs_of_nonneg q0]; linarith) (le_refl _)
  constructor
  · have := fl_mono h d0 dq q0; rwa [fl_zero h] at this
  · have := fl_mono h dq d1 q1; rwa [fl_one h] at this

/-- **C78 (overlap ratios stay fractions).** In double arithmetic, for all intervals of doubles (up to 10^29), the overlap ratios lie between 0 and 1;
an interval of positive length that is contained in the other one has the ratio 1, exactly. -/
theorem c78_overlap_fraction {fl : ℚ → ℚ} (h : RoundsToNearest fl) {s1 e1 s2 e2 : ℚ} (b1 : |s1| ≤ 10 ^ 29) (b2 : |e1| ≤ 10 ^ 29) (b3 : |s2| ≤ 10 ^ 29)
    (b4 : |e2| ≤ 10 ^ 29) :
    (0 ≤ (FloatMath.computeOverlapRatios fl s1 e1 s2 e2).1 ∧ (FloatMath.computeOverlapRatios fl s1 e1 s2 e2).1 ≤ 1) ∧
    (0 ≤ (FloatMath.computeOverlapRatios fl s1 e1 s2 e2).2 ∧ (FloatMath.computeOverlapRatios fl s1 e1 s2 e2).2 ≤ 1) ∧
    (0 < fl (max s1 e1 - min s1 e1) → min s2 e2 ≤ min s1 e1 → max s1 e1 ≤ max s2 e2 → (FloatMath.computeOverlapRatios fl s1 e1 s2 e2).1 = 1) ∧
    (0 < fl (max s2 e2 - min s2 e2) → min s1 e1 ≤ min s2 e2 → max s2 e2 ≤ max s1 e1 → (FloatMath.computeOverlapRatios fl s1 e1 s2 e2).2 = 1) := by
  have mb : ∀ {x y : ℚ}, |x| ≤ 10 ^ 29 → |y| ≤ 10 ^ 29 → |min x y| ≤ 10 ^ 29 ∧ |max x y| ≤ 10 ^ 29 := by
    intro x y hx hy
    exact ⟨by rcases min_choice x y with e | e <;> rw [e] <;> assumption, by rcases max_choice x y with e | e <;> rw [e] <;> assumption⟩
  obtain ⟨c1, c2⟩ := mb b1 b2
  obtain ⟨c3, c4⟩ := mb b3 b4
  obtain ⟨p0, p1⟩ := fl_overlap_parts h c1 c2 c3 c4
  obtain ⟨_, p2⟩ := fl_overlap_parts h c3 c4 c1 c2
  have p1 := p1 min_le_max
  have p2 := p2 min_le_max
  rw [min_comm (max s2 e2), max_comm (min s2 e2)] at p2
  simp only [FloatMath.computeOverlapRatios, minimum_eq_min, maximum_eq_max, gt_iff_lt]
  refine ⟨?_, ?_, ?_, ?_⟩
  · by_cases hl : 0 < fl (max s1 e1 - min s1 e1)
    · rw [if_pos hl]; exact fl_ratio_le_one h p0 p1 hl
    · rw [if_neg hl]; norm_num
  · by_cases hl : 0 < fl (max s2 e2 - min s2 e2)
    · rw [if_pos hl]; exact fl_ratio_le_one h p0 p2 hl
    · rw [if_neg hl]; norm_num
  · intro hl hlo hhi
    rw [if_pos hl, min_eq_left hhi, max_eq_left hlo, max_eq_right (le_of_lt hl), div_self (ne_of_gt hl), fl_one h]
  · intro hl hlo hhi
    rw [if_pos hl, min_eq_right hhi, max_eq_right hlo, max_eq_right (le_of_lt hl), div_self (ne_of_gt hl), fl_one h]

theorem fl_ratio_near {fl : ℚ → ℚ} (h : RoundsToNearest fl) {o l o' l' : ℚ} (h0 : 0 ≤ o) (h1 : o ≤ l) (hl : 1 / 1000 ≤ l) (g0 : 0 ≤ o') (g1 : o' ≤ l')
    (d1 : |o' - o| ≤ 1 / 2222000000) (d2 : |l' - l| ≤ 1 / 2222000000) : 0 < l' ∧ |fl (o' / l') - o / l| ≤ 1 / 10 ^ 6 := by
  rw [abs_le] at d1 d2
  have hl' : 999 / 1000000 ≤ l' := by linarith [d2.1]
  have lp : 0 < l := by linarith
  have lp' : 0 < l' := by linarith
  refine ⟨lp', ?_⟩
  have q0 : 0 ≤ o' / l' := div_nonneg g0 (le_of_lt lp')
  have q1 : o' / l' ≤ 1 := (div_le_one lp').mpr g1
  have r0 : 0 ≤ o / l := div_nonneg h0 (le_of_lt lp)
  have r1 : o / l ≤ 1 := (div_le_one lp).mpr h1
  have e := fl_err h (x := o' / l') (M := 1) (by rw [abs_of_nonneg q0]; exact q1) (le_refl _) (by norm_num)
  have eq1 : o = o / l * l := (div_mul_cancel₀ o (ne_of_gt lp)).symm
  generalize hr : o / l = r at *
  have key : |o' / l' - r| ≤ (1 / 1111000000) / (999 / 1000000) := by
    have : o' / l' - r = (o' - r * l') / l' := by rw [sub_div, mul_div_cancel_right₀ _ (ne_of_gt lp')]
    rw [this, abs_div, abs_of_pos lp']
    apply div_le_div₀ (by norm_num) _ (by norm_num) hl'
    rw [abs_le]
    have n1 : r * (l' - l) ≤ 1 / 2222000000 := by nlinarith
    have n2 : -(1 / 2222000000) ≤ r * (l' - l) := by nlinarith
    constructor <;> nlinarith
  rw [abs_le] at *
  norm_num at *
  constructor <;> linarith

/-- **C78 (overlap ratios are accurate).** For parsed coordinates up to 10^6, the overlap ratios computed in double arithmetic from the stored
coordinates differ from the exact ratios by at most one millionth. -/
theorem c78_overlap_accurate {fl : ℚ → ℚ} (h : RoundsToNearest fl) {n : ℕ} (hn : n ≤ 3) {s1 e1 s2 e2 : ℚ}
    (i1 : IsDecimal n s1) (i2 : IsDecimal n e1) (i3 : IsDecimal n s2) (i4 : IsDecimal n e2)
    (b1 : |s1| ≤ 10 ^ 6) (b2 : |e1| ≤ 10 ^ 6) (b3 : |s2| ≤ 10 ^ 6) (b4 : |e2| ≤ 10 ^ 6) :
    |(FloatMath.computeOverlapRatios fl (fl s1) (fl e1) (fl s2) (fl e2)).1 - (Elements.computeOverlapRatios s1 e1 s2 e2).1| ≤ 1 / 10 ^ 6 ∧
    |(FloatMath.computeOverlapRatios fl (fl s1) (fl e1) (fl s2) (fl e2)).2 - (Elements.computeOverlapRatios s1 e1 s2 e2).2| ≤ 1 / 10 ^ 6 := by
  have dm : ∀ {x : ℚ}, |x| ≤ 10 ^ 6 → |x| ≤ dblMax := fun hx => fl_bound hx (by norm_num)
  have mb : ∀ {x y : ℚ}, |x| ≤ 10 ^ 6 → |y| ≤ 10 ^ 6 → |min x y| ≤ 10 ^ 6 ∧ |max x y| ≤ 10 ^ 6 := by
    intro x y hx hy
    exact ⟨by rcases min_choice x y with e | e <;> rw [e] <;> assumption, by rcases max_choice x y with e | e <;> rw [e] <;> assumption⟩
  have md : ∀ {x y : ℚ}, IsDecimal n x → IsDecimal n y → IsDecimal n (min x y) ∧ IsDecimal n (max x y) := by
    intro x y hx hy
    exact ⟨by rcases min_choice x y with e | e <;> rw [e] <;> assumption, by rcases max_choice x y with e | e <;> rw [e] <;> assumption⟩
  have mf : ∀ {x y : ℚ}, |x| ≤ 10 ^ 6 → |y| ≤ 10 ^ 6 → min (fl x) (fl y) = fl (min x y) ∧ max (fl x) (fl y) = fl (max x y) := by
    intro x y hx hy
    have := c78_hull h (dm hx) (dm hy)
    simpa only [minimum_eq_min, maximum_eq_max] using this
  obtain ⟨c1, c2⟩ := mb b1 b2
  obtain ⟨c3, c4⟩ := mb b3 b4
  obtain ⟨j1, j2⟩ := md i1 i2
  obtain ⟨j3, j4⟩ := md i3 i4
  -- the difference of two stored numbers, rounded
  have diff : ∀ {x y : ℚ}, |x| ≤ 10 ^ 6 → |y| ≤ 10 ^ 6 → |fl (fl x - fl y) - (x - y)| ≤ 1 / 2222000000 := by
    intro x y hx hy
    have ex := fl_err h hx (by norm_num) (by norm_num)
    have ey := fl_err h hy (by norm_num) (by norm_num)
    rw [abs_le] at hx hy ex ey
    have e := fl_err h (x := fl x - fl y) (M := 2 * 10 ^ 6 + 1) (by rw [abs_le]; constructor <;> linarith) (by norm_num) (by norm_num)
    rw [abs_le] at *
    norm_num at *
    constructor <;> linarith
  have main : ∀ {lo1 hi1 lo2 hi2 : ℚ}, IsDecimal n lo1 → IsDecimal n hi1 → |lo1| ≤ 10 ^ 6 → |hi1| ≤ 10 ^ 6 → |lo2| ≤ 10 ^ 6 → |hi2| ≤ 10 ^ 6 → lo1 ≤ hi1 →
      |(if 0 < fl (fl hi1 - fl lo1) then fl (max 0 (fl (min (fl hi1) (fl hi2) - max (fl lo1) (fl lo2))) / fl (fl hi1 - fl lo1)) else 0) -
        (if 0 < hi1 - lo1 then max 0 (min hi1 hi2 - max lo1 lo2) / (hi1 - lo1) else 0)| ≤ 1 / 10 ^ 6 := by
    intro lo1 hi1 lo2 hi2 k1 k2 a1 a2 a3 a4 hle
    by_cases he : hi1 = lo1
    · subst he
      rw [sub_self, sub_self, fl_zero h, if_neg (lt_irrefl _), if_neg (lt_irrefl _)]; norm_num
    · have hlt : lo1 < hi1 := lt_of_le_of_ne hle (Ne.symm he)
      have hgap := fl_decimal_gap hn k2 k1 he
      rw [abs_of_pos (by linarith)] at hgap
      have o1 : max 0 (min hi1 hi2 - max lo1 lo2) ≤ hi1 - lo1 := max_le (by linarith) (by linarith [min_le_left hi1 hi2, le_max_left lo1 lo2])
      have w1 : ∀ {x : ℚ}, |x| ≤ 10 ^ 6 → |fl x| ≤ 10 ^ 29 := by
        intro x hx
        have ex := fl_err h hx (by norm_num) (by norm_num)
        rw [abs_le] at *
        norm_num at *
        constructor <;> linarith
      obtain ⟨g0, g1⟩ := fl_overlap_parts h (w1 a1) (w1 a2) (w1 a3) (w1 a4)
      have g1 := g1 (fl_mono h (dm a1) (dm a2) hle)
      have dO : |max 0 (fl (min (fl hi1) (fl hi2) - max (fl lo1) (fl lo2))) - max 0 (min hi1 hi2 - max lo1 lo2)| ≤ 1 / 2222000000 := by
        rw [(mf a2 a4).1, (mf a1 a3).2]
        have := diff (mb a2 a4).1 (mb a1 a3).2
        refine le_trans ?_ this
        have := abs_max_sub_max_le_max (0 : ℚ) (fl (fl (min hi1 hi2) - fl (max lo1 lo2))) 0 (min hi1 hi2 - max lo1 lo2)
        rw [sub_self, abs_zero] at this
        exact le_trans this (max_le (abs_nonneg _) (le_refl _))
      obtain ⟨lp, hh⟩ := fl_ratio_near h (le_max_left _ _) o1 hgap g0 g1 dO (diff a2 a1)
      rw [if_pos lp, if_pos (by linarith)]
      exact hh
  simp only [FloatMath.computeOverlapRatios, Elements.computeOverlapRatios, minimum_eq_min, maximum_eq_max, gt_iff_lt, (mf b1 b2).1, (mf b1 b2).2, (mf b3 b4).1,
    (mf b3 b4).2]
  refine ⟨main j1 j2 c1 c2 c3 c4 min_le_max, ?_⟩
  have := main j3 j4 c3 c4 c1 c2 min_le_max
  rw [min_comm (fl (max s2 e2)), max_comm (fl (min s2 e2)), min_comm (max s2 e2), max_comm (min s2 e2)] at this
  exact this

/-- **C78 (gaps are accurate).** For parsed boxes up to 10^6, the gaps computed in double arithmetic between the stored boxes differ from the
exact gaps by at most one billionth. -/
theorem c78_gaps {fl : ℚ → ℚ} (h : RoundsToNearest fl) {n : ℕ} (hn : n ≤ 3) (a b : Box) (ha : RoundedBox n a) (hb : RoundedBox n b)
    (ua : |a.leftX| ≤ 10 ^ 6 ∧ |a.upperY| ≤ 10 ^ 6 ∧ |a.rightX| ≤ 10 ^ 6 ∧ |a.lowerY| ≤ 10 ^ 6)
    (ub : |b.leftX| ≤ 10 ^ 6 ∧ |b.upperY| ≤ 10 ^ 6 ∧ |b.rightX| ≤ 10 ^ 6 ∧ |b.lowerY| ≤ 10 ^ 6) :
    |FloatMath.computeHorizontalGap fl (FloatMath.stored fl a) (FloatMath.stored fl b) - Elements.computeHorizontalGap a b| ≤ 1 / 10 ^ 9 ∧
    |FloatMath.computeVerticalGap fl (FloatMath.stored fl a) (FloatMath.stored fl b) - Elements.computeVerticalGap a b| ≤ 1 / 10 ^ 9 := by
  have dec : ∀ {z : ℚ}, (∃ x, z = roundTo x n) → IsDecimal n z := by rintro z ⟨x, rfl⟩; exact isDecimal_round _ _
  have ut : Usual tol := by unfold Usual tol; norm_num
  have us : ∀ {x : ℚ}, |x| ≤ 10 ^ 6 → Usual x := fun hx => le_trans hx (by norm_num)
  have sm : ∀ {x y : ℚ}, IsDecimal n x → IsDecimal n y → |x| ≤ 10 ^ 6 → |y| ≤ 10 ^ 6 →
      FloatMath.smaller fl (fl x) (fl y) (FloatMath.tolerance fl) = smaller x y tol := fun hx hy ux uy =>
    (c78_comparisons h (us ux) (us uy) ut (fl_decimal_away hn hx hy).1 (fl_decimal_away hn hx hy).2).2.1
  have diff : ∀ {x y : ℚ}, |x| ≤ 10 ^ 6 → |y| ≤ 10 ^ 6 → |fl (fl x - fl y) - (x - y)| ≤ 1 / 10 ^ 9 := by
    intro x y hx hy
    have ex := fl_err h hx (by norm_num) (by norm_num)
    have ey := fl_err h hy (by norm_num) (by norm_num)
    rw [abs_le] at hx hy ex ey
    have e := fl_err h (x := fl x - fl y) (M := 2 * 10 ^ 6 + 1) (by rw [abs_le]; constructor <;> linarith) (by norm_num) (by norm_num)
    rw [abs_le] at *
    norm_num at *
    constructor <;> linarith
  constructor
  · unfold FloatMath.computeHorizontalGap Elements.computeHorizontalGap
    have e1 : FloatMath.smaller fl (FloatMath.stored fl a).leftX (FloatMath.stored fl b).leftX (FloatMath.tolerance fl) = smaller a.leftX b.leftX tol :=
      sm (dec ha.1) (dec hb.1) ua.1 ub.1
    rw [e1]
    by_cases hs : smaller a.leftX b.leftX tol = true
    · simp only [hs, if_true]
      by_cases hr : a.rotation = 2 ∨ a.rotation = 3
      · rw [if_pos (show (FloatMath.stored fl a).rotation = 2 ∨ (FloatMath.stored fl a).rotation = 3 from hr), if_pos hr]; exact diff ua.2.2.1 ub.1
      · rw [if_neg (show ¬ ((FloatMath.stored fl a).rotation = 2 ∨ (FloatMath.stored fl a).rotation = 3) from hr), if_neg hr]; exact diff ub.1 ua.2.2.1
    · rw [Bool.not_eq_true] at hs
      simp only [hs, Bool.false_eq_true, if_false]
      by_cases hr : b.rotation = 2 ∨ b.rotation = 3
      · rw [if_pos (show (FloatMath.stored fl b).rotation = 2 ∨ (FloatMath.stored fl b).rotation = 3 from hr), if_pos hr]; exact diff ub.2.2.1 ua.1
      · rw [if_neg (show ¬ ((FloatMath.stored fl b).rotation = 2 ∨ (FloatMath.stored fl b).rotation = 3) from hr), if_neg hr]; exact diff ua.1 ub.2.2.1
  · unfold FloatMath.computeVerticalGap Elements.computeVerticalGap
    have e1 : FloatMath.smaller fl (FloatMath.stored fl a).upperY (FloatMath.stored fl b).upperY (FloatMath.tolerance fl) = smaller a.upperY b.upperY tol :=
      sm (dec ha.2.1) (dec hb.2.1) ua.2.1 ub.2.1
    rw [e1]
    by_cases hs : smaller a.upperY b.upperY tol = true
    · simp only [hs, if_true]
      by_cases hr : a.rotation = 2 ∨ a.rotation = 3
      · rw [if_pos (show (FloatMath.stored fl a).rotation = 2 ∨ (FloatMath.stored fl a).rotation = 3 from hr), if_pos hr]; exact diff ua.2.2.2 ub.2.1
      · rw [if_neg (show ¬ ((FloatMath.stored fl a).rotation = 2 ∨ (FloatMath.stored fl a).rotation = 3) from hr), if_neg hr]; exact diff ub.2.1 ua.2.2.2
    · rw [Bool.not_eq_true] at hs
      simp only [hs, Bool.false_eq_true, if_false]
      by_cases hr : b.rotation = 2 ∨ b.rotation = 3
      · rw [if_pos (show (FloatMath.stored fl b).rotation = 2 ∨ (FloatMath.stored fl b).rotation = 3 from hr), if_pos hr]; exact diff ub.2.2.2 ua.2.1
      · rw [if_neg (show ¬ ((FloatMath.stored fl b).rotation = 2 ∨ (FloatMath.stored fl b).rotation = 3) from hr), if_neg hr]; exact diff ua.2.1 ub.2.2.2

/-- Without rounding, the functions are the ones of the exact model. -/
theorem c78_exact (x y t : ℚ) (n : ℕ) (s1 e1 s2 e2 : ℚ) (a b : Box) :
    FloatMath.equal id x y t = equal x y t ∧ FloatMath.smaller id x y t = smaller x y t ∧ FloatMath.larger id x y t = larger x y t ∧
    FloatMath.equalOrSmaller id x y t = equalOrSmaller x y t ∧ FloatMath.equalOrLarger id x y t = equalOrLarger x y t ∧
    FloatMath.roundTo id x n = roundTo x n ∧ FloatMath.computeOverlapRatios id s1 e1 s2 e2 = Elements.computeOverlapRatios s1 e1 s2 e2 ∧
    FloatMath.computeHorizontalGap id a b = Elements.computeHorizontalGap a b ∧ FloatMath.computeVerticalGap id a b = Elements.computeVerticalGap a b ∧
    FloatMath.comparators id = allComparators :=
  ⟨rfl, rfl, rfl, rfl, rfl, rfl, rfl, rfl, rfl, rfl⟩

/-- **C78 (intervals).** The test whether a number lies in an interval: the same in double arithmetic as for the unrounded numbers, unless the number is next to one of the ends of the interval, widened
by the tolerance. -/
theorem c78_between {fl : ℚ → ℚ} (h : RoundsToNearest fl) {x lo up t : ℚ} (hx : Usual x) (hlo : Usual lo) (hup : Usual up) (ht : Usual t)
    (h1 : 1 / 10 ^ 6 < |x - lo - t|) (h2 : 1 / 10 ^ 6 < |lo - x - t|) (h3 : 1 / 10 ^ 6 < |x - up - t|) (h4 : 1 / 10 ^ 6 < |up - x - t|) :
    FloatMath.between fl (fl x) (fl lo) (fl up) (fl t) = between x lo up t ∧ FloatMath.between id x lo up t = between x lo up t := by
  refine ⟨?_, rfl⟩
  unfold FloatMath.between between
  rw [(c78_comparisons h hx hlo ht h1 h2).2.2.2.2, (c78_comparisons h hx hup ht h3 h4).2.2.2.1]

example : Usual 3 ∧ Usual 1 ∧ Usual 5 ∧ Usual tol ∧ 1 / 10 ^ 6 < |(3 : ℚ) - 1 - tol| ∧ 1 / 10 ^ 6 < |(1 : ℚ) - 3 - tol| ∧ 1 / 10 ^ 6 < |(3 : ℚ) - 5 - tol| ∧
    1 / 10 ^ 6 < |(5 : ℚ) - 3 - tol| ∧ between 3 1 5 tol = true := by
  unfold Usual; decide +kernel

/-- **C78, refuted for huge numbers.** Above 2^39 the doubles are further apart than the tolerance, and two neighbouring ones are neither
equal, nor is one smaller or larger than the other one, in double arithmetic. -/
theorem c78_huge_refuted : ∃ x y : ℚ, binary64 x = x ∧ binary64 y = y ∧ x < y ∧
    FloatMath.equal binary64 x y (FloatMath.tolerance binary64) = false ∧ FloatMath.smaller binary64 x y (FloatMath.tolerance binary64) = false ∧
    FloatMath.larger binary64 x y (FloatMath.tolerance binary64) = false :=
  ⟨2 ^ 39 + 1 / 2 ^ 13, 2 ^ 39 + 1 / 2 ^ 12, by decide +kernel, by decide +kernel, by decide +kernel, by decide +kernel, by decide +kernel, by decide +kernel⟩

/-- Non-vacuity: 0.1 and 0.3 are no doubles; the double closest to 0.1 is the one every C++ programmer knows. -/
example : binary64 (1 / 10) = 3602879701896397 / 2 ^ 55 ∧ binary64 (binary64 (1 / 10) + binary64 (2 / 10)) ≠ binary64 (3 / 10) ∧
    FloatMath.equal binary64 (binary64 (binary64 (1 / 10) + binary64 (2 / 10))) (binary64 (3 / 10)) (FloatMath.tolerance binary64) = true ∧
    FloatMath.smaller binary64 (binary64 (1234567 / 10)) (binary64 (1234568 / 10)) (FloatMath.tolerance binary64) = true ∧
    FloatMath.roundTo binary64 (binary64 (123 / 1000)) 1 = binary64 (1 / 10) := by
  refine ⟨by decide +kernel, by decide +kernel, by decide +kernel, by decide +kernel, by decide +kernel⟩

end Verif.Props
