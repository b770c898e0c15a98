import Verif.Model.Box
import Mathlib.Tactic.Linarith
import Mathlib.Tactic.Ring
import Mathlib.Tactic.NormNum
import Mathlib.Tactic.Positivity
import Mathlib.Algebra.Order.Floor.Ring

/-! Helper lemmas about the arithmetic model. -/

namespace Verif.Math

theorem tol_pos : 0 < tol := by norm_num [tol]

theorem minimum_eq_min (a b : ℚ) : minimum a b = min a b := by
  unfold minimum; split
  · rw [min_eq_right (by linarith)]
  · rw [min_eq_left (by linarith)]

theorem maximum_eq_max (a b : ℚ) : maximum a b = max a b := by
  unfold maximum; split
  · rw [max_eq_right (by linarith)]
  · rw [max_eq_left (by linarith)]

theorem smaller_iff {a b t : ℚ} : smaller a b t = true ↔ a < b - t := by simp [smaller]
theorem larger_iff {a b t : ℚ} : larger a b t = true ↔ a > b + t := by simp [larger]
theorem equal_iff {a b t : ℚ} : equal a b t = true ↔ |a - b| ≤ t := by simp [equal]
theorem eol_iff {a b t : ℚ} : equalOrLarger a b t = true ↔ a ≥ b - t := by simp [equalOrLarger]
theorem eos_iff {a b t : ℚ} : equalOrSmaller a b t = true ↔ a ≤ b + t := by simp [equalOrSmaller]
theorem smaller_false {a b t : ℚ} : smaller a b t = false ↔ b - t ≤ a := by simp [smaller]
theorem larger_false {a b t : ℚ} : larger a b t = false ↔ a ≤ b + t := by simp [larger]
theorem equal_false {a b t : ℚ} : equal a b t = false ↔ t < |a - b| := by simp [equal]
theorem eol_false {a b t : ℚ} : equalOrLarger a b t = false ↔ a < b - t := by
  rw [equalOrLarger, decide_eq_false_iff_not, ge_iff_le, not_le]
theorem eos_false {a b t : ℚ} : equalOrSmaller a b t = false ↔ b + t < a := by simp [equalOrSmaller]

theorem stdRound_neg (d : ℚ) : stdRound (-d) = -stdRound d := by
  unfold stdRound
  rcases lt_trichotomy d 0 with h | h | h
  · rw [if_pos (by linarith), if_neg (by linarith)]; ring
  · subst h; simp; norm_num
  · rw [if_neg (by linarith), if_pos (by linarith)]; simp

theorem stdRound_close (d : ℚ) : |(stdRound d : ℚ) - d| ≤ 1 / 2 := by
  unfold stdRound
  split
  · have h1 := Int.floor_le (d + 1 / 2)
    have h2 := Int.lt_floor_add_one (d + 1 / 2)
    rw [abs_le]; constructor <;> linarith
  · have h1 := Int.floor_le (-d + 1 / 2)
    have h2 := Int.lt_floor_add_one (-d + 1 / 2)
    push_cast
    rw [abs_le]; constructor <;> linarith

theorem stdRound_int (z : ℤ) : stdRound (z : ℚ) = z := by
  have h := stdRound_close (z : ℚ)
  rw [abs_le] at h
  have h1 : ((stdRound (z : ℚ) : ℤ) : ℚ) < (z + 1 : ℤ) := by push_cast; linarith
  have h2 : ((z - 1 : ℤ) : ℚ) < (stdRound (z : ℚ) : ℤ) := by push_cast; linarith
  have h1' := Int.cast_lt.mp h1
  have h2' := Int.cast_lt.mp h2
  omega

theorem stdRound_nonneg {d : ℚ} (h : 0 ≤ d) : 0 ≤ stdRound d := by
  unfold stdRound; rw [if_pos h]; exact Int.floor_nonneg.mpr (by linarith)

theorem stdRound_mono {a b : ℚ} (h : a ≤ b) : stdRound a ≤ stdRound b := by
  by_cases ha : 0 ≤ a
  · have hb : 0 ≤ b := le_trans ha h
    unfold stdRound; rw [if_pos ha, if_pos hb]; exact Int.floor_le_floor (by linarith)
  · by_cases hb : 0 ≤ b
    · have := stdRound_nonneg hb
      have h2 : 0 ≤ stdRound (-a) := stdRound_nonneg (by linarith)
      rw [stdRound_neg] at h2; omega
    · unfold stdRound; rw [if_neg ha, if_neg hb]
      have := Int.floor_le_floor (show -b + 1/2 ≤ -a + 1/2 by linarith)
      omega

theorem roundTo_eq (d : ℚ) (n : ℕ) : roundTo d n = (stdRound (d * 10 ^ n) : ℚ) / 10 ^ n := by
  unfold roundTo
  split
  · next h => subst h; simp
  · rfl

end Verif.Math
