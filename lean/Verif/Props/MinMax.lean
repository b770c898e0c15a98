import Verif.Model.Math
import Verif.Model.Box
import Mathlib.Tactic.NormNum
import Mathlib.Tactic.Linarith

/-!
# C01, continued: `minimum` and `maximum`

The overloads for two, three and four numbers.
-/

namespace Verif.Props
open Verif.Math

/-- `m` is one of the numbers and none of them is smaller. -/
def LeastOf (m : ℚ) (ds : List ℚ) : Prop := m ∈ ds ∧ ∀ d ∈ ds, m ≤ d

/-- `m` is one of the numbers and none of them is larger. -/
def GreatestOf (m : ℚ) (ds : List ℚ) : Prop := m ∈ ds ∧ ∀ d ∈ ds, d ≤ m

theorem mm_minimum (a b : ℚ) : LeastOf (minimum a b) [a, b] := by
  unfold minimum LeastOf
  by_cases h : b < a
  · rw [if_pos h]; refine ⟨by simp, ?_⟩
    intro d hd; simp only [List.mem_cons, List.not_mem_nil, or_false] at hd
    rcases hd with rfl | rfl <;> linarith
  · rw [if_neg h]; refine ⟨by simp, ?_⟩
    intro d hd; simp only [List.mem_cons, List.not_mem_nil, or_false] at hd
    rcases hd with rfl | rfl <;> linarith

theorem mm_maximum (a b : ℚ) : GreatestOf (maximum a b) [a, b] := by
  unfold maximum GreatestOf
  by_cases h : a < b
  · rw [if_pos h]; refine ⟨by simp, ?_⟩
    intro d hd; simp only [List.mem_cons, List.not_mem_nil, or_false] at hd
    rcases hd with rfl | rfl <;> linarith
  · rw [if_neg h]; refine ⟨by simp, ?_⟩
    intro d hd; simp only [List.mem_cons, List.not_mem_nil, or_false] at hd
    rcases hd with rfl | rfl <;> linarith

theorem mm_least_append {m n : ℚ} {xs ys : List ℚ} (hm : LeastOf m xs) (hn : LeastOf n ys) :
    LeastOf (minimum m n) (xs ++ ys) := by
  obtain ⟨h1, h2⟩ := mm_minimum m n
  have hl := h2 m (by simp)
  have hr := h2 n (by simp)
  simp only [List.mem_cons, List.not_mem_nil, or_false] at h1
  refine ⟨?_, ?_⟩
  · rw [List.mem_append]
    rcases h1 with h | h
    · rw [h]; exact .inl hm.1
    · rw [h]; exact .inr hn.1
  · intro d hd
    rw [List.mem_append] at hd
    rcases hd with h | h
    · exact le_trans hl (hm.2 d h)
    · exact le_trans hr (hn.2 d h)

theorem mm_greatest_append {m n : ℚ} {xs ys : List ℚ} (hm : GreatestOf m xs) (hn : GreatestOf n ys) :
    GreatestOf (maximum m n) (xs ++ ys) := by
  obtain ⟨h1, h2⟩ := mm_maximum m n
  have hl := h2 m (by simp)
  have hr := h2 n (by simp)
  simp only [List.mem_cons, List.not_mem_nil, or_false] at h1
  refine ⟨?_, ?_⟩
  · rw [List.mem_append]
    rcases h1 with h | h
    · rw [h]; exact .inl hm.1
    · rw [h]; exact .inr hn.1
  · intro d hd
    rw [List.mem_append] at hd
    rcases hd with h | h
    · exact le_trans (hm.2 d h) hl
    · exact le_trans (hn.2 d h) hr

theorem mm_single (a : ℚ) : LeastOf a [a] ∧ GreatestOf a [a] := by
  refine ⟨⟨by simp, ?_⟩, ⟨by simp, ?_⟩⟩ <;> · intro d hd; simp at hd; exact hd ▸ le_rfl

/-- C01: `minimum` and `maximum` of two, three and four numbers are the least and the greatest of
their arguments. -/
theorem c01_min_max (a b c d : ℚ) :
    LeastOf (minimum a b) [a, b] ∧ LeastOf (minimum3 a b c) [a, b, c] ∧
    LeastOf (minimum4 a b c d) [a, b, c, d] ∧
    GreatestOf (maximum a b) [a, b] ∧ GreatestOf (maximum3 a b c) [a, b, c] ∧
    GreatestOf (maximum4 a b c d) [a, b, c, d] :=
  ⟨mm_minimum a b, mm_least_append (mm_minimum a b) (mm_single c).1,
    mm_least_append (mm_minimum a b) (mm_minimum c d), mm_maximum a b,
    mm_greatest_append (mm_maximum a b) (mm_single c).2,
    mm_greatest_append (mm_maximum a b) (mm_maximum c d)⟩

example : minimum3 3 1 2 = 1 ∧ maximum4 3 1 7 2 = 7 := by
  constructor <;> norm_num [minimum3, maximum4, minimum, maximum]

/-- **C01.** The start values of the searches for a least and a greatest coordinate: the largest double, `2 ^ 1024 - 2 ^ 971`, and the smallest positive normal double, `2 ^ -1022` (IEEE 754 binary64);
no double is larger than the former, and *every negative number and 0 are smaller than the latter*. -/
theorem c01_extremes : dblMax = 2 ^ 1024 - 2 ^ 971 ∧ dblMin * 2 ^ 1022 = 1 ∧
    (∀ m e : ℕ, m < 2 ^ 53 → e ≤ 971 → (m : ℚ) * 2 ^ e ≤ dblMax) ∧ ∀ x : ℚ, x ≤ 0 → maximum x dblMin = dblMin := by
  have h0 : (0 : ℚ) < dblMin := by unfold dblMin; positivity
  refine ⟨by unfold dblMax; rw [show (1024 : ℕ) = 53 + 971 from rfl, pow_add, sub_mul, one_mul],
    by unfold dblMin; exact one_div_mul_cancel (by positivity), ?_, ?_⟩
  · intro m e hm he
    unfold dblMax
    have h1 : (m : ℚ) ≤ 2 ^ 53 - 1 := by
      have : m ≤ 2 ^ 53 - 1 := by omega
      calc (m : ℚ) ≤ ((2 ^ 53 - 1 : ℕ) : ℚ) := by exact_mod_cast this
        _ = 2 ^ 53 - 1 := by norm_num
    have h2 : (2 : ℚ) ^ e ≤ 2 ^ 971 := pow_le_pow_right₀ (by norm_num) he
    have h3 : (0 : ℚ) ≤ 2 ^ e := by positivity
    calc (m : ℚ) * 2 ^ e ≤ (2 ^ 53 - 1) * 2 ^ e := mul_le_mul_of_nonneg_right h1 h3
      _ ≤ (2 ^ 53 - 1) * 2 ^ 971 := mul_le_mul_of_nonneg_left h2 (by norm_num)
  · intro x hx
    unfold maximum
    rw [if_pos (lt_of_le_of_lt hx h0)]

/-- **C05.** Two elements have an equal left, upper, right or lower edge iff the coordinates of this edge differ by at most the given tolerance, whatever the other edges are; and the offsets between
left and right edges are the differences of these coordinates, positive iff the first element lies further right. -/
theorem c05_sides (a b : Box) (t : ℚ) :
    (Elements.computeHasEqualLeftX a b t = true ↔ a.leftX - t ≤ b.leftX ∧ b.leftX ≤ a.leftX + t) ∧
    (Elements.computeHasEqualUpperY a b t = true ↔ a.upperY - t ≤ b.upperY ∧ b.upperY ≤ a.upperY + t) ∧
    (Elements.computeHasEqualRightX a b t = true ↔ a.rightX - t ≤ b.rightX ∧ b.rightX ≤ a.rightX + t) ∧
    (Elements.computeHasEqualLowerY a b t = true ↔ a.lowerY - t ≤ b.lowerY ∧ b.lowerY ≤ a.lowerY + t) ∧
    b.leftX + Elements.computeLeftXOffset a b = a.leftX ∧ b.rightX + Elements.computeRightXOffset a b = a.rightX := by
  have key : ∀ x y : ℚ, equal x y t = true ↔ x - t ≤ y ∧ y ≤ x + t := by
    intro x y
    unfold equal
    rw [decide_eq_true_eq, abs_le]
    constructor
    · rintro ⟨h1, h2⟩; exact ⟨by linarith, by linarith⟩
    · rintro ⟨h1, h2⟩; exact ⟨by linarith, by linarith⟩
  refine ⟨key _ _, key _ _, key _ _, key _ _, ?_, ?_⟩
  · unfold Elements.computeLeftXOffset; ring
  · unfold Elements.computeRightXOffset; ring

/-- Non-vacuity: the upper edges are equal, the others are not. -/
example : Elements.computeHasEqualUpperY { leftX := 1, upperY := 5, rightX := 10, lowerY := 20 } { leftX := 30, upperY := 5, rightX := 40, lowerY := 25 } (1 / 10) = true ∧
    Elements.computeHasEqualLowerY { leftX := 1, upperY := 5, rightX := 10, lowerY := 20 } { leftX := 30, upperY := 5, rightX := 40, lowerY := 25 } (1 / 10) = false := by
  decide +kernel

end Verif.Props
