import Verif.Model.Math

/-!
# The unit tests of `/repo/test/utils/MathUtilsTest.cpp`, run on the model

These examples are no proofs of properties.  They check that the model of `MathUtils.cpp` gives the values
the authors of the program expect (decimals are exact here, `ASSERT_NEAR` becomes equality).
-/

namespace Verif.Conformance.MathUtils

open Verif.Math

/-- Test `equal`, `/repo/test/utils/MathUtilsTest.cpp:30-40`. -/
example :
    equal 0 0 tol = true ∧
    equal 2.3 2.3 tol = true ∧
    equal 1.1 1.5 0.4 = true ∧
    equal 5.3 5.7 2.2 = true ∧
    equal 0 0.1 tol = false ∧
    equal 2.3 5.3 tol = false ∧
    equal 1.1 1.5 0.39 = false ∧
    equal 5.3 7.7 1.2 = false := by
  decide +kernel

/-- Test `larger`, `/repo/test/utils/MathUtilsTest.cpp:43-53`. -/
example :
    larger 0.1 0 tol = true ∧
    larger 3.3 2.3 tol = true ∧
    larger 1.8 1.5 0.2 = true ∧
    larger 5.3 1.7 2.2 = true ∧
    larger 0 0 tol = false ∧
    larger 0.3 2.8 tol = false ∧
    larger 1.8 1.5 0.3 = false ∧
    larger 5.3 1.7 5 = false := by
  decide +kernel

/-- Test `smaller`, `/repo/test/utils/MathUtilsTest.cpp:56-66`. -/
example :
    smaller 0 0.01 tol = true ∧
    smaller 3.3 4.2 tol = true ∧
    smaller 1.3 1.8 0.2 = true ∧
    smaller 5.4 10.7 2.2 = true ∧
    smaller 0.01 0 tol = false ∧
    smaller 4.2 3.3 tol = false ∧
    smaller 1.3 1.8 0.5 = false ∧
    smaller 9.1 10.7 2.2 = false := by
  decide +kernel

/-- Test `equalOrLarger`, `/repo/test/utils/MathUtilsTest.cpp:69-79`. -/
example :
    equalOrLarger 1 1 tol = true ∧
    equalOrLarger 3.3 0.2 tol = true ∧
    equalOrLarger 1.3 1.3 0.2 = true ∧
    equalOrLarger 11.9 9 2.2 = true ∧
    equalOrLarger 0.9 1 tol = false ∧
    equalOrLarger 0 0.2 tol = false ∧
    equalOrLarger 0.9 1.2 0.2 = false ∧
    equalOrLarger 2.1 11 2.2 = false := by
  decide +kernel

/-- Test `equalOrSmaller`, `/repo/test/utils/MathUtilsTest.cpp:82-92`. -/
example :
    equalOrSmaller 1 1 tol = true ∧
    equalOrSmaller 0.3 2.2 tol = true ∧
    equalOrSmaller 1.3 1.3 0.2 = true ∧
    equalOrSmaller 1.2 1.3 0.2 = true ∧
    equalOrSmaller 1.1 1 tol = false ∧
    equalOrSmaller 5.1 0.2 tol = false ∧
    equalOrSmaller 1.41 1.2 0.2 = false ∧
    equalOrSmaller 11 2.1 2.2 = false := by
  decide +kernel

/-- Test `between`, `/repo/test/utils/MathUtilsTest.cpp:95-105`. -/
example :
    between 0 0 1 tol = true ∧
    between 0.5 0 1 tol = true ∧
    between 1.7 1.5 1.6 0.1 = true ∧
    between 1.4 1.5 1.6 0.1 = true ∧
    between 1.1 0 1 tol = false ∧
    between 0.2 0.5 1 tol = false ∧
    between 2 1.5 1.6 0.2 = false ∧
    between 0 2 3 1 = false := by
  decide +kernel

/-- Test `round`, `/repo/test/utils/MathUtilsTest.cpp:108-116`. -/
example :
    roundTo 1.46731 0 = 1 ∧
    roundTo 1.56731 0 = 2 ∧
    roundTo 1.56731 1 = 1.6 ∧
    roundTo 1.56731 2 = 1.57 ∧
    roundTo 1.56731 3 = 1.567 ∧
    roundTo 1.56731 4 = 1.5673 ∧
    roundTo 1.56731 5 = 1.56731 := by
  decide +kernel

/-- Test `minimum`, `/repo/test/utils/MathUtilsTest.cpp:119-130`. -/
example :
    minimum 0 0 = 0 ∧
    minimum (-6.3) (-5.6) = (-6.3) ∧
    minimum (-5.6) (-6.3) = (-6.3) ∧
    minimum (-7.2) 2.3 = (-7.2) ∧
    minimum 2.3 (-7.2) = (-7.2) ∧
    minimum 2.3 5.6 = 2.3 ∧
    minimum 5.6 2.3 = 2.3 ∧
    minimum4 1 2 3 4 = 1 ∧
    minimum3 3 2 4 = 2 ∧
    minimum4 0.6 0.4 0.3 1.2 = 0.3 := by
  decide +kernel

/-- Test `maximum`, `/repo/test/utils/MathUtilsTest.cpp:133-144`. -/
example :
    maximum 0 0 = 0 ∧
    maximum (-6.3) (-5.6) = (-5.6) ∧
    maximum (-5.6) (-6.3) = (-5.6) ∧
    maximum (-7.2) 2.3 = 2.3 ∧
    maximum 2.3 (-7.2) = 2.3 ∧
    maximum 2.3 5.6 = 5.6 ∧
    maximum 5.6 2.3 = 5.6 ∧
    maximum4 1 2 3 4 = 4 ∧
    maximum3 3 2 1 = 3 ∧
    maximum4 0.6 0.4 0.3 1.2 = 1.2 := by
  decide +kernel

end Verif.Conformance.MathUtils
