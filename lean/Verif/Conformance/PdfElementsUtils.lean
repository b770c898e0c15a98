import Verif.Model.Box

/-!
# The unit tests of `/repo/test/utils/PdfElementsUtilsTest.cpp`, run on the model

These examples are no proofs of properties.  They check that the model of `PdfElementsUtils.cpp` gives the
values the authors of the program expect (decimals are exact here, `ASSERT_NEAR` becomes equality).  The
death tests with null pointers are left out: the model has no null pointers.
-/

namespace Verif.Conformance.PdfElementsUtils

open Verif.Math Verif.Elements

/-- Test `computeHorizontalGap`, `/repo/test/utils/PdfElementsUtilsTest.cpp:42-58`. -/
example :
    let word1 : Box := ⟨1, 20, 240.5, 25.5, 250, 0, 0⟩
    let word2 : Box := ⟨1, 27, 240.5, 32.2, 250, 0, 0⟩
    let word3 : Box := ⟨1, 35.4, 240.5, 40.1, 250, 0, 0⟩
    computeHorizontalGap word1 word2 = 1.5 ∧
    computeHorizontalGap word2 word1 = 1.5 ∧
    computeHorizontalGap word1 word3 = 9.9 ∧
    computeHorizontalGap word3 word1 = 9.9 ∧
    computeHorizontalGap word2 word3 = 3.2 ∧
    computeHorizontalGap word3 word2 = 3.2 := by
  decide +kernel

/-- Test `computeVerticalGap`, `/repo/test/utils/PdfElementsUtilsTest.cpp:61-77`. -/
example :
    let word1 : Box := ⟨1, 20, 240.5, 25.5, 245.1, 0, 0⟩
    let word2 : Box := ⟨1, 27, 247.5, 32.2, 250.5, 0, 0⟩
    let word3 : Box := ⟨1, 35.4, 253.5, 40.1, 257.8, 0, 0⟩
    computeVerticalGap word1 word2 = 2.4 ∧
    computeVerticalGap word2 word1 = 2.4 ∧
    computeVerticalGap word1 word3 = 8.4 ∧
    computeVerticalGap word3 word1 = 8.4 ∧
    computeVerticalGap word2 word3 = 3 ∧
    computeVerticalGap word3 word2 = 3 := by
  decide +kernel

/-- Test `computeOverlapRatios`, `/repo/test/utils/PdfElementsUtilsTest.cpp:80-134`. -/
example :
    computeOverlapRatios 0 0 0 0 = (0, 0) ∧
    computeOverlapRatios 5 10 5 10 = (1, 1) ∧
    computeOverlapRatios 10 5 10 5 = (1, 1) ∧
    computeOverlapRatios 12 34 37 40 = (0, 0) ∧
    computeOverlapRatios 34 12 40 37 = (0, 0) ∧
    computeOverlapRatios 1 7 4 16 = (0.5, 0.25) ∧
    computeOverlapRatios 7 1 16 4 = (0.5, 0.25) ∧
    computeOverlapRatios 4 16 1 7 = (0.25, 0.5) ∧
    computeOverlapRatios 5 15 10 20 = (0.5, 0.5) ∧
    computeOverlapRatios 15 5 20 10 = (0.5, 0.5) ∧
    computeOverlapRatios 10 35 0 100 = (1, 0.25) ∧
    computeOverlapRatios 35 10 100 0 = (1, 0.25) ∧
    computeOverlapRatios 0 100 10 85 = (0.75, 1) ∧
    computeOverlapRatios 100 0 85 10 = (0.75, 1) := by
  decide +kernel

/-- Test `computeXOverlapRatios`, `/repo/test/utils/PdfElementsUtilsTest.cpp:137-171`. -/
example :
    let word1 : Box := ⟨1, 12, 75, 18, 80.5, 0, 0⟩
    let word2 : Box := ⟨1, 20, 75, 28, 80.5, 0, 0⟩
    let word3 : Box := ⟨1, 15, 75, 27, 80.5, 0, 0⟩
    let word4 : Box := ⟨1, 10, 75, 20, 80.5, 0, 0⟩
    computeXOverlapRatios word1 word2 = (0, 0) ∧
    computeXOverlapRatios word2 word1 = (0, 0) ∧
    computeXOverlapRatios word1 word3 = (0.5, 0.25) ∧
    computeXOverlapRatios word3 word1 = (0.25, 0.5) ∧
    computeXOverlapRatios word1 word4 = (1, 0.6) ∧
    computeXOverlapRatios word4 word1 = (0.6, 1) := by
  decide +kernel

/-- Test `computeYOverlapRatios`, `/repo/test/utils/PdfElementsUtilsTest.cpp:174-208`. -/
example :
    let word1 : Box := ⟨1, 7.5, 17, 12, 27, 0, 0⟩
    let word2 : Box := ⟨1, 7.5, 30, 12, 37, 0, 0⟩
    let word3 : Box := ⟨1, 7.5, 24, 12, 29, 0, 0⟩
    let word4 : Box := ⟨1, 7.5, 11, 12, 36, 0, 0⟩
    computeYOverlapRatios word1 word2 = (0, 0) ∧
    computeYOverlapRatios word2 word1 = (0, 0) ∧
    computeYOverlapRatios word1 word3 = (0.3, 0.6) ∧
    computeYOverlapRatios word3 word1 = (0.6, 0.3) ∧
    computeYOverlapRatios word1 word4 = (1, 0.4) ∧
    computeYOverlapRatios word4 word1 = (0.4, 1) := by
  decide +kernel

/-- Test `computeMaxXOverlapRatio`, `/repo/test/utils/PdfElementsUtilsTest.cpp:211-234`. -/
example :
    let word1 : Box := ⟨1, 12, 75, 18, 80.5, 0, 0⟩
    let word2 : Box := ⟨1, 20, 75, 28, 80.5, 0, 0⟩
    let word3 : Box := ⟨1, 15, 75, 27, 80.5, 0, 0⟩
    let word4 : Box := ⟨1, 10, 75, 20, 80.5, 0, 0⟩
    computeMaxXOverlapRatio word1 word2 = 0 ∧
    computeMaxXOverlapRatio word2 word1 = 0 ∧
    computeMaxXOverlapRatio word1 word3 = 0.5 ∧
    computeMaxXOverlapRatio word3 word1 = 0.5 ∧
    computeMaxXOverlapRatio word1 word4 = 1 ∧
    computeMaxXOverlapRatio word4 word1 = 1 ∧
    computeMaxXOverlapRatio word2 word3 = (7 / 8) ∧
    computeMaxXOverlapRatio word3 word2 = (7 / 8) ∧
    computeMaxXOverlapRatio word2 word4 = 0 ∧
    computeMaxXOverlapRatio word4 word2 = 0 ∧
    computeMaxXOverlapRatio word3 word4 = 0.5 ∧
    computeMaxXOverlapRatio word4 word3 = 0.5 := by
  decide +kernel

/-- Test `computeMaxYOverlapRatio`, `/repo/test/utils/PdfElementsUtilsTest.cpp:237-260`. -/
example :
    let word1 : Box := ⟨1, 7.5, 17, 12, 27, 0, 0⟩
    let word2 : Box := ⟨1, 7.5, 30, 12, 37, 0, 0⟩
    let word3 : Box := ⟨1, 7.5, 24, 12, 29, 0, 0⟩
    let word4 : Box := ⟨1, 7.5, 11, 12, 36, 0, 0⟩
    computeMaxYOverlapRatio word1 word2 = 0 ∧
    computeMaxYOverlapRatio word2 word1 = 0 ∧
    computeMaxYOverlapRatio word1 word3 = 0.6 ∧
    computeMaxYOverlapRatio word3 word1 = 0.6 ∧
    computeMaxYOverlapRatio word1 word4 = 1 ∧
    computeMaxYOverlapRatio word4 word1 = 1 ∧
    computeMaxYOverlapRatio word2 word3 = 0 ∧
    computeMaxYOverlapRatio word3 word2 = 0 ∧
    computeMaxYOverlapRatio word2 word4 = (6 / 7) ∧
    computeMaxYOverlapRatio word4 word2 = (6 / 7) ∧
    computeMaxYOverlapRatio word3 word4 = 1 ∧
    computeMaxYOverlapRatio word4 word3 = 1 := by
  decide +kernel

/-- Test `computeHasEqualLeftX`, `/repo/test/utils/PdfElementsUtilsTest.cpp:263-289`. -/
example :
    let word1 : Box := ⟨1, 7.5, 17, 12, 27, 0, 0⟩
    let word2 : Box := ⟨1, 7.5, 30, 12, 37, 0, 0⟩
    let word3 : Box := ⟨1, 7.6, 24, 12, 29, 0, 0⟩
    let word4 : Box := ⟨1, 8.2, 11, 12, 36, 0, 0⟩
    computeHasEqualLeftX word1 word1 tol = true ∧
    computeHasEqualLeftX word1 word2 tol = true ∧
    computeHasEqualLeftX word2 word1 tol = true ∧
    computeHasEqualLeftX word1 word3 tol = false ∧
    computeHasEqualLeftX word3 word1 tol = false ∧
    computeHasEqualLeftX word1 word3 0.2 = true ∧
    computeHasEqualLeftX word3 word1 0.2 = true ∧
    computeHasEqualLeftX word1 word4 tol = false ∧
    computeHasEqualLeftX word4 word1 tol = false ∧
    computeHasEqualLeftX word1 word4 0.2 = false ∧
    computeHasEqualLeftX word4 word1 0.2 = false ∧
    computeHasEqualLeftX word1 word4 1 = true ∧
    computeHasEqualLeftX word4 word1 1 = true := by
  decide +kernel

/-- Test `computeHasEqualUpperY`, `/repo/test/utils/PdfElementsUtilsTest.cpp:292-318`. -/
example :
    let word1 : Box := ⟨1, 2.1, 17, 12, 27, 0, 0⟩
    let word2 : Box := ⟨1, 2.5, 17, 12, 37, 0, 0⟩
    let word3 : Box := ⟨1, 7.6, 17.1, 12, 29, 0, 0⟩
    let word4 : Box := ⟨1, 9.2, 18, 12, 36, 0, 0⟩
    computeHasEqualUpperY word1 word1 tol = true ∧
    computeHasEqualUpperY word1 word2 tol = true ∧
    computeHasEqualUpperY word2 word1 tol = true ∧
    computeHasEqualUpperY word1 word3 tol = false ∧
    computeHasEqualUpperY word3 word1 tol = false ∧
    computeHasEqualUpperY word1 word3 0.2 = true ∧
    computeHasEqualUpperY word3 word1 0.2 = true ∧
    computeHasEqualUpperY word1 word4 tol = false ∧
    computeHasEqualUpperY word4 word1 tol = false ∧
    computeHasEqualUpperY word1 word4 0.2 = false ∧
    computeHasEqualUpperY word4 word1 0.2 = false ∧
    computeHasEqualUpperY word1 word4 1 = true ∧
    computeHasEqualUpperY word4 word1 1 = true := by
  decide +kernel

/-- Test `computeHasEqualRightX`, `/repo/test/utils/PdfElementsUtilsTest.cpp:321-347`. -/
example :
    let word1 : Box := ⟨1, 2.1, 10.1, 12, 27, 0, 0⟩
    let word2 : Box := ⟨1, 2.5, 12.2, 12, 37, 0, 0⟩
    let word3 : Box := ⟨1, 7.6, 17.1, 12.1, 29, 0, 0⟩
    let word4 : Box := ⟨1, 9.2, 18.6, 13, 36, 0, 0⟩
    computeHasEqualRightX word1 word1 tol = true ∧
    computeHasEqualRightX word1 word2 tol = true ∧
    computeHasEqualRightX word2 word1 tol = true ∧
    computeHasEqualRightX word1 word3 tol = false ∧
    computeHasEqualRightX word3 word1 tol = false ∧
    computeHasEqualRightX word1 word3 0.2 = true ∧
    computeHasEqualRightX word3 word1 0.2 = true ∧
    computeHasEqualRightX word1 word4 tol = false ∧
    computeHasEqualRightX word4 word1 tol = false ∧
    computeHasEqualRightX word1 word4 0.2 = false ∧
    computeHasEqualRightX word4 word1 0.2 = false ∧
    computeHasEqualRightX word1 word4 1 = true ∧
    computeHasEqualRightX word4 word1 1 = true := by
  decide +kernel

/-- Test `computeHasEqualLowerY`, `/repo/test/utils/PdfElementsUtilsTest.cpp:350-376`. -/
example :
    let word1 : Box := ⟨1, 2.1, 10.1, 7.8, 27, 0, 0⟩
    let word2 : Box := ⟨1, 2.5, 12.2, 8.1, 27, 0, 0⟩
    let word3 : Box := ⟨1, 7.6, 17.1, 9.9, 27.2, 0, 0⟩
    let word4 : Box := ⟨1, 9.2, 18.6, 9.9, 30, 0, 0⟩
    computeHasEqualLowerY word1 word1 tol = true ∧
    computeHasEqualLowerY word1 word2 tol = true ∧
    computeHasEqualLowerY word2 word1 tol = true ∧
    computeHasEqualLowerY word1 word3 tol = false ∧
    computeHasEqualLowerY word3 word1 tol = false ∧
    computeHasEqualLowerY word1 word3 0.5 = true ∧
    computeHasEqualLowerY word3 word1 0.5 = true ∧
    computeHasEqualLowerY word1 word4 tol = false ∧
    computeHasEqualLowerY word4 word1 tol = false ∧
    computeHasEqualLowerY word1 word4 0.5 = false ∧
    computeHasEqualLowerY word4 word1 0.5 = false ∧
    computeHasEqualLowerY word1 word4 5 = true ∧
    computeHasEqualLowerY word4 word1 5 = true := by
  decide +kernel

/-- Test `computeLeftXOffset`, `/repo/test/utils/PdfElementsUtilsTest.cpp:379-397`. -/
example :
    let word1 : Box := ⟨1, 2.1, 10.1, 7.8, 27, 0, 0⟩
    let word2 : Box := ⟨1, 2.1, 12.2, 8.1, 27, 0, 0⟩
    let word3 : Box := ⟨1, 7.6, 17.1, 9.9, 27.2, 0, 0⟩
    let word4 : Box := ⟨1, 9.2, 18.6, 9.9, 30, 0, 0⟩
    computeLeftXOffset word1 word1 = 0 ∧
    computeLeftXOffset word1 word2 = 0 ∧
    computeLeftXOffset word2 word1 = 0 ∧
    computeLeftXOffset word1 word3 = (-5.5) ∧
    computeLeftXOffset word3 word1 = 5.5 ∧
    computeLeftXOffset word1 word4 = (-7.1) ∧
    computeLeftXOffset word4 word1 = 7.1 := by
  decide +kernel

/-- Test `computeRightXOffset`, `/repo/test/utils/PdfElementsUtilsTest.cpp:400-418`. -/
example :
    let word1 : Box := ⟨1, 2.1, 10.1, 7.8, 27, 0, 0⟩
    let word2 : Box := ⟨1, 2.1, 12.2, 8.1, 27, 0, 0⟩
    let word3 : Box := ⟨1, 7.6, 17.1, 9.9, 27.2, 0, 0⟩
    let word4 : Box := ⟨1, 1.2, 18.6, 5.5, 30, 0, 0⟩
    computeRightXOffset word1 word1 = 0 ∧
    computeRightXOffset word1 word2 = (-0.3) ∧
    computeRightXOffset word2 word1 = 0.3 ∧
    computeRightXOffset word1 word3 = (-2.1) ∧
    computeRightXOffset word3 word1 = 2.1 ∧
    computeRightXOffset word1 word4 = 2.3 ∧
    computeRightXOffset word4 word1 = (-2.3) := by
  decide +kernel

end Verif.Conformance.PdfElementsUtils
