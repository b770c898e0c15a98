import Verif.Model.Math
import Verif.Model.Box
import Verif.Model.Text
import Verif.Model.Counter
import Verif.Model.PriorityQueue
import Verif.Model.Log
import Verif.Model.PageSegmentation
import Verif.Model.ItemLabel
import Mathlib.Data.List.Sort

/-!
# The repository's own unit tests, run against the model

Not theorems about all inputs: every assertion of `/repo/test/utils` that does not need a PDF file,
transcribed one by one and evaluated in the kernel on the model's definitions.  They do not establish
any property; they check that the model answers as the authors of the program say the code does.
(Assertions on null pointers, which the model's types exclude, are left out.  `ASSERT_NEAR(x, y, TOL)`
becomes `equal x y tol`.)
-/

namespace Verif.UnitTests

open Verif.Math

/-- A word or character at a place, the constructors `/repo/src/Types.cpp:193-202, 245-254` with the arguments in the
order of the test (page, left, upper, right, lower, rotation, writing mode). -/
def el (page : ℤ) (l u r b : ℚ) (rot wm : ℤ) : Box :=
  { pageNum := page, leftX := l, upperY := u, rightX := r, lowerY := b, rotation := rot, wMode := wm }

/-- All orders of a list (the iteration order of the hash table behind the counters is not fixed). -/
def perms {α : Type} : List α → List (List α)
  | [] => [[]]
  | a :: as => (perms as).flatMap fun l => (List.range (l.length + 1)).map fun i => l.insertIdx i a

/-- Whether a call ended with an exception. -/
def throws {α : Type} : Outcome α → Bool
  | .throw _ => true
  | _ => false

/-- The list is the only sorted order of its elements: each is strictly before every later one. -/
def sortsTo (lt : Box → Box → Bool) : List Box → Bool
  | [] => true
  | a :: as => as.all (fun b => lt a b && !lt b a) && sortsTo lt as

/-- The smallest element and the others, what a heap with the "descending" comparator of the tests
gives. -/
def minTop (q : List ℕ) : Option (ℕ × List ℕ) :=
  q.min?.map fun m => (m, q.erase m)

/-- The last text in byte order and the others. -/
def maxTopStr : List Text.Str → Option (Text.Str × List Text.Str)
  | [] => none
  | a :: as =>
      let m := as.foldl (fun x y => if x.map Char.toNat ≤ y.map Char.toNat then y else x) a
      some (m, (a :: as).erase m)

/-- A call on a queue. -/
inductive QueueOp (α : Type) where
  | push (v : α)
  | pop

/-- The content of a queue after a sequence of calls. -/
def play {α : Type} (popTop : PQ.PopTop α) (capacity : ℕ) (ops : List (QueueOp α)) :
    Option (List α) :=
  ops.foldl (fun st op => st.bind fun q =>
    match op with
    | .push v => match PQ.push popTop capacity q v with | .ok q' => some q' | _ => none
    | .pop => (popTop q).map (·.2)) (some [])

/-! `/repo/test/utils/MathUtilsTest.cpp:30`, `equal`. -/

example : Math.equal 0.0 0.0 tol = true := by decide +kernel
example : Math.equal 2.3 2.3 tol = true := by decide +kernel
example : Math.equal 1.1 1.5 0.4 = true := by decide +kernel
example : Math.equal 5.3 5.7 2.2 = true := by decide +kernel
example : Math.equal 0.0 0.1 tol = false := by decide +kernel
example : Math.equal 2.3 5.3 tol = false := by decide +kernel
example : Math.equal 1.1 1.5 0.39 = false := by decide +kernel
example : Math.equal 5.3 7.7 1.2 = false := by decide +kernel

/-! `/repo/test/utils/MathUtilsTest.cpp:43`, `larger`. -/

example : Math.larger 0.1 0.0 tol = true := by decide +kernel
example : Math.larger 3.3 2.3 tol = true := by decide +kernel
example : Math.larger 1.8 1.5 0.2 = true := by decide +kernel
example : Math.larger 5.3 1.7 2.2 = true := by decide +kernel
example : Math.larger 0.0 0.0 tol = false := by decide +kernel
example : Math.larger 0.3 2.8 tol = false := by decide +kernel
example : Math.larger 1.8 1.5 0.3 = false := by decide +kernel
example : Math.larger 5.3 1.7 5.0 = false := by decide +kernel

/-! `/repo/test/utils/MathUtilsTest.cpp:56`, `smaller`. -/

example : Math.smaller 0.0 0.01 tol = true := by decide +kernel
example : Math.smaller 3.3 4.2 tol = true := by decide +kernel
example : Math.smaller 1.3 1.8 0.2 = true := by decide +kernel
example : Math.smaller 5.4 10.7 2.2 = true := by decide +kernel
example : Math.smaller 0.01 0.0 tol = false := by decide +kernel
example : Math.smaller 4.2 3.3 tol = false := by decide +kernel
example : Math.smaller 1.3 1.8 0.5 = false := by decide +kernel
example : Math.smaller 9.1 10.7 2.2 = false := by decide +kernel

/-! `/repo/test/utils/MathUtilsTest.cpp:69`, `equalOrLarger`. -/

example : Math.equalOrLarger 1.0 1.0 tol = true := by decide +kernel
example : Math.equalOrLarger 3.3 0.2 tol = true := by decide +kernel
example : Math.equalOrLarger 1.3 1.3 0.2 = true := by decide +kernel
example : Math.equalOrLarger 11.9 9.0 2.2 = true := by decide +kernel
example : Math.equalOrLarger 0.9 1.0 tol = false := by decide +kernel
example : Math.equalOrLarger 0.0 0.2 tol = false := by decide +kernel
example : Math.equalOrLarger 0.9 1.2 0.2 = false := by decide +kernel
example : Math.equalOrLarger 2.1 11.0 2.2 = false := by decide +kernel

/-! `/repo/test/utils/MathUtilsTest.cpp:82`, `equalOrSmaller`. -/

example : Math.equalOrSmaller 1.0 1.0 tol = true := by decide +kernel
example : Math.equalOrSmaller 0.3 2.2 tol = true := by decide +kernel
example : Math.equalOrSmaller 1.3 1.3 0.2 = true := by decide +kernel
example : Math.equalOrSmaller 1.2 1.3 0.2 = true := by decide +kernel
example : Math.equalOrSmaller 1.1 1.0 tol = false := by decide +kernel
example : Math.equalOrSmaller 5.1 0.2 tol = false := by decide +kernel
example : Math.equalOrSmaller 1.41 1.2 0.2 = false := by decide +kernel
example : Math.equalOrSmaller 11.0 2.1 2.2 = false := by decide +kernel

/-! `/repo/test/utils/MathUtilsTest.cpp:95`, `between`. -/

example : Math.between 0.0 0.0 1.0 tol = true := by decide +kernel
example : Math.between 0.5 0.0 1.0 tol = true := by decide +kernel
example : Math.between 1.7 1.5 1.6 0.1 = true := by decide +kernel
example : Math.between 1.4 1.5 1.6 0.1 = true := by decide +kernel
example : Math.between 1.1 0.0 1.0 tol = false := by decide +kernel
example : Math.between 0.2 0.5 1.0 tol = false := by decide +kernel
example : Math.between 2.0 1.5 1.6 0.2 = false := by decide +kernel
example : Math.between 0.0 2.0 3.0 1.0 = false := by decide +kernel

/-! `/repo/test/utils/MathUtilsTest.cpp:108`, `round`. -/

example : Math.equal (Math.roundTo 1.46731 0) 1.0 tol = true := by decide +kernel
example : Math.equal (Math.roundTo 1.56731 0) 2.0 tol = true := by decide +kernel
example : Math.equal (Math.roundTo 1.56731 1) 1.6 tol = true := by decide +kernel
example : Math.equal (Math.roundTo 1.56731 2) 1.57 tol = true := by decide +kernel
example : Math.equal (Math.roundTo 1.56731 3) 1.567 tol = true := by decide +kernel
example : Math.equal (Math.roundTo 1.56731 4) 1.5673 tol = true := by decide +kernel
example : Math.equal (Math.roundTo 1.56731 5) 1.56731 tol = true := by decide +kernel

/-! `/repo/test/utils/MathUtilsTest.cpp:119`, `minimum`. -/

example : Math.equal (Math.minimum 0.0 0.0) 0.0 tol = true := by decide +kernel
example : Math.equal (Math.minimum (-6.3) (-5.6)) (-6.3) tol = true := by decide +kernel
example : Math.equal (Math.minimum (-5.6) (-6.3)) (-6.3) tol = true := by decide +kernel
example : Math.equal (Math.minimum (-7.2) 2.3) (-7.2) tol = true := by decide +kernel
example : Math.equal (Math.minimum 2.3 (-7.2)) (-7.2) tol = true := by decide +kernel
example : Math.equal (Math.minimum 2.3 5.6) 2.3 tol = true := by decide +kernel
example : Math.equal (Math.minimum 5.6 2.3) 2.3 tol = true := by decide +kernel
example : Math.equal (Math.minimum4 1 2 3 4) 1 tol = true := by decide +kernel
example : Math.equal (Math.minimum3 3 2 4) 2 tol = true := by decide +kernel
example : Math.equal (Math.minimum4 0.6 0.4 0.3 1.2) 0.3 tol = true := by decide +kernel

/-! `/repo/test/utils/MathUtilsTest.cpp:133`, `maximum`. -/

example : Math.equal (Math.maximum 0.0 0.0) 0.0 tol = true := by decide +kernel
example : Math.equal (Math.maximum (-6.3) (-5.6)) (-5.6) tol = true := by decide +kernel
example : Math.equal (Math.maximum (-5.6) (-6.3)) (-5.6) tol = true := by decide +kernel
example : Math.equal (Math.maximum (-7.2) 2.3) 2.3 tol = true := by decide +kernel
example : Math.equal (Math.maximum 2.3 (-7.2)) 2.3 tol = true := by decide +kernel
example : Math.equal (Math.maximum 2.3 5.6) 5.6 tol = true := by decide +kernel
example : Math.equal (Math.maximum 5.6 2.3) 5.6 tol = true := by decide +kernel
example : Math.equal (Math.maximum4 1 2 3 4) 4 tol = true := by decide +kernel
example : Math.equal (Math.maximum3 3 2 1) 3 tol = true := by decide +kernel
example : Math.equal (Math.maximum4 0.6 0.4 0.3 1.2) 1.2 tol = true := by decide +kernel

/-! `/repo/test/utils/PdfElementsUtilsTest.cpp:42`, `computeHorizontalGap`. -/

example : Math.equal (Elements.computeHorizontalGap (el 1 20.0 240.5 25.5 250.0 0 0) (el 1 27.0 240.5 32.2 250.0 0 0)) 1.5 tol = true := by decide +kernel
example : Math.equal (Elements.computeHorizontalGap (el 1 27.0 240.5 32.2 250.0 0 0) (el 1 20.0 240.5 25.5 250.0 0 0)) 1.5 tol = true := by decide +kernel
example : Math.equal (Elements.computeHorizontalGap (el 1 20.0 240.5 25.5 250.0 0 0) (el 1 35.4 240.5 40.1 250.0 0 0)) 9.9 tol = true := by decide +kernel
example : Math.equal (Elements.computeHorizontalGap (el 1 35.4 240.5 40.1 250.0 0 0) (el 1 20.0 240.5 25.5 250.0 0 0)) 9.9 tol = true := by decide +kernel
example : Math.equal (Elements.computeHorizontalGap (el 1 27.0 240.5 32.2 250.0 0 0) (el 1 35.4 240.5 40.1 250.0 0 0)) 3.2 tol = true := by decide +kernel
example : Math.equal (Elements.computeHorizontalGap (el 1 35.4 240.5 40.1 250.0 0 0) (el 1 27.0 240.5 32.2 250.0 0 0)) 3.2 tol = true := by decide +kernel

/-! `/repo/test/utils/PdfElementsUtilsTest.cpp:61`, `computeVerticalGap`. -/

example : Math.equal (Elements.computeVerticalGap (el 1 20.0 240.5 25.5 245.1 0 0) (el 1 27.0 247.5 32.2 250.5 0 0)) 2.4 tol = true := by decide +kernel
example : Math.equal (Elements.computeVerticalGap (el 1 27.0 247.5 32.2 250.5 0 0) (el 1 20.0 240.5 25.5 245.1 0 0)) 2.4 tol = true := by decide +kernel
example : Math.equal (Elements.computeVerticalGap (el 1 20.0 240.5 25.5 245.1 0 0) (el 1 35.4 253.5 40.1 257.8 0 0)) 8.4 tol = true := by decide +kernel
example : Math.equal (Elements.computeVerticalGap (el 1 35.4 253.5 40.1 257.8 0 0) (el 1 20.0 240.5 25.5 245.1 0 0)) 8.4 tol = true := by decide +kernel
example : Math.equal (Elements.computeVerticalGap (el 1 27.0 247.5 32.2 250.5 0 0) (el 1 35.4 253.5 40.1 257.8 0 0)) 3.0 tol = true := by decide +kernel
example : Math.equal (Elements.computeVerticalGap (el 1 35.4 253.5 40.1 257.8 0 0) (el 1 27.0 247.5 32.2 250.5 0 0)) 3.0 tol = true := by decide +kernel

/-! `/repo/test/utils/PdfElementsUtilsTest.cpp:80`, `computeOverlapRatios`. -/

example : Math.equal (Elements.computeOverlapRatios 0.0 0.0 0.0 0.0).1 0.0 tol = true := by decide +kernel
example : Math.equal (Elements.computeOverlapRatios 0.0 0.0 0.0 0.0).2 0.0 tol = true := by decide +kernel
example : Math.equal (Elements.computeOverlapRatios 5.0 10.0 5.0 10.0).1 1.0 tol = true := by decide +kernel
example : Math.equal (Elements.computeOverlapRatios 5.0 10.0 5.0 10.0).2 1.0 tol = true := by decide +kernel
example : Math.equal (Elements.computeOverlapRatios 10.0 5.0 10.0 5.0).1 1.0 tol = true := by decide +kernel
example : Math.equal (Elements.computeOverlapRatios 10.0 5.0 10.0 5.0).2 1.0 tol = true := by decide +kernel
example : Math.equal (Elements.computeOverlapRatios 12.0 34.0 37.0 40.0).1 0.0 tol = true := by decide +kernel
example : Math.equal (Elements.computeOverlapRatios 12.0 34.0 37.0 40.0).2 0.0 tol = true := by decide +kernel
example : Math.equal (Elements.computeOverlapRatios 34.0 12.0 40.0 37.0).1 0.0 tol = true := by decide +kernel
example : Math.equal (Elements.computeOverlapRatios 34.0 12.0 40.0 37.0).2 0.0 tol = true := by decide +kernel
example : Math.equal (Elements.computeOverlapRatios 1.0 7.0 4.0 16.0).1 0.5 tol = true := by decide +kernel
example : Math.equal (Elements.computeOverlapRatios 1.0 7.0 4.0 16.0).2 0.25 tol = true := by decide +kernel
example : Math.equal (Elements.computeOverlapRatios 7.0 1.0 16.0 4.0).1 0.5 tol = true := by decide +kernel
example : Math.equal (Elements.computeOverlapRatios 7.0 1.0 16.0 4.0).2 0.25 tol = true := by decide +kernel
example : Math.equal (Elements.computeOverlapRatios 4.0 16.0 1.0 7.0).1 0.25 tol = true := by decide +kernel
example : Math.equal (Elements.computeOverlapRatios 4.0 16.0 1.0 7.0).2 0.5 tol = true := by decide +kernel
example : Math.equal (Elements.computeOverlapRatios 5.0 15.0 10.0 20.0).1 0.5 tol = true := by decide +kernel
example : Math.equal (Elements.computeOverlapRatios 5.0 15.0 10.0 20.0).2 0.5 tol = true := by decide +kernel
example : Math.equal (Elements.computeOverlapRatios 15.0 5.0 20.0 10.0).1 0.5 tol = true := by decide +kernel
example : Math.equal (Elements.computeOverlapRatios 15.0 5.0 20.0 10.0).2 0.5 tol = true := by decide +kernel
example : Math.equal (Elements.computeOverlapRatios 10.0 35.0 0.0 100.0).1 1.0 tol = true := by decide +kernel
example : Math.equal (Elements.computeOverlapRatios 10.0 35.0 0.0 100.0).2 0.25 tol = true := by decide +kernel
example : Math.equal (Elements.computeOverlapRatios 35.0 10.0 100.0 0.0).1 1.0 tol = true := by decide +kernel
example : Math.equal (Elements.computeOverlapRatios 35.0 10.0 100.0 0.0).2 0.25 tol = true := by decide +kernel
example : Math.equal (Elements.computeOverlapRatios 0.0 100.0 10.0 85.0).1 0.75 tol = true := by decide +kernel
example : Math.equal (Elements.computeOverlapRatios 0.0 100.0 10.0 85.0).2 1.0 tol = true := by decide +kernel
example : Math.equal (Elements.computeOverlapRatios 100.0 0.0 85.0 10.0).1 0.75 tol = true := by decide +kernel
example : Math.equal (Elements.computeOverlapRatios 100.0 0.0 85.0 10.0).2 1.0 tol = true := by decide +kernel

/-! `/repo/test/utils/PdfElementsUtilsTest.cpp:137`, `computeXOverlapRatios`. -/

example : Math.equal (Elements.computeXOverlapRatios (el 1 12.0 75.0 18.0 80.5 0 0) (el 1 20.0 75.0 28.0 80.5 0 0)).1 0.0 tol = true := by decide +kernel
example : Math.equal (Elements.computeXOverlapRatios (el 1 12.0 75.0 18.0 80.5 0 0) (el 1 20.0 75.0 28.0 80.5 0 0)).2 0.0 tol = true := by decide +kernel
example : Math.equal (Elements.computeXOverlapRatios (el 1 20.0 75.0 28.0 80.5 0 0) (el 1 12.0 75.0 18.0 80.5 0 0)).1 0.0 tol = true := by decide +kernel
example : Math.equal (Elements.computeXOverlapRatios (el 1 20.0 75.0 28.0 80.5 0 0) (el 1 12.0 75.0 18.0 80.5 0 0)).2 0.0 tol = true := by decide +kernel
example : Math.equal (Elements.computeXOverlapRatios (el 1 12.0 75.0 18.0 80.5 0 0) (el 1 15.0 75.0 27.0 80.5 0 0)).1 0.5 tol = true := by decide +kernel
example : Math.equal (Elements.computeXOverlapRatios (el 1 12.0 75.0 18.0 80.5 0 0) (el 1 15.0 75.0 27.0 80.5 0 0)).2 0.25 tol = true := by decide +kernel
example : Math.equal (Elements.computeXOverlapRatios (el 1 15.0 75.0 27.0 80.5 0 0) (el 1 12.0 75.0 18.0 80.5 0 0)).1 0.25 tol = true := by decide +kernel
example : Math.equal (Elements.computeXOverlapRatios (el 1 15.0 75.0 27.0 80.5 0 0) (el 1 12.0 75.0 18.0 80.5 0 0)).2 0.5 tol = true := by decide +kernel
example : Math.equal (Elements.computeXOverlapRatios (el 1 12.0 75.0 18.0 80.5 0 0) (el 1 10.0 75.0 20.0 80.5 0 0)).1 1.0 tol = true := by decide +kernel
example : Math.equal (Elements.computeXOverlapRatios (el 1 12.0 75.0 18.0 80.5 0 0) (el 1 10.0 75.0 20.0 80.5 0 0)).2 0.6 tol = true := by decide +kernel
example : Math.equal (Elements.computeXOverlapRatios (el 1 10.0 75.0 20.0 80.5 0 0) (el 1 12.0 75.0 18.0 80.5 0 0)).1 0.6 tol = true := by decide +kernel
example : Math.equal (Elements.computeXOverlapRatios (el 1 10.0 75.0 20.0 80.5 0 0) (el 1 12.0 75.0 18.0 80.5 0 0)).2 1.0 tol = true := by decide +kernel

/-! `/repo/test/utils/PdfElementsUtilsTest.cpp:174`, `computeYOverlapRatios`. -/

example : Math.equal (Elements.computeYOverlapRatios (el 1 7.5 17.0 12.0 27.0 0 0) (el 1 7.5 30.0 12.0 37.0 0 0)).1 0.0 tol = true := by decide +kernel
example : Math.equal (Elements.computeYOverlapRatios (el 1 7.5 17.0 12.0 27.0 0 0) (el 1 7.5 30.0 12.0 37.0 0 0)).2 0.0 tol = true := by decide +kernel
example : Math.equal (Elements.computeYOverlapRatios (el 1 7.5 30.0 12.0 37.0 0 0) (el 1 7.5 17.0 12.0 27.0 0 0)).1 0.0 tol = true := by decide +kernel
example : Math.equal (Elements.computeYOverlapRatios (el 1 7.5 30.0 12.0 37.0 0 0) (el 1 7.5 17.0 12.0 27.0 0 0)).2 0.0 tol = true := by decide +kernel
example : Math.equal (Elements.computeYOverlapRatios (el 1 7.5 17.0 12.0 27.0 0 0) (el 1 7.5 24.0 12.0 29.0 0 0)).1 0.3 tol = true := by decide +kernel
example : Math.equal (Elements.computeYOverlapRatios (el 1 7.5 17.0 12.0 27.0 0 0) (el 1 7.5 24.0 12.0 29.0 0 0)).2 0.6 tol = true := by decide +kernel
example : Math.equal (Elements.computeYOverlapRatios (el 1 7.5 24.0 12.0 29.0 0 0) (el 1 7.5 17.0 12.0 27.0 0 0)).1 0.6 tol = true := by decide +kernel
example : Math.equal (Elements.computeYOverlapRatios (el 1 7.5 24.0 12.0 29.0 0 0) (el 1 7.5 17.0 12.0 27.0 0 0)).2 0.3 tol = true := by decide +kernel
example : Math.equal (Elements.computeYOverlapRatios (el 1 7.5 17.0 12.0 27.0 0 0) (el 1 7.5 11.0 12.0 36.0 0 0)).1 1.0 tol = true := by decide +kernel
example : Math.equal (Elements.computeYOverlapRatios (el 1 7.5 17.0 12.0 27.0 0 0) (el 1 7.5 11.0 12.0 36.0 0 0)).2 0.4 tol = true := by decide +kernel
example : Math.equal (Elements.computeYOverlapRatios (el 1 7.5 11.0 12.0 36.0 0 0) (el 1 7.5 17.0 12.0 27.0 0 0)).1 0.4 tol = true := by decide +kernel
example : Math.equal (Elements.computeYOverlapRatios (el 1 7.5 11.0 12.0 36.0 0 0) (el 1 7.5 17.0 12.0 27.0 0 0)).2 1.0 tol = true := by decide +kernel

/-! `/repo/test/utils/PdfElementsUtilsTest.cpp:211`, `computeMaxXOverlapRatio`. -/

example : Math.equal (Elements.computeMaxXOverlapRatio (el 1 12.0 75.0 18.0 80.5 0 0) (el 1 20.0 75.0 28.0 80.5 0 0)) 0.0 tol = true := by decide +kernel
example : Math.equal (Elements.computeMaxXOverlapRatio (el 1 20.0 75.0 28.0 80.5 0 0) (el 1 12.0 75.0 18.0 80.5 0 0)) 0.0 tol = true := by decide +kernel
example : Math.equal (Elements.computeMaxXOverlapRatio (el 1 12.0 75.0 18.0 80.5 0 0) (el 1 15.0 75.0 27.0 80.5 0 0)) 0.5 tol = true := by decide +kernel
example : Math.equal (Elements.computeMaxXOverlapRatio (el 1 15.0 75.0 27.0 80.5 0 0) (el 1 12.0 75.0 18.0 80.5 0 0)) 0.5 tol = true := by decide +kernel
example : Math.equal (Elements.computeMaxXOverlapRatio (el 1 12.0 75.0 18.0 80.5 0 0) (el 1 10.0 75.0 20.0 80.5 0 0)) 1.0 tol = true := by decide +kernel
example : Math.equal (Elements.computeMaxXOverlapRatio (el 1 10.0 75.0 20.0 80.5 0 0) (el 1 12.0 75.0 18.0 80.5 0 0)) 1.0 tol = true := by decide +kernel
example : Math.equal (Elements.computeMaxXOverlapRatio (el 1 20.0 75.0 28.0 80.5 0 0) (el 1 15.0 75.0 27.0 80.5 0 0)) (7/8) tol = true := by decide +kernel
example : Math.equal (Elements.computeMaxXOverlapRatio (el 1 15.0 75.0 27.0 80.5 0 0) (el 1 20.0 75.0 28.0 80.5 0 0)) (7/8) tol = true := by decide +kernel
example : Math.equal (Elements.computeMaxXOverlapRatio (el 1 20.0 75.0 28.0 80.5 0 0) (el 1 10.0 75.0 20.0 80.5 0 0)) 0.0 tol = true := by decide +kernel
example : Math.equal (Elements.computeMaxXOverlapRatio (el 1 10.0 75.0 20.0 80.5 0 0) (el 1 20.0 75.0 28.0 80.5 0 0)) 0.0 tol = true := by decide +kernel
example : Math.equal (Elements.computeMaxXOverlapRatio (el 1 15.0 75.0 27.0 80.5 0 0) (el 1 10.0 75.0 20.0 80.5 0 0)) 0.5 tol = true := by decide +kernel
example : Math.equal (Elements.computeMaxXOverlapRatio (el 1 10.0 75.0 20.0 80.5 0 0) (el 1 15.0 75.0 27.0 80.5 0 0)) 0.5 tol = true := by decide +kernel

/-! `/repo/test/utils/PdfElementsUtilsTest.cpp:237`, `computeMaxYOverlapRatio`. -/

example : Math.equal (Elements.computeMaxYOverlapRatio (el 1 7.5 17.0 12.0 27.0 0 0) (el 1 7.5 30.0 12.0 37.0 0 0)) 0.0 tol = true := by decide +kernel
example : Math.equal (Elements.computeMaxYOverlapRatio (el 1 7.5 30.0 12.0 37.0 0 0) (el 1 7.5 17.0 12.0 27.0 0 0)) 0.0 tol = true := by decide +kernel
example : Math.equal (Elements.computeMaxYOverlapRatio (el 1 7.5 17.0 12.0 27.0 0 0) (el 1 7.5 24.0 12.0 29.0 0 0)) 0.6 tol = true := by decide +kernel
example : Math.equal (Elements.computeMaxYOverlapRatio (el 1 7.5 24.0 12.0 29.0 0 0) (el 1 7.5 17.0 12.0 27.0 0 0)) 0.6 tol = true := by decide +kernel
example : Math.equal (Elements.computeMaxYOverlapRatio (el 1 7.5 17.0 12.0 27.0 0 0) (el 1 7.5 11.0 12.0 36.0 0 0)) 1.0 tol = true := by decide +kernel
example : Math.equal (Elements.computeMaxYOverlapRatio (el 1 7.5 11.0 12.0 36.0 0 0) (el 1 7.5 17.0 12.0 27.0 0 0)) 1.0 tol = true := by decide +kernel
example : Math.equal (Elements.computeMaxYOverlapRatio (el 1 7.5 30.0 12.0 37.0 0 0) (el 1 7.5 24.0 12.0 29.0 0 0)) 0.0 tol = true := by decide +kernel
example : Math.equal (Elements.computeMaxYOverlapRatio (el 1 7.5 24.0 12.0 29.0 0 0) (el 1 7.5 30.0 12.0 37.0 0 0)) 0.0 tol = true := by decide +kernel
example : Math.equal (Elements.computeMaxYOverlapRatio (el 1 7.5 30.0 12.0 37.0 0 0) (el 1 7.5 11.0 12.0 36.0 0 0)) (6/7) tol = true := by decide +kernel
example : Math.equal (Elements.computeMaxYOverlapRatio (el 1 7.5 11.0 12.0 36.0 0 0) (el 1 7.5 30.0 12.0 37.0 0 0)) (6/7) tol = true := by decide +kernel
example : Math.equal (Elements.computeMaxYOverlapRatio (el 1 7.5 24.0 12.0 29.0 0 0) (el 1 7.5 11.0 12.0 36.0 0 0)) 1.0 tol = true := by decide +kernel
example : Math.equal (Elements.computeMaxYOverlapRatio (el 1 7.5 11.0 12.0 36.0 0 0) (el 1 7.5 24.0 12.0 29.0 0 0)) 1.0 tol = true := by decide +kernel

/-! `/repo/test/utils/PdfElementsUtilsTest.cpp:263`, `computeHasEqualLeftX`. -/

example : Elements.computeHasEqualLeftX (el 1 7.5 17.0 12.0 27.0 0 0) (el 1 7.5 17.0 12.0 27.0 0 0) tol = true := by decide +kernel
example : Elements.computeHasEqualLeftX (el 1 7.5 17.0 12.0 27.0 0 0) (el 1 7.5 30.0 12.0 37.0 0 0) tol = true := by decide +kernel
example : Elements.computeHasEqualLeftX (el 1 7.5 30.0 12.0 37.0 0 0) (el 1 7.5 17.0 12.0 27.0 0 0) tol = true := by decide +kernel
example : Elements.computeHasEqualLeftX (el 1 7.5 17.0 12.0 27.0 0 0) (el 1 7.6 24.0 12.0 29.0 0 0) tol = false := by decide +kernel
example : Elements.computeHasEqualLeftX (el 1 7.6 24.0 12.0 29.0 0 0) (el 1 7.5 17.0 12.0 27.0 0 0) tol = false := by decide +kernel
example : Elements.computeHasEqualLeftX (el 1 7.5 17.0 12.0 27.0 0 0) (el 1 7.6 24.0 12.0 29.0 0 0) 0.2 = true := by decide +kernel
example : Elements.computeHasEqualLeftX (el 1 7.6 24.0 12.0 29.0 0 0) (el 1 7.5 17.0 12.0 27.0 0 0) 0.2 = true := by decide +kernel
example : Elements.computeHasEqualLeftX (el 1 7.5 17.0 12.0 27.0 0 0) (el 1 8.2 11.0 12.0 36.0 0 0) tol = false := by decide +kernel
example : Elements.computeHasEqualLeftX (el 1 8.2 11.0 12.0 36.0 0 0) (el 1 7.5 17.0 12.0 27.0 0 0) tol = false := by decide +kernel
example : Elements.computeHasEqualLeftX (el 1 7.5 17.0 12.0 27.0 0 0) (el 1 8.2 11.0 12.0 36.0 0 0) 0.2 = false := by decide +kernel
example : Elements.computeHasEqualLeftX (el 1 8.2 11.0 12.0 36.0 0 0) (el 1 7.5 17.0 12.0 27.0 0 0) 0.2 = false := by decide +kernel
example : Elements.computeHasEqualLeftX (el 1 7.5 17.0 12.0 27.0 0 0) (el 1 8.2 11.0 12.0 36.0 0 0) 1.0 = true := by decide +kernel
example : Elements.computeHasEqualLeftX (el 1 8.2 11.0 12.0 36.0 0 0) (el 1 7.5 17.0 12.0 27.0 0 0) 1.0 = true := by decide +kernel

/-! `/repo/test/utils/PdfElementsUtilsTest.cpp:292`, `computeHasEqualUpperY`. -/

example : Elements.computeHasEqualUpperY (el 1 2.1 17.0 12.0 27.0 0 0) (el 1 2.1 17.0 12.0 27.0 0 0) tol = true := by decide +kernel
example : Elements.computeHasEqualUpperY (el 1 2.1 17.0 12.0 27.0 0 0) (el 1 2.5 17.0 12.0 37.0 0 0) tol = true := by decide +kernel
example : Elements.computeHasEqualUpperY (el 1 2.5 17.0 12.0 37.0 0 0) (el 1 2.1 17.0 12.0 27.0 0 0) tol = true := by decide +kernel
example : Elements.computeHasEqualUpperY (el 1 2.1 17.0 12.0 27.0 0 0) (el 1 7.6 17.1 12.0 29.0 0 0) tol = false := by decide +kernel
example : Elements.computeHasEqualUpperY (el 1 7.6 17.1 12.0 29.0 0 0) (el 1 2.1 17.0 12.0 27.0 0 0) tol = false := by decide +kernel
example : Elements.computeHasEqualUpperY (el 1 2.1 17.0 12.0 27.0 0 0) (el 1 7.6 17.1 12.0 29.0 0 0) 0.2 = true := by decide +kernel
example : Elements.computeHasEqualUpperY (el 1 7.6 17.1 12.0 29.0 0 0) (el 1 2.1 17.0 12.0 27.0 0 0) 0.2 = true := by decide +kernel
example : Elements.computeHasEqualUpperY (el 1 2.1 17.0 12.0 27.0 0 0) (el 1 9.2 18.0 12.0 36.0 0 0) tol = false := by decide +kernel
example : Elements.computeHasEqualUpperY (el 1 9.2 18.0 12.0 36.0 0 0) (el 1 2.1 17.0 12.0 27.0 0 0) tol = false := by decide +kernel
example : Elements.computeHasEqualUpperY (el 1 2.1 17.0 12.0 27.0 0 0) (el 1 9.2 18.0 12.0 36.0 0 0) 0.2 = false := by decide +kernel
example : Elements.computeHasEqualUpperY (el 1 9.2 18.0 12.0 36.0 0 0) (el 1 2.1 17.0 12.0 27.0 0 0) 0.2 = false := by decide +kernel
example : Elements.computeHasEqualUpperY (el 1 2.1 17.0 12.0 27.0 0 0) (el 1 9.2 18.0 12.0 36.0 0 0) 1.0 = true := by decide +kernel
example : Elements.computeHasEqualUpperY (el 1 9.2 18.0 12.0 36.0 0 0) (el 1 2.1 17.0 12.0 27.0 0 0) 1.0 = true := by decide +kernel

/-! `/repo/test/utils/PdfElementsUtilsTest.cpp:321`, `computeHasEqualRightX`. -/

example : Elements.computeHasEqualRightX (el 1 2.1 10.1 12.0 27.0 0 0) (el 1 2.1 10.1 12.0 27.0 0 0) tol = true := by decide +kernel
example : Elements.computeHasEqualRightX (el 1 2.1 10.1 12.0 27.0 0 0) (el 1 2.5 12.2 12.0 37.0 0 0) tol = true := by decide +kernel
example : Elements.computeHasEqualRightX (el 1 2.5 12.2 12.0 37.0 0 0) (el 1 2.1 10.1 12.0 27.0 0 0) tol = true := by decide +kernel
example : Elements.computeHasEqualRightX (el 1 2.1 10.1 12.0 27.0 0 0) (el 1 7.6 17.1 12.1 29.0 0 0) tol = false := by decide +kernel
example : Elements.computeHasEqualRightX (el 1 7.6 17.1 12.1 29.0 0 0) (el 1 2.1 10.1 12.0 27.0 0 0) tol = false := by decide +kernel
example : Elements.computeHasEqualRightX (el 1 2.1 10.1 12.0 27.0 0 0) (el 1 7.6 17.1 12.1 29.0 0 0) 0.2 = true := by decide +kernel
example : Elements.computeHasEqualRightX (el 1 7.6 17.1 12.1 29.0 0 0) (el 1 2.1 10.1 12.0 27.0 0 0) 0.2 = true := by decide +kernel
example : Elements.computeHasEqualRightX (el 1 2.1 10.1 12.0 27.0 0 0) (el 1 9.2 18.6 13.0 36.0 0 0) tol = false := by decide +kernel
example : Elements.computeHasEqualRightX (el 1 9.2 18.6 13.0 36.0 0 0) (el 1 2.1 10.1 12.0 27.0 0 0) tol = false := by decide +kernel
example : Elements.computeHasEqualRightX (el 1 2.1 10.1 12.0 27.0 0 0) (el 1 9.2 18.6 13.0 36.0 0 0) 0.2 = false := by decide +kernel
example : Elements.computeHasEqualRightX (el 1 9.2 18.6 13.0 36.0 0 0) (el 1 2.1 10.1 12.0 27.0 0 0) 0.2 = false := by decide +kernel
example : Elements.computeHasEqualRightX (el 1 2.1 10.1 12.0 27.0 0 0) (el 1 9.2 18.6 13.0 36.0 0 0) 1.0 = true := by decide +kernel
example : Elements.computeHasEqualRightX (el 1 9.2 18.6 13.0 36.0 0 0) (el 1 2.1 10.1 12.0 27.0 0 0) 1.0 = true := by decide +kernel

/-! `/repo/test/utils/PdfElementsUtilsTest.cpp:350`, `computeHasEqualLowerY`. -/

example : Elements.computeHasEqualLowerY (el 1 2.1 10.1 7.8 27.0 0 0) (el 1 2.1 10.1 7.8 27.0 0 0) tol = true := by decide +kernel
example : Elements.computeHasEqualLowerY (el 1 2.1 10.1 7.8 27.0 0 0) (el 1 2.5 12.2 8.1 27.0 0 0) tol = true := by decide +kernel
example : Elements.computeHasEqualLowerY (el 1 2.5 12.2 8.1 27.0 0 0) (el 1 2.1 10.1 7.8 27.0 0 0) tol = true := by decide +kernel
example : Elements.computeHasEqualLowerY (el 1 2.1 10.1 7.8 27.0 0 0) (el 1 7.6 17.1 9.9 27.2 0 0) tol = false := by decide +kernel
example : Elements.computeHasEqualLowerY (el 1 7.6 17.1 9.9 27.2 0 0) (el 1 2.1 10.1 7.8 27.0 0 0) tol = false := by decide +kernel
example : Elements.computeHasEqualLowerY (el 1 2.1 10.1 7.8 27.0 0 0) (el 1 7.6 17.1 9.9 27.2 0 0) 0.5 = true := by decide +kernel
example : Elements.computeHasEqualLowerY (el 1 7.6 17.1 9.9 27.2 0 0) (el 1 2.1 10.1 7.8 27.0 0 0) 0.5 = true := by decide +kernel
example : Elements.computeHasEqualLowerY (el 1 2.1 10.1 7.8 27.0 0 0) (el 1 9.2 18.6 9.9 30.0 0 0) tol = false := by decide +kernel
example : Elements.computeHasEqualLowerY (el 1 9.2 18.6 9.9 30.0 0 0) (el 1 2.1 10.1 7.8 27.0 0 0) tol = false := by decide +kernel
example : Elements.computeHasEqualLowerY (el 1 2.1 10.1 7.8 27.0 0 0) (el 1 9.2 18.6 9.9 30.0 0 0) 0.5 = false := by decide +kernel
example : Elements.computeHasEqualLowerY (el 1 9.2 18.6 9.9 30.0 0 0) (el 1 2.1 10.1 7.8 27.0 0 0) 0.5 = false := by decide +kernel
example : Elements.computeHasEqualLowerY (el 1 2.1 10.1 7.8 27.0 0 0) (el 1 9.2 18.6 9.9 30.0 0 0) 5.0 = true := by decide +kernel
example : Elements.computeHasEqualLowerY (el 1 9.2 18.6 9.9 30.0 0 0) (el 1 2.1 10.1 7.8 27.0 0 0) 5.0 = true := by decide +kernel

/-! `/repo/test/utils/PdfElementsUtilsTest.cpp:379`, `computeLeftXOffset`. -/

example : Math.equal (Elements.computeLeftXOffset (el 1 2.1 10.1 7.8 27.0 0 0) (el 1 2.1 10.1 7.8 27.0 0 0)) 0.0 tol = true := by decide +kernel
example : Math.equal (Elements.computeLeftXOffset (el 1 2.1 10.1 7.8 27.0 0 0) (el 1 2.1 12.2 8.1 27.0 0 0)) 0.0 tol = true := by decide +kernel
example : Math.equal (Elements.computeLeftXOffset (el 1 2.1 12.2 8.1 27.0 0 0) (el 1 2.1 10.1 7.8 27.0 0 0)) 0.0 tol = true := by decide +kernel
example : Math.equal (Elements.computeLeftXOffset (el 1 2.1 10.1 7.8 27.0 0 0) (el 1 7.6 17.1 9.9 27.2 0 0)) (-5.5) tol = true := by decide +kernel
example : Math.equal (Elements.computeLeftXOffset (el 1 7.6 17.1 9.9 27.2 0 0) (el 1 2.1 10.1 7.8 27.0 0 0)) 5.5 tol = true := by decide +kernel
example : Math.equal (Elements.computeLeftXOffset (el 1 2.1 10.1 7.8 27.0 0 0) (el 1 9.2 18.6 9.9 30.0 0 0)) (-7.1) tol = true := by decide +kernel
example : Math.equal (Elements.computeLeftXOffset (el 1 9.2 18.6 9.9 30.0 0 0) (el 1 2.1 10.1 7.8 27.0 0 0)) 7.1 tol = true := by decide +kernel

/-! `/repo/test/utils/PdfElementsUtilsTest.cpp:400`, `computeRightXOffset`. -/

example : Math.equal (Elements.computeRightXOffset (el 1 2.1 10.1 7.8 27.0 0 0) (el 1 2.1 10.1 7.8 27.0 0 0)) 0.0 tol = true := by decide +kernel
example : Math.equal (Elements.computeRightXOffset (el 1 2.1 10.1 7.8 27.0 0 0) (el 1 2.1 12.2 8.1 27.0 0 0)) (-0.3) tol = true := by decide +kernel
example : Math.equal (Elements.computeRightXOffset (el 1 2.1 12.2 8.1 27.0 0 0) (el 1 2.1 10.1 7.8 27.0 0 0)) 0.3 tol = true := by decide +kernel
example : Math.equal (Elements.computeRightXOffset (el 1 2.1 10.1 7.8 27.0 0 0) (el 1 7.6 17.1 9.9 27.2 0 0)) (-2.1) tol = true := by decide +kernel
example : Math.equal (Elements.computeRightXOffset (el 1 7.6 17.1 9.9 27.2 0 0) (el 1 2.1 10.1 7.8 27.0 0 0)) 2.1 tol = true := by decide +kernel
example : Math.equal (Elements.computeRightXOffset (el 1 2.1 10.1 7.8 27.0 0 0) (el 1 1.2 18.6 5.5 30.0 0 0)) 2.3 tol = true := by decide +kernel
example : Math.equal (Elements.computeRightXOffset (el 1 1.2 18.6 5.5 30.0 0 0) (el 1 2.1 10.1 7.8 27.0 0 0)) (-2.3) tol = true := by decide +kernel

/-! `/repo/test/utils/TextUtilsTest.cpp:33`, `splitWStringIntoWords`. -/

example : Text.splitIntoWords (fun c => Text.wordDelimiters.contains c) [] = [] := by decide +kernel
example : Text.splitIntoWords (fun c => Text.wordDelimiters.contains c) ['f', 'o', 'o', ' ', 'b', 'a', 'r', ' ', 'b', 'a', 'z'] = [['f', 'o', 'o'], ['b', 'a', 'r'], ['b', 'a', 'z']] := by decide +kernel
example : Text.splitIntoWords (fun c => Text.wordDelimiters.contains c) ['J', 'a', 'n', 'u', 'a', 'r', ' ', 'F', 'e', 'b', 'r', 'u', 'a', 'r', '\t', 'M', 'ä', 'r', 'z', '\n', '\n', 'A', 'p', 'r', 'i', 'l'] = [['J', 'a', 'n', 'u', 'a', 'r'], ['F', 'e', 'b', 'r', 'u', 'a', 'r'], ['M', 'ä', 'r', 'z'], ['A', 'p', 'r', 'i', 'l']] := by decide +kernel

/-! `/repo/test/utils/TextUtilsTest.cpp:59`, `splitStringIntoWords`. -/

example : Text.splitIntoWords (fun c => Text.wordDelimiters.contains c) [] = [] := by decide +kernel
example : Text.splitIntoWords (fun c => Text.wordDelimiters.contains c) ['f', 'o', 'o', ' ', 'b', 'a', 'r', ' ', 'b', 'a', 'z'] = [['f', 'o', 'o'], ['b', 'a', 'r'], ['b', 'a', 'z']] := by decide +kernel
example : Text.splitIntoWords (fun c => Text.wordDelimiters.contains c) ['M', 'o', 'n', 'd', 'a', 'y', ' ', 'T', 'u', 'e', 's', 'd', 'a', 'y', '\t', 'W', 'e', 'd', 'n', 'e', 's', 'd', 'a', 'y', '\n', ' ', '\n', 'T', 'h', 'u', 'r', 's', 'd', 'a', 'y'] = [['M', 'o', 'n', 'd', 'a', 'y'], ['T', 'u', 'e', 's', 'd', 'a', 'y'], ['W', 'e', 'd', 'n', 'e', 's', 'd', 'a', 'y'], ['T', 'h', 'u', 'r', 's', 'd', 'a', 'y']] := by decide +kernel
example : Text.splitIntoWords (fun c => ['\t'].contains c) ['M', 'o', 'n', 'd', 'a', 'y', ' ', 'T', 'u', 'e', 's', 'd', 'a', 'y', '\t', '\t', 'W', 'e', 'd', 'n', 'e', 's', 'd', 'a', 'y', '\n', ' ', '\n', 'T', 'h', 'u', 'r', 's', 'd', 'a', 'y', '\t', 'F', 'r', 'i', 'd', 'a', 'y'] = [['M', 'o', 'n', 'd', 'a', 'y', ' ', 'T', 'u', 'e', 's', 'd', 'a', 'y'], ['W', 'e', 'd', 'n', 'e', 's', 'd', 'a', 'y', '\n', ' ', '\n', 'T', 'h', 'u', 'r', 's', 'd', 'a', 'y'], ['F', 'r', 'i', 'd', 'a', 'y']] := by decide +kernel
example : Text.splitIntoWords (fun c => [' ', '\t'].contains c) ['M', 'o', 'n', 'd', 'a', 'y', ' ', 'T', 'u', 'e', 's', 'd', 'a', 'y', '\t', '\t', 'W', 'e', 'd', 'n', 'e', 's', 'd', 'a', 'y', '\n', ' ', '\n', 'T', 'h', 'u', 'r', 's', 'd', 'a', 'y', '\t', 'F', 'r', 'i', 'd', 'a', 'y'] = [['M', 'o', 'n', 'd', 'a', 'y'], ['T', 'u', 'e', 's', 'd', 'a', 'y'], ['W', 'e', 'd', 'n', 'e', 's', 'd', 'a', 'y', '\n'], ['\n', 'T', 'h', 'u', 'r', 's', 'd', 'a', 'y'], ['F', 'r', 'i', 'd', 'a', 'y']] := by decide +kernel

/-! `/repo/test/utils/TextUtilsTest.cpp:98`, `endsWithSentenceDelimiter`. -/

example : Text.endsWithSentenceDelimiter [] = false := by decide +kernel
example : Text.endsWithSentenceDelimiter ['T', 'h', 'e', ' ', 'F', 'a', 'n', 't', 'a', 's', 't', 'i', 'c', ' ', 'F', 'o', 'u', 'r'] = false := by decide +kernel
example : Text.endsWithSentenceDelimiter ['T', 'h', 'e', ' ', 'F', 'a', 'n', 't', 'a', 's', 't', 'i', 'c', ' ', 'F', 'o', 'u', 'r', ':'] = false := by decide +kernel
example : Text.endsWithSentenceDelimiter ['"', 'T', 'h', 'e', ' ', 'F', 'a', 'n', 't', 'a', 's', 't', 'i', 'c', ' ', 'F', 'o', 'u', 'r', '"'] = false := by decide +kernel
example : Text.endsWithSentenceDelimiter ['T', 'h', 'e', ' ', 'F', 'a', 'n', 't', 'a', 's', 't', 'i', 'c', ' ', 'F', 'o', 'u', 'r', '.'] = true := by decide +kernel
example : Text.endsWithSentenceDelimiter ['T', 'h', 'e', ' ', 'F', 'a', 'n', 't', 'a', 's', 't', 'i', 'c', ' ', 'F', 'o', 'u', 'r', '?'] = true := by decide +kernel
example : Text.endsWithSentenceDelimiter ['T', 'h', 'e', ' ', 'F', 'a', 'n', 't', 'a', 's', 't', 'i', 'c', ' ', 'F', 'o', 'u', 'r', '!'] = true := by decide +kernel
example : Text.endsWithSentenceDelimiter ['T', 'h', 'e', ' ', 'F', 'a', 'n', 't', 'a', 's', 't', 'i', 'c', ' ', 'F', 'o', 'u', 'r', '.'] ['.', '!'] = true := by decide +kernel
example : Text.endsWithSentenceDelimiter ['T', 'h', 'e', ' ', 'F', 'a', 'n', 't', 'a', 's', 't', 'i', 'c', ' ', 'F', 'o', 'u', 'r', '!'] ['.', '!'] = true := by decide +kernel
example : Text.endsWithSentenceDelimiter ['T', 'h', 'e', ' ', 'F', 'a', 'n', 't', 'a', 's', 't', 'i', 'c', ' ', 'F', 'o', 'u', 'r', '?'] ['.', '!'] = false := by decide +kernel

/-! `/repo/test/utils/TextUtilsTest.cpp:112`, `startsWithUpper`. -/

example : Text.startsWithUpper [] = false := by decide +kernel
example : Text.startsWithUpper ['b', 'i', 'g'] = false := by decide +kernel
example : Text.startsWithUpper ['A', 'p', 'p', 'l', 'e'] = true := by decide +kernel
example : Text.startsWithUpper ['1', '2', '3'] = false := by decide +kernel

/-! `/repo/test/utils/TextUtilsTest.cpp:120`, `createRandomString`. -/

example (rand : ℕ → ℕ) : Text.createRandomString rand 0 [] Text.alphaNum = .ok [] := rfl
example (rand : ℕ → ℕ) : Text.createRandomString rand 0 ['f', 'o', 'o', '-'] Text.alphaNum = .ok ['f', 'o', 'o', '-'] := rfl

/-! `/repo/test/utils/TextUtilsTest.cpp:136`, `escapeJson`. -/

example : Text.escapeJson [] = [] := by decide +kernel
example : Text.escapeJson ['J', 'a', 'm', 'e', 's', ' ', 'B', 'o', 'n', 'd'] = ['J', 'a', 'm', 'e', 's', ' ', 'B', 'o', 'n', 'd'] := by decide +kernel
example : Text.escapeJson ['J', 'a', 'm', 'e', 's', '\t', 'B', 'o', 'n', 'd'] = ['J', 'a', 'm', 'e', 's', '\\', 't', 'B', 'o', 'n', 'd'] := by decide +kernel
example : Text.escapeJson ['J', 'a', 'm', 'e', 's', ' ', '"', 'B', 'o', 'n', 'd', '"'] = ['J', 'a', 'm', 'e', 's', ' ', '\\', '"', 'B', 'o', 'n', 'd', '\\', '"'] := by decide +kernel
example : Text.escapeJson ['J', 'a', 'm', 'e', 's', '\t', '"', 'B', 'o', 'n', 'd', '"'] = ['J', 'a', 'm', 'e', 's', '\\', 't', '\\', '"', 'B', 'o', 'n', 'd', '\\', '"'] := by decide +kernel

/-! `/repo/test/utils/TextUtilsTest.cpp:154`, `shorten`. -/

example : Text.shorten [] 0 = [] := by decide +kernel
example : Text.shorten [] 12 = [] := by decide +kernel
example : Text.shorten ['T', 'h', 'i', 's', ' ', 'i', 's', ' ', 'a', ' ', 'l', 'o', 'n', 'g', ' ', 't', 'e', 'x', 't'] 0 = ['.', '.', '.'] := by decide +kernel
example : Text.shorten ['T', 'h', 'i', 's', ' ', 'i', 's', ' ', 'a', ' ', 'l', 'o', 'n', 'g', ' ', 't', 'e', 'x', 't'] 4 = ['T', 'h', 'i', 's', '.', '.', '.'] := by decide +kernel
example : Text.shorten ['T', 'h', 'i', 's', ' ', 'i', 's', ' ', 'a', ' ', 'l', 'o', 'n', 'g', ' ', 't', 'e', 'x', 't'] 18 = ['T', 'h', 'i', 's', ' ', 'i', 's', ' ', 'a', ' ', 'l', 'o', 'n', 'g', ' ', 't', 'e', 'x', '.', '.', '.'] := by decide +kernel
example : Text.shorten ['T', 'h', 'i', 's', ' ', 'i', 's', ' ', 'a', ' ', 'l', 'o', 'n', 'g', ' ', 't', 'e', 'x', 't'] 19 = ['T', 'h', 'i', 's', ' ', 'i', 's', ' ', 'a', ' ', 'l', 'o', 'n', 'g', ' ', 't', 'e', 'x', 't'] := by decide +kernel
example : Text.shorten ['T', 'h', 'i', 's', ' ', 'i', 's', ' ', 'a', ' ', 'l', 'o', 'n', 'g', ' ', 't', 'e', 'x', 't'] 50 = ['T', 'h', 'i', 's', ' ', 'i', 's', ' ', 'a', ' ', 'l', 'o', 'n', 'g', ' ', 't', 'e', 'x', 't'] := by decide +kernel

/-! `/repo/test/utils/TextUtilsTest.cpp:178`, `strip`. -/

-- The test expects "" here; `strip` reads the byte before the begin of an empty text, which
-- the model reports as undefined behaviour.
example : ∃ w, Text.strip [] = .ub w := ⟨_, rfl⟩
example : Text.strip ['W', 'a', 's', 'h', 'i', 'n', 'g', 't', 'o', 'n'] = .ok ['W', 'a', 's', 'h', 'i', 'n', 'g', 't', 'o', 'n'] := by decide +kernel
example : Text.strip ['W', 'a', 's', 'h', 'i', 'n', 'g', 't', 'o', 'n', ' ', ' '] = .ok ['W', 'a', 's', 'h', 'i', 'n', 'g', 't', 'o', 'n'] := by decide +kernel
example : Text.strip [' ', ' ', 'W', 'a', 's', 'h', 'i', 'n', 'g', 't', 'o', 'n'] = .ok ['W', 'a', 's', 'h', 'i', 'n', 'g', 't', 'o', 'n'] := by decide +kernel
example : Text.strip ['\t', ' ', 'W', 'a', 's', 'h', 'i', 'n', 'g', 't', 'o', 'n', '\t', ' ', '\n', ' '] = .ok ['W', 'a', 's', 'h', 'i', 'n', 'g', 't', 'o', 'n'] := by decide +kernel
example : Text.strip ['\t', 'N', 'e', 'w', ' ', 'Y', 'o', 'r', 'k', ' ', ' '] = .ok ['N', 'e', 'w', ' ', 'Y', 'o', 'r', 'k'] := by decide +kernel

/-! `/repo/test/utils/TextUtilsTest.cpp:199`, `wrap`. -/

example : Text.wrap [] 100 0 = [] := by decide +kernel
example : Text.wrap [] 100 3 = [' ', ' ', ' '] := by decide +kernel
example : Text.wrap ['L', 'o', 'r', 'e', 'm', ' ', 'i', 'p', 's', 'u', 'm', ' ', 'd', 'o', 'l', 'o', 'r', ' ', 's', 'i', 't', ' ', 'a', 'm', 'e', 't', ',', ' ', 'c', 'o', 'n', 's', 'e', 't', 'e', 't', 'u', 'r', ' ', 's', 'a', 'd', 'i', 'p', 's', 'c', 'i', 'n', 'g', ' ', 'e', 'l', 'i', 't', 'r', ',', ' ', 's', 'e', 'd', ' ', 'd', 'i', 'a', 'm', '.'] 20 0 = ['L', 'o', 'r', 'e', 'm', ' ', 'i', 'p', 's', 'u', 'm', ' ', 'd', 'o', 'l', 'o', 'r', '\n', 's', 'i', 't', ' ', 'a', 'm', 'e', 't', ',', ' ', 'c', 'o', 'n', 's', 'e', 't', 'e', 't', 'u', 'r', '\n', 's', 'a', 'd', 'i', 'p', 's', 'c', 'i', 'n', 'g', ' ', 'e', 'l', 'i', 't', 'r', ',', '\n', 's', 'e', 'd', ' ', 'd', 'i', 'a', 'm', '.'] := by decide +kernel
example : Text.wrap ['L', 'o', 'r', 'e', 'm', ' ', 'i', 'p', 's', 'u', 'm', ' ', 'd', 'o', 'l', 'o', 'r', ' ', 's', 'i', 't', ' ', 'a', 'm', 'e', 't', ',', ' ', 'c', 'o', 'n', 's', 'e', 't', 'e', 't', 'u', 'r', ' ', 's', 'a', 'd', 'i', 'p', 's', 'c', 'i', 'n', 'g', ' ', 'e', 'l', 'i', 't', 'r', ',', ' ', 's', 'e', 'd', ' ', 'd', 'i', 'a', 'm', '.'] 35 3 = [' ', ' ', ' ', 'L', 'o', 'r', 'e', 'm', ' ', 'i', 'p', 's', 'u', 'm', ' ', 'd', 'o', 'l', 'o', 'r', ' ', 's', 'i', 't', ' ', 'a', 'm', 'e', 't', ',', '\n', ' ', ' ', ' ', 'c', 'o', 'n', 's', 'e', 't', 'e', 't', 'u', 'r', ' ', 's', 'a', 'd', 'i', 'p', 's', 'c', 'i', 'n', 'g', ' ', 'e', 'l', 'i', 't', 'r', ',', ' ', 's', 'e', 'd', '\n', ' ', ' ', ' ', 'd', 'i', 'a', 'm', '.'] := by decide +kernel

/-! `/repo/test/utils/TextUtilsTest.cpp:215`, `join`. -/

example : Text.join [] [',', ' '] = [] := by decide +kernel
example : Text.join [['o', 'n', 'e'], ['t', 'w', 'o'], ['t', 'h', 'r', 'e', 'e']] [] = ['o', 'n', 'e', 't', 'w', 'o', 't', 'h', 'r', 'e', 'e'] := by decide +kernel
example : Text.join [['o', 'n', 'e'], ['t', 'w', 'o'], ['t', 'h', 'r', 'e', 'e']] [','] = ['o', 'n', 'e', ',', 't', 'w', 'o', ',', 't', 'h', 'r', 'e', 'e'] := by decide +kernel
example : Text.join [['o', 'n', 'e'], ['t', 'w', 'o'], ['t', 'h', 'r', 'e', 'e']] ['+', '-'] = ['o', 'n', 'e', '+', '-', 't', 'w', 'o', '+', '-', 't', 'h', 'r', 'e', 'e'] := by decide +kernel
example : Text.join [['o', 'n', 'e'], ['t', 'w', 'o'], ['t', 'h', 'r', 'e', 'e']] [' '] = ['o', 'n', 'e', ' ', 't', 'w', 'o', ' ', 't', 'h', 'r', 'e', 'e'] := by decide +kernel

/-! `/repo/test/utils/CounterTest.cpp:30`, `DoubleCounter::mostFreq` (in every order in which the hash table may list the entries). -/

example : ∀ es ∈ perms ([] : Counter.Entries ℚ), throws (Counter.mostFreq 0 es) = true := by decide +kernel
example : ∀ es ∈ perms ([(0.4, 1), (1.7, 7), (2.3, 3)] : Counter.Entries ℚ), Counter.mostFreq 0 es = .ok 1.7 := by decide +kernel
example : ∀ es ∈ perms ([(0.4, 1), (1.7, 7), (2.3, 6)] : Counter.Entries ℚ), Counter.mostFreq 0 es = .ok 1.7 := by decide +kernel
example : ∀ es ∈ perms ([(0.4, 1), (1.7, 7), (2.3, 8)] : Counter.Entries ℚ), Counter.mostFreq 0 es = .ok 2.3 := by decide +kernel
example : ∀ es ∈ perms ([(0.4, 1), (1.7, 7), (2.3, 8), (6.1, 5)] : Counter.Entries ℚ), Counter.mostFreq 0 es = .ok 2.3 := by decide +kernel
example : ∀ es ∈ perms ([(0.4, 1), (1.7, 7), (2.3, 8), (6.1, 9)] : Counter.Entries ℚ), Counter.mostFreq 0 es = .ok 6.1 := by decide +kernel
example : ∀ es ∈ perms ([(0.4, 1), (1.7, 7), (2.3, 8), (6.1, 4)] : Counter.Entries ℚ), Counter.mostFreq 0 es = .ok 2.3 := by decide +kernel
example : ∀ es ∈ perms ([(0.4, 1), (1.7, 0), (2.3, 0), (6.1, 0)] : Counter.Entries ℚ), Counter.mostFreq 0 es = .ok 0.4 := by decide +kernel
example : ∀ es ∈ perms ([(0.4, 0), (1.7, 0), (2.3, 0), (6.1, 0)] : Counter.Entries ℚ), throws (Counter.mostFreq 0 es) = true := by decide +kernel

/-! `/repo/test/utils/CounterTest.cpp:66`, `DoubleCounter::mostFreqCount` (in every order in which the hash table may list the entries). -/

example : ∀ es ∈ perms ([] : Counter.Entries ℚ), throws (Counter.mostFreqCount 0 es) = true := by decide +kernel
example : ∀ es ∈ perms ([(0.7, 5), (2.5, 2), (3.1, 1)] : Counter.Entries ℚ), Counter.mostFreqCount 0 es = .ok 5 := by decide +kernel
example : ∀ es ∈ perms ([(0.7, 5), (2.5, 4), (3.1, 1)] : Counter.Entries ℚ), Counter.mostFreqCount 0 es = .ok 5 := by decide +kernel
example : ∀ es ∈ perms ([(0.7, 5), (2.5, 8), (3.1, 1)] : Counter.Entries ℚ), Counter.mostFreqCount 0 es = .ok 8 := by decide +kernel
example : ∀ es ∈ perms ([(0.7, 5), (2.5, 8), (3.1, 1), (6.3, 9)] : Counter.Entries ℚ), Counter.mostFreqCount 0 es = .ok 9 := by decide +kernel
example : ∀ es ∈ perms ([(0.7, 5), (2.5, 8), (3.1, 1), (6.3, 4)] : Counter.Entries ℚ), Counter.mostFreqCount 0 es = .ok 8 := by decide +kernel
example : ∀ es ∈ perms ([(0.7, 0), (2.5, 0), (3.1, 1), (6.3, 0)] : Counter.Entries ℚ), Counter.mostFreqCount 0 es = .ok 1 := by decide +kernel
example : ∀ es ∈ perms ([(0.7, 0), (2.5, 0), (3.1, 0), (6.3, 0)] : Counter.Entries ℚ), throws (Counter.mostFreqCount 0 es) = true := by decide +kernel

/-! `/repo/test/utils/CounterTest.cpp:99`, `DoubleCounter::mostFreqAndCount` (in every order in which the hash table may list the entries). -/

example : ∀ es ∈ perms ([] : Counter.Entries ℚ), throws (Counter.mostFreqAndCount 0 es) = true := by decide +kernel
example : ∀ es ∈ perms ([(4.5, 3), (2.1, 6), (4.7, 7)] : Counter.Entries ℚ), Counter.mostFreqAndCount 0 es = .ok (4.7, 7) := by decide +kernel
example : ∀ es ∈ perms ([(4.5, 9), (2.1, 6), (4.7, 7)] : Counter.Entries ℚ), Counter.mostFreqAndCount 0 es = .ok (4.5, 9) := by decide +kernel
example : ∀ es ∈ perms ([(4.5, 8), (2.1, 6), (4.7, 7)] : Counter.Entries ℚ), Counter.mostFreqAndCount 0 es = .ok (4.5, 8) := by decide +kernel
example : ∀ es ∈ perms ([(4.5, 3), (2.1, 6), (4.7, 7)] : Counter.Entries ℚ), Counter.mostFreqAndCount 0 es = .ok (4.7, 7) := by decide +kernel
example : ∀ es ∈ perms ([(4.5, 3), (2.1, 6), (4.7, 7), (2.2, 9)] : Counter.Entries ℚ), Counter.mostFreqAndCount 0 es = .ok (2.2, 9) := by decide +kernel
example : ∀ es ∈ perms ([(4.5, 3), (2.1, 0), (4.7, 0), (2.2, 0)] : Counter.Entries ℚ), Counter.mostFreqAndCount 0 es = .ok (4.5, 3) := by decide +kernel
example : ∀ es ∈ perms ([(4.5, 0), (2.1, 0), (4.7, 0), (2.2, 0)] : Counter.Entries ℚ), throws (Counter.mostFreqAndCount 0 es) = true := by decide +kernel

/-! `/repo/test/utils/CounterTest.cpp:144`, `DoubleCounter::max` (in every order in which the hash table may list the entries). -/

example : ∀ es ∈ perms ([] : Counter.Entries ℚ), throws (Counter.max es) = true := by decide +kernel
example : ∀ es ∈ perms ([(4.5, 3), (2.1, 6), (4.7, 2)] : Counter.Entries ℚ), Counter.max es = .ok 4.7 := by decide +kernel
example : ∀ es ∈ perms ([(4.5, 3), (2.1, 6), (4.7, 8)] : Counter.Entries ℚ), Counter.max es = .ok 4.7 := by decide +kernel
example : ∀ es ∈ perms ([(4.5, 3), (2.1, 6), (4.7, 1)] : Counter.Entries ℚ), Counter.max es = .ok 4.7 := by decide +kernel
example : ∀ es ∈ perms ([(4.5, 3), (2.1, 6), (4.7, 0)] : Counter.Entries ℚ), Counter.max es = .ok 4.5 := by decide +kernel
example : ∀ es ∈ perms ([(4.5, 3), (2.1, 6), (4.7, 0), (5.2, 1)] : Counter.Entries ℚ), Counter.max es = .ok 5.2 := by decide +kernel
example : ∀ es ∈ perms ([(4.5, 3), (2.1, 0), (4.7, 0), (5.2, 0)] : Counter.Entries ℚ), Counter.max es = .ok 4.5 := by decide +kernel
example : ∀ es ∈ perms ([(4.5, 0), (2.1, 0), (4.7, 0), (5.2, 0)] : Counter.Entries ℚ), throws (Counter.max es) = true := by decide +kernel

/-! `/repo/test/utils/CounterTest.cpp:176`, `DoubleCounter::sumCounts` (in every order in which the hash table may list the entries). -/

example : ∀ es ∈ perms ([] : Counter.Entries ℚ), Counter.sumCounts es = 0 := by decide +kernel
example : ∀ es ∈ perms ([(4.5, 3), (2.1, 6), (4.7, 2)] : Counter.Entries ℚ), Counter.sumCounts es = 11 := by decide +kernel
example : ∀ es ∈ perms ([(4.5, 3), (2.1, 6), (4.7, 8)] : Counter.Entries ℚ), Counter.sumCounts es = 17 := by decide +kernel
example : ∀ es ∈ perms ([(4.5, 3), (2.1, 6), (4.7, 1)] : Counter.Entries ℚ), Counter.sumCounts es = 10 := by decide +kernel
example : ∀ es ∈ perms ([(4.5, 3), (2.1, 6), (4.7, 0)] : Counter.Entries ℚ), Counter.sumCounts es = 9 := by decide +kernel
example : ∀ es ∈ perms ([(4.5, 3), (2.1, 6), (4.7, 0), (5.2, 1)] : Counter.Entries ℚ), Counter.sumCounts es = 10 := by decide +kernel
example : ∀ es ∈ perms ([(4.5, 3), (2.1, 0), (4.7, 0), (5.2, 0)] : Counter.Entries ℚ), Counter.sumCounts es = 3 := by decide +kernel
example : ∀ es ∈ perms ([(4.5, 0), (2.1, 0), (4.7, 0), (5.2, 0)] : Counter.Entries ℚ), Counter.sumCounts es = 0 := by decide +kernel

/-! `/repo/test/utils/CounterTest.cpp:210`, `StringCounter::mostFreq` (in every order in which the hash table may list the entries). -/

example : ∀ es ∈ perms ([] : Counter.Entries Text.Str), throws (Counter.mostFreq [] es) = true := by decide +kernel
example : ∀ es ∈ perms ([(['I', 'r', 'o', 'n', ' ', 'M', 'a', 'n'], 2), (['P', 'e', 'p', 'p', 'e', 'r', ' ', 'P', 'o', 't', 't', 's'], 7), (['C', 'a', 'p', 't', 'a', 'i', 'n', ' ', 'M', 'a', 'r', 'v', 'e', 'l'], 3)] : Counter.Entries Text.Str), Counter.mostFreq [] es = .ok ['P', 'e', 'p', 'p', 'e', 'r', ' ', 'P', 'o', 't', 't', 's'] := by decide +kernel
example : ∀ es ∈ perms ([(['I', 'r', 'o', 'n', ' ', 'M', 'a', 'n'], 2), (['P', 'e', 'p', 'p', 'e', 'r', ' ', 'P', 'o', 't', 't', 's'], 7), (['C', 'a', 'p', 't', 'a', 'i', 'n', ' ', 'M', 'a', 'r', 'v', 'e', 'l'], 6)] : Counter.Entries Text.Str), Counter.mostFreq [] es = .ok ['P', 'e', 'p', 'p', 'e', 'r', ' ', 'P', 'o', 't', 't', 's'] := by decide +kernel
example : ∀ es ∈ perms ([(['I', 'r', 'o', 'n', ' ', 'M', 'a', 'n'], 2), (['P', 'e', 'p', 'p', 'e', 'r', ' ', 'P', 'o', 't', 't', 's'], 7), (['C', 'a', 'p', 't', 'a', 'i', 'n', ' ', 'M', 'a', 'r', 'v', 'e', 'l'], 8)] : Counter.Entries Text.Str), Counter.mostFreq [] es = .ok ['C', 'a', 'p', 't', 'a', 'i', 'n', ' ', 'M', 'a', 'r', 'v', 'e', 'l'] := by decide +kernel
example : ∀ es ∈ perms ([(['I', 'r', 'o', 'n', ' ', 'M', 'a', 'n'], 5), (['P', 'e', 'p', 'p', 'e', 'r', ' ', 'P', 'o', 't', 't', 's'], 7), (['C', 'a', 'p', 't', 'a', 'i', 'n', ' ', 'M', 'a', 'r', 'v', 'e', 'l'], 8)] : Counter.Entries Text.Str), Counter.mostFreq [] es = .ok ['C', 'a', 'p', 't', 'a', 'i', 'n', ' ', 'M', 'a', 'r', 'v', 'e', 'l'] := by decide +kernel
example : ∀ es ∈ perms ([(['I', 'r', 'o', 'n', ' ', 'M', 'a', 'n'], 9), (['P', 'e', 'p', 'p', 'e', 'r', ' ', 'P', 'o', 't', 't', 's'], 7), (['C', 'a', 'p', 't', 'a', 'i', 'n', ' ', 'M', 'a', 'r', 'v', 'e', 'l'], 8)] : Counter.Entries Text.Str), Counter.mostFreq [] es = .ok ['I', 'r', 'o', 'n', ' ', 'M', 'a', 'n'] := by decide +kernel
example : ∀ es ∈ perms ([(['I', 'r', 'o', 'n', ' ', 'M', 'a', 'n'], 4), (['P', 'e', 'p', 'p', 'e', 'r', ' ', 'P', 'o', 't', 't', 's'], 7), (['C', 'a', 'p', 't', 'a', 'i', 'n', ' ', 'M', 'a', 'r', 'v', 'e', 'l'], 8)] : Counter.Entries Text.Str), Counter.mostFreq [] es = .ok ['C', 'a', 'p', 't', 'a', 'i', 'n', ' ', 'M', 'a', 'r', 'v', 'e', 'l'] := by decide +kernel
example : ∀ es ∈ perms ([(['I', 'r', 'o', 'n', ' ', 'M', 'a', 'n'], 4), (['P', 'e', 'p', 'p', 'e', 'r', ' ', 'P', 'o', 't', 't', 's'], 7), (['C', 'a', 'p', 't', 'a', 'i', 'n', ' ', 'M', 'a', 'r', 'v', 'e', 'l'], 8), (['B', 'l', 'a', 'c', 'k', ' ', 'W', 'i', 'd', 'o', 'w'], 9)] : Counter.Entries Text.Str), Counter.mostFreq [] es = .ok ['B', 'l', 'a', 'c', 'k', ' ', 'W', 'i', 'd', 'o', 'w'] := by decide +kernel
example : ∀ es ∈ perms ([(['I', 'r', 'o', 'n', ' ', 'M', 'a', 'n'], 4), (['P', 'e', 'p', 'p', 'e', 'r', ' ', 'P', 'o', 't', 't', 's'], 0), (['C', 'a', 'p', 't', 'a', 'i', 'n', ' ', 'M', 'a', 'r', 'v', 'e', 'l'], 0), (['B', 'l', 'a', 'c', 'k', ' ', 'W', 'i', 'd', 'o', 'w'], 0)] : Counter.Entries Text.Str), Counter.mostFreq [] es = .ok ['I', 'r', 'o', 'n', ' ', 'M', 'a', 'n'] := by decide +kernel
example : ∀ es ∈ perms ([(['I', 'r', 'o', 'n', ' ', 'M', 'a', 'n'], 0), (['P', 'e', 'p', 'p', 'e', 'r', ' ', 'P', 'o', 't', 't', 's'], 0), (['C', 'a', 'p', 't', 'a', 'i', 'n', ' ', 'M', 'a', 'r', 'v', 'e', 'l'], 0), (['B', 'l', 'a', 'c', 'k', ' ', 'W', 'i', 'd', 'o', 'w'], 0)] : Counter.Entries Text.Str), throws (Counter.mostFreq [] es) = true := by decide +kernel

/-! `/repo/test/utils/CounterTest.cpp:249`, `StringCounter::mostFreqCount` (in every order in which the hash table may list the entries). -/

example : ∀ es ∈ perms ([] : Counter.Entries Text.Str), throws (Counter.mostFreqCount [] es) = true := by decide +kernel
example : ∀ es ∈ perms ([(['B', 'u', 'c', 'h', 'e'], 3), (['E', 'i', 'c', 'h', 'e'], 5), (['L', 'i', 'n', 'd', 'e'], 2)] : Counter.Entries Text.Str), Counter.mostFreqCount [] es = .ok 5 := by decide +kernel
example : ∀ es ∈ perms ([(['B', 'u', 'c', 'h', 'e'], 3), (['E', 'i', 'c', 'h', 'e'], 5), (['L', 'i', 'n', 'd', 'e'], 4)] : Counter.Entries Text.Str), Counter.mostFreqCount [] es = .ok 5 := by decide +kernel
example : ∀ es ∈ perms ([(['B', 'u', 'c', 'h', 'e'], 3), (['E', 'i', 'c', 'h', 'e'], 5), (['L', 'i', 'n', 'd', 'e'], 6)] : Counter.Entries Text.Str), Counter.mostFreqCount [] es = .ok 6 := by decide +kernel
example : ∀ es ∈ perms ([(['B', 'u', 'c', 'h', 'e'], 8), (['E', 'i', 'c', 'h', 'e'], 5), (['L', 'i', 'n', 'd', 'e'], 6)] : Counter.Entries Text.Str), Counter.mostFreqCount [] es = .ok 8 := by decide +kernel
example : ∀ es ∈ perms ([(['B', 'u', 'c', 'h', 'e'], 3), (['E', 'i', 'c', 'h', 'e'], 5), (['L', 'i', 'n', 'd', 'e'], 6)] : Counter.Entries Text.Str), Counter.mostFreqCount [] es = .ok 6 := by decide +kernel
example : ∀ es ∈ perms ([(['B', 'u', 'c', 'h', 'e'], 3), (['E', 'i', 'c', 'h', 'e'], 5), (['L', 'i', 'n', 'd', 'e'], 6), (['A', 'h', 'o', 'r', 'n'], 12)] : Counter.Entries Text.Str), Counter.mostFreqCount [] es = .ok 12 := by decide +kernel
example : ∀ es ∈ perms ([(['B', 'u', 'c', 'h', 'e'], 0), (['E', 'i', 'c', 'h', 'e'], 0), (['L', 'i', 'n', 'd', 'e'], 0), (['A', 'h', 'o', 'r', 'n'], 0)] : Counter.Entries Text.Str), throws (Counter.mostFreqCount [] es) = true := by decide +kernel

/-! `/repo/test/utils/CounterTest.cpp:283`, `StringCounter::mostFreqAndCount` (in every order in which the hash table may list the entries). -/

example : ∀ es ∈ perms ([] : Counter.Entries Text.Str), throws (Counter.mostFreqAndCount [] es) = true := by decide +kernel
example : ∀ es ∈ perms ([(['U', 'S', 'A'], 3), (['G', 'e', 'r', 'm', 'a', 'n', 'y'], 6), (['S', 'w', 'e', 'd', 'e', 'n'], 1), (['F', 'r', 'a', 'n', 'c', 'e'], 8)] : Counter.Entries Text.Str), Counter.mostFreqAndCount [] es = .ok (['F', 'r', 'a', 'n', 'c', 'e'], 8) := by decide +kernel
example : ∀ es ∈ perms ([(['U', 'S', 'A'], 9), (['G', 'e', 'r', 'm', 'a', 'n', 'y'], 6), (['S', 'w', 'e', 'd', 'e', 'n'], 1), (['F', 'r', 'a', 'n', 'c', 'e'], 8)] : Counter.Entries Text.Str), Counter.mostFreqAndCount [] es = .ok (['U', 'S', 'A'], 9) := by decide +kernel
example : ∀ es ∈ perms ([(['U', 'S', 'A'], 9), (['G', 'e', 'r', 'm', 'a', 'n', 'y'], 11), (['S', 'w', 'e', 'd', 'e', 'n'], 1), (['F', 'r', 'a', 'n', 'c', 'e'], 8)] : Counter.Entries Text.Str), Counter.mostFreqAndCount [] es = .ok (['G', 'e', 'r', 'm', 'a', 'n', 'y'], 11) := by decide +kernel
example : ∀ es ∈ perms ([(['U', 'S', 'A'], 9), (['G', 'e', 'r', 'm', 'a', 'n', 'y'], 2), (['S', 'w', 'e', 'd', 'e', 'n'], 1), (['F', 'r', 'a', 'n', 'c', 'e'], 8)] : Counter.Entries Text.Str), Counter.mostFreqAndCount [] es = .ok (['U', 'S', 'A'], 9) := by decide +kernel
example : ∀ es ∈ perms ([(['U', 'S', 'A'], 0), (['G', 'e', 'r', 'm', 'a', 'n', 'y'], 2), (['S', 'w', 'e', 'd', 'e', 'n'], 1), (['F', 'r', 'a', 'n', 'c', 'e'], 8)] : Counter.Entries Text.Str), Counter.mostFreqAndCount [] es = .ok (['F', 'r', 'a', 'n', 'c', 'e'], 8) := by decide +kernel
example : ∀ es ∈ perms ([(['U', 'S', 'A'], 0), (['G', 'e', 'r', 'm', 'a', 'n', 'y'], 0), (['S', 'w', 'e', 'd', 'e', 'n'], 0), (['F', 'r', 'a', 'n', 'c', 'e'], 0)] : Counter.Entries Text.Str), throws (Counter.mostFreqAndCount [] es) = true := by decide +kernel

/-! `/repo/test/utils/CounterTest.cpp:324`, `StringCounter::sumCounts` (in every order in which the hash table may list the entries). -/

example : ∀ es ∈ perms ([] : Counter.Entries Text.Str), Counter.sumCounts es = 0 := by decide +kernel
example : ∀ es ∈ perms ([(['B', 'u', 'c', 'h', 'e'], 3), (['E', 'i', 'c', 'h', 'e'], 5), (['L', 'i', 'n', 'd', 'e'], 2)] : Counter.Entries Text.Str), Counter.sumCounts es = 10 := by decide +kernel
example : ∀ es ∈ perms ([(['B', 'u', 'c', 'h', 'e'], 3), (['E', 'i', 'c', 'h', 'e'], 5), (['L', 'i', 'n', 'd', 'e'], 4)] : Counter.Entries Text.Str), Counter.sumCounts es = 12 := by decide +kernel
example : ∀ es ∈ perms ([(['B', 'u', 'c', 'h', 'e'], 3), (['E', 'i', 'c', 'h', 'e'], 5), (['L', 'i', 'n', 'd', 'e'], 6)] : Counter.Entries Text.Str), Counter.sumCounts es = 14 := by decide +kernel
example : ∀ es ∈ perms ([(['B', 'u', 'c', 'h', 'e'], 8), (['E', 'i', 'c', 'h', 'e'], 5), (['L', 'i', 'n', 'd', 'e'], 6)] : Counter.Entries Text.Str), Counter.sumCounts es = 19 := by decide +kernel
example : ∀ es ∈ perms ([(['B', 'u', 'c', 'h', 'e'], 3), (['E', 'i', 'c', 'h', 'e'], 5), (['L', 'i', 'n', 'd', 'e'], 6)] : Counter.Entries Text.Str), Counter.sumCounts es = 14 := by decide +kernel
example : ∀ es ∈ perms ([(['B', 'u', 'c', 'h', 'e'], 3), (['E', 'i', 'c', 'h', 'e'], 5), (['L', 'i', 'n', 'd', 'e'], 6), (['A', 'h', 'o', 'r', 'n'], 12)] : Counter.Entries Text.Str), Counter.sumCounts es = 26 := by decide +kernel
example : ∀ es ∈ perms ([(['B', 'u', 'c', 'h', 'e'], 0), (['E', 'i', 'c', 'h', 'e'], 0), (['L', 'i', 'n', 'd', 'e'], 0), (['A', 'h', 'o', 'r', 'n'], 0)] : Counter.Entries Text.Str), Counter.sumCounts es = 0 := by decide +kernel

/-! `/repo/test/utils/ComparatorsTest.cpp:48`, `LeftXAscComparator`: any order that is sorted is the expected one. -/

example : sortsTo Comparators.leftXAsc [(el 1 1.7 7.5 8.1 7.7 0 0), (el 1 2.0 4.1 2.5 7.8 0 0), (el 1 3.0 2.0 4.7 3.1 0 0), (el 1 3.2 4.5 5.1 5.5 0 0), (el 1 5.0 1.2 7.2 9.2 0 0)] = true := by decide +kernel
example : sortsTo Comparators.leftXAsc [(el 1 1.0 5.5 7.2 5.9 1 0), (el 1 3.3 6.2 6.5 9.0 1 0), (el 1 4.8 2.0 9.9 2.7 1 0), (el 1 5.2 3.1 5.5 8.1 1 0)] = true := by decide +kernel

/-! `/repo/test/utils/ComparatorsTest.cpp:66`, `RightXDescComparator`: any order that is sorted is the expected one. -/

example : sortsTo Comparators.rightXDesc [(el 1 1.7 7.5 8.1 7.7 0 0), (el 1 5.0 1.2 7.2 9.2 0 0), (el 1 3.2 4.5 5.1 5.5 0 0), (el 1 3.0 2.0 4.7 3.1 0 0), (el 1 2.0 4.1 2.5 7.8 0 0)] = true := by decide +kernel
example : sortsTo Comparators.rightXDesc [(el 1 4.8 2.0 9.9 2.7 1 0), (el 1 1.0 5.5 7.2 5.9 1 0), (el 1 3.3 6.2 6.5 9.0 1 0), (el 1 5.2 3.1 5.5 8.1 1 0)] = true := by decide +kernel

/-! `/repo/test/utils/ComparatorsTest.cpp:84`, `UpperYAscComparator`: any order that is sorted is the expected one. -/

example : sortsTo Comparators.upperYAsc [(el 1 5.0 1.2 7.2 9.2 0 0), (el 1 3.0 2.0 4.7 3.1 0 0), (el 1 2.0 4.1 2.5 7.8 0 0), (el 1 3.2 4.5 5.1 5.5 0 0), (el 1 1.7 7.5 8.1 7.7 0 0)] = true := by decide +kernel
example : sortsTo Comparators.upperYAsc [(el 1 4.8 2.0 9.9 2.7 1 0), (el 1 5.2 3.1 5.5 8.1 1 0), (el 1 1.0 5.5 7.2 5.9 1 0), (el 1 3.3 6.2 6.5 9.0 1 0)] = true := by decide +kernel

/-! `/repo/test/utils/ComparatorsTest.cpp:102`, `RotLeftXAscComparator`: any order that is sorted is the expected one. -/

example : sortsTo Comparators.rotLeftXAsc [(el 1 1.7 7.5 8.1 7.7 0 0), (el 1 2.0 4.1 2.5 7.8 0 0), (el 1 3.0 2.0 4.7 3.1 0 0), (el 1 3.2 4.5 5.1 5.5 0 0), (el 1 5.0 1.2 7.2 9.2 0 0)] = true := by decide +kernel
example : sortsTo Comparators.rotLeftXAsc [(el 1 4.8 2.0 9.9 2.7 1 0), (el 1 5.2 3.1 5.5 8.1 1 0), (el 1 1.0 5.5 7.2 5.9 1 0), (el 1 3.3 6.2 6.5 9.0 1 0)] = true := by decide +kernel

/-! `/repo/test/utils/ComparatorsTest.cpp:120`, `RotLeftXDescComparator`: any order that is sorted is the expected one. -/

example : sortsTo Comparators.rotLeftXDesc [(el 1 5.0 1.2 7.2 9.2 0 0), (el 1 3.2 4.5 5.1 5.5 0 0), (el 1 3.0 2.0 4.7 3.1 0 0), (el 1 2.0 4.1 2.5 7.8 0 0), (el 1 1.7 7.5 8.1 7.7 0 0)] = true := by decide +kernel
example : sortsTo Comparators.rotLeftXDesc [(el 1 3.3 6.2 6.5 9.0 1 0), (el 1 1.0 5.5 7.2 5.9 1 0), (el 1 5.2 3.1 5.5 8.1 1 0), (el 1 4.8 2.0 9.9 2.7 1 0)] = true := by decide +kernel

/-! `/repo/test/utils/ComparatorsTest.cpp:138`, `RotLowerYAscComparator`: any order that is sorted is the expected one. -/

example : sortsTo Comparators.rotLowerYAsc [(el 1 3.0 2.0 4.7 3.1 0 0), (el 1 3.2 4.5 5.1 5.5 0 0), (el 1 1.7 7.5 8.1 7.7 0 0), (el 1 2.0 4.1 2.5 7.8 0 0), (el 1 5.0 1.2 7.2 9.2 0 0)] = true := by decide +kernel
example : sortsTo Comparators.rotLowerYAsc [(el 1 1.0 5.5 7.2 5.9 1 0), (el 1 3.3 6.2 6.5 9.0 1 0), (el 1 4.8 2.0 9.9 2.7 1 0), (el 1 5.2 3.1 5.5 8.1 1 0)] = true := by decide +kernel

/-! `/repo/test/utils/ComparatorsTest.cpp:156`, `RotLowerYDescComparator`: any order that is sorted is the expected one. -/

example : sortsTo Comparators.rotLowerYDesc [(el 1 5.0 1.2 7.2 9.2 0 0), (el 1 2.0 4.1 2.5 7.8 0 0), (el 1 1.7 7.5 8.1 7.7 0 0), (el 1 3.2 4.5 5.1 5.5 0 0), (el 1 3.0 2.0 4.7 3.1 0 0)] = true := by decide +kernel
example : sortsTo Comparators.rotLowerYDesc [(el 1 5.2 3.1 5.5 8.1 1 0), (el 1 4.8 2.0 9.9 2.7 1 0), (el 1 3.3 6.2 6.5 9.0 1 0), (el 1 1.0 5.5 7.2 5.9 1 0)] = true := by decide +kernel

/-! `/repo/test/utils/LogTest.cpp:72`, `getostream`. -/

example : Log.getostream { logLevel := .trace } .trace (-1) = true := by decide +kernel
example : Log.getostream { logLevel := .trace } .debug (-1) = true := by decide +kernel
example : Log.getostream { logLevel := .trace } .info (-1) = true := by decide +kernel
example : Log.getostream { logLevel := .trace } .warn (-1) = true := by decide +kernel
example : Log.getostream { logLevel := .trace } .error (-1) = true := by decide +kernel
example : Log.getostream (Log.setLogLevel { logLevel := .trace } .debug) .trace (-1) = false := by decide +kernel
example : Log.getostream (Log.setLogLevel { logLevel := .trace } .debug) .debug (-1) = true := by decide +kernel
example : Log.getostream (Log.setLogLevel { logLevel := .trace } .debug) .info (-1) = true := by decide +kernel
example : Log.getostream (Log.setLogLevel { logLevel := .trace } .debug) .warn (-1) = true := by decide +kernel
example : Log.getostream (Log.setLogLevel { logLevel := .trace } .debug) .error (-1) = true := by decide +kernel
example : Log.getostream (Log.setLogLevel (Log.setLogLevel { logLevel := .trace } .debug) .info) .trace (-1) = false := by decide +kernel
example : Log.getostream (Log.setLogLevel (Log.setLogLevel { logLevel := .trace } .debug) .info) .debug (-1) = false := by decide +kernel
example : Log.getostream (Log.setLogLevel (Log.setLogLevel { logLevel := .trace } .debug) .info) .info (-1) = true := by decide +kernel
example : Log.getostream (Log.setLogLevel (Log.setLogLevel { logLevel := .trace } .debug) .info) .warn (-1) = true := by decide +kernel
example : Log.getostream (Log.setLogLevel (Log.setLogLevel { logLevel := .trace } .debug) .info) .error (-1) = true := by decide +kernel
example : Log.getostream (Log.setLogLevel (Log.setLogLevel (Log.setLogLevel { logLevel := .trace } .debug) .info) .warn) .trace (-1) = false := by decide +kernel
example : Log.getostream (Log.setLogLevel (Log.setLogLevel (Log.setLogLevel { logLevel := .trace } .debug) .info) .warn) .debug (-1) = false := by decide +kernel
example : Log.getostream (Log.setLogLevel (Log.setLogLevel (Log.setLogLevel { logLevel := .trace } .debug) .info) .warn) .info (-1) = false := by decide +kernel
example : Log.getostream (Log.setLogLevel (Log.setLogLevel (Log.setLogLevel { logLevel := .trace } .debug) .info) .warn) .warn (-1) = true := by decide +kernel
example : Log.getostream (Log.setLogLevel (Log.setLogLevel (Log.setLogLevel { logLevel := .trace } .debug) .info) .warn) .error (-1) = true := by decide +kernel
example : Log.getostream (Log.setLogLevel (Log.setLogLevel (Log.setLogLevel (Log.setLogLevel { logLevel := .trace } .debug) .info) .warn) .error) .trace (-1) = false := by decide +kernel
example : Log.getostream (Log.setLogLevel (Log.setLogLevel (Log.setLogLevel (Log.setLogLevel { logLevel := .trace } .debug) .info) .warn) .error) .debug (-1) = false := by decide +kernel
example : Log.getostream (Log.setLogLevel (Log.setLogLevel (Log.setLogLevel (Log.setLogLevel { logLevel := .trace } .debug) .info) .warn) .error) .info (-1) = false := by decide +kernel
example : Log.getostream (Log.setLogLevel (Log.setLogLevel (Log.setLogLevel (Log.setLogLevel { logLevel := .trace } .debug) .info) .warn) .error) .warn (-1) = false := by decide +kernel
example : Log.getostream (Log.setLogLevel (Log.setLogLevel (Log.setLogLevel (Log.setLogLevel { logLevel := .trace } .debug) .info) .warn) .error) .error (-1) = true := by decide +kernel
example : Log.getostream (Log.setPageFilter (Log.setLogLevel (Log.setLogLevel (Log.setLogLevel (Log.setLogLevel (Log.setLogLevel { logLevel := .trace } .debug) .info) .warn) .error) .info) 3) .info 1 = false := by decide +kernel
example : Log.getostream (Log.setPageFilter (Log.setLogLevel (Log.setLogLevel (Log.setLogLevel (Log.setLogLevel (Log.setLogLevel { logLevel := .trace } .debug) .info) .warn) .error) .info) 3) .info 2 = false := by decide +kernel
example : Log.getostream (Log.setPageFilter (Log.setLogLevel (Log.setLogLevel (Log.setLogLevel (Log.setLogLevel (Log.setLogLevel { logLevel := .trace } .debug) .info) .warn) .error) .info) 3) .info 3 = true := by decide +kernel
example : Log.getostream (Log.setPageFilter (Log.setLogLevel (Log.setLogLevel (Log.setLogLevel (Log.setLogLevel (Log.setLogLevel { logLevel := .trace } .debug) .info) .warn) .error) .info) 3) .info 4 = false := by decide +kernel
example : Log.getostream (Log.setPageFilter (Log.setLogLevel (Log.setLogLevel (Log.setLogLevel (Log.setLogLevel (Log.setLogLevel { logLevel := .trace } .debug) .info) .warn) .error) .info) 3) .info 5 = false := by decide +kernel

/-! `/repo/test/utils/FixedCapacityPriorityQueueTest.cpp:61`, `pushPopInt`. -/

example : (play minTop 3 []).map List.length = some 0 := by decide +kernel
example : (play minTop 3 [.push 2, .push 8, .push 3]).map List.length = some 3 := by decide +kernel
example : ((play minTop 3 [.push 2, .push 8, .push 3]).bind minTop).map (·.1) = some 2 := by decide +kernel
example : (play minTop 3 [.push 2, .push 8, .push 3, .push 5, .push 6]).map List.length = some 3 := by decide +kernel
example : ((play minTop 3 [.push 2, .push 8, .push 3, .push 5, .push 6]).bind minTop).map (·.1) = some 5 := by decide +kernel
example : (play minTop 3 [.push 2, .push 8, .push 3, .push 5, .push 6, .push 1]).map List.length = some 3 := by decide +kernel
example : ((play minTop 3 [.push 2, .push 8, .push 3, .push 5, .push 6, .push 1]).bind minTop).map (·.1) = some 1 := by decide +kernel
example : (play minTop 3 [.push 2, .push 8, .push 3, .push 5, .push 6, .push 1, .push 9]).map List.length = some 3 := by decide +kernel
example : ((play minTop 3 [.push 2, .push 8, .push 3, .push 5, .push 6, .push 1, .push 9]).bind minTop).map (·.1) = some 6 := by decide +kernel
example : (play minTop 3 [.push 2, .push 8, .push 3, .push 5, .push 6, .push 1, .push 9, .pop]).map List.length = some 2 := by decide +kernel
example : ((play minTop 3 [.push 2, .push 8, .push 3, .push 5, .push 6, .push 1, .push 9, .pop]).bind minTop).map (·.1) = some 8 := by decide +kernel
example : (play minTop 3 [.push 2, .push 8, .push 3, .push 5, .push 6, .push 1, .push 9, .pop, .pop]).map List.length = some 1 := by decide +kernel
example : ((play minTop 3 [.push 2, .push 8, .push 3, .push 5, .push 6, .push 1, .push 9, .pop, .pop]).bind minTop).map (·.1) = some 9 := by decide +kernel
example : (play minTop 3 [.push 2, .push 8, .push 3, .push 5, .push 6, .push 1, .push 9, .pop, .pop, .push 12]).map List.length = some 2 := by decide +kernel
example : ((play minTop 3 [.push 2, .push 8, .push 3, .push 5, .push 6, .push 1, .push 9, .pop, .pop, .push 12]).bind minTop).map (·.1) = some 9 := by decide +kernel
example : (play minTop 3 [.push 2, .push 8, .push 3, .push 5, .push 6, .push 1, .push 9, .pop, .pop, .push 12, .pop]).map List.length = some 1 := by decide +kernel
example : ((play minTop 3 [.push 2, .push 8, .push 3, .push 5, .push 6, .push 1, .push 9, .pop, .pop, .push 12, .pop]).bind minTop).map (·.1) = some 12 := by decide +kernel
example : (play minTop 3 [.push 2, .push 8, .push 3, .push 5, .push 6, .push 1, .push 9, .pop, .pop, .push 12, .pop, .pop]).map List.length = some 0 := by decide +kernel

/-! `/repo/test/utils/FixedCapacityPriorityQueueTest.cpp:126`, `pushPopString`. -/

example : (play maxTopStr 4 []).map List.length = some 0 := by decide +kernel
example : (play maxTopStr 4 [.push ['t', 'u', 'v'], .push ['g', 'h', 'i'], .push ['k', 'l', 'm']]).map List.length = some 3 := by decide +kernel
example : ((play maxTopStr 4 [.push ['t', 'u', 'v'], .push ['g', 'h', 'i'], .push ['k', 'l', 'm']]).bind maxTopStr).map (·.1) = some ['t', 'u', 'v'] := by decide +kernel
example : (play maxTopStr 4 [.push ['t', 'u', 'v'], .push ['g', 'h', 'i'], .push ['k', 'l', 'm'], .push ['a', 'b', 'c']]).map List.length = some 4 := by decide +kernel
example : ((play maxTopStr 4 [.push ['t', 'u', 'v'], .push ['g', 'h', 'i'], .push ['k', 'l', 'm'], .push ['a', 'b', 'c']]).bind maxTopStr).map (·.1) = some ['t', 'u', 'v'] := by decide +kernel
example : (play maxTopStr 4 [.push ['t', 'u', 'v'], .push ['g', 'h', 'i'], .push ['k', 'l', 'm'], .push ['a', 'b', 'c'], .push ['a', 'b', 'c']]).map List.length = some 4 := by decide +kernel
example : ((play maxTopStr 4 [.push ['t', 'u', 'v'], .push ['g', 'h', 'i'], .push ['k', 'l', 'm'], .push ['a', 'b', 'c'], .push ['a', 'b', 'c']]).bind maxTopStr).map (·.1) = some ['k', 'l', 'm'] := by decide +kernel
example : (play maxTopStr 4 [.push ['t', 'u', 'v'], .push ['g', 'h', 'i'], .push ['k', 'l', 'm'], .push ['a', 'b', 'c'], .push ['a', 'b', 'c'], .pop, .push ['v', 'w', 'x'], .push ['b', 'c', 'd']]).map List.length = some 4 := by decide +kernel
example : ((play maxTopStr 4 [.push ['t', 'u', 'v'], .push ['g', 'h', 'i'], .push ['k', 'l', 'm'], .push ['a', 'b', 'c'], .push ['a', 'b', 'c'], .pop, .push ['v', 'w', 'x'], .push ['b', 'c', 'd']]).bind maxTopStr).map (·.1) = some ['g', 'h', 'i'] := by decide +kernel
example : (play maxTopStr 4 [.push ['t', 'u', 'v'], .push ['g', 'h', 'i'], .push ['k', 'l', 'm'], .push ['a', 'b', 'c'], .push ['a', 'b', 'c'], .pop, .push ['v', 'w', 'x'], .push ['b', 'c', 'd'], .pop]).map List.length = some 3 := by decide +kernel
example : ((play maxTopStr 4 [.push ['t', 'u', 'v'], .push ['g', 'h', 'i'], .push ['k', 'l', 'm'], .push ['a', 'b', 'c'], .push ['a', 'b', 'c'], .pop, .push ['v', 'w', 'x'], .push ['b', 'c', 'd'], .pop]).bind maxTopStr).map (·.1) = some ['b', 'c', 'd'] := by decide +kernel
example : (play maxTopStr 4 [.push ['t', 'u', 'v'], .push ['g', 'h', 'i'], .push ['k', 'l', 'm'], .push ['a', 'b', 'c'], .push ['a', 'b', 'c'], .pop, .push ['v', 'w', 'x'], .push ['b', 'c', 'd'], .pop, .pop]).map List.length = some 2 := by decide +kernel
example : ((play maxTopStr 4 [.push ['t', 'u', 'v'], .push ['g', 'h', 'i'], .push ['k', 'l', 'm'], .push ['a', 'b', 'c'], .push ['a', 'b', 'c'], .pop, .push ['v', 'w', 'x'], .push ['b', 'c', 'd'], .pop, .pop]).bind maxTopStr).map (·.1) = some ['a', 'b', 'c'] := by decide +kernel
example : (play maxTopStr 4 [.push ['t', 'u', 'v'], .push ['g', 'h', 'i'], .push ['k', 'l', 'm'], .push ['a', 'b', 'c'], .push ['a', 'b', 'c'], .pop, .push ['v', 'w', 'x'], .push ['b', 'c', 'd'], .pop, .pop, .pop]).map List.length = some 1 := by decide +kernel
example : ((play maxTopStr 4 [.push ['t', 'u', 'v'], .push ['g', 'h', 'i'], .push ['k', 'l', 'm'], .push ['a', 'b', 'c'], .push ['a', 'b', 'c'], .pop, .push ['v', 'w', 'x'], .push ['b', 'c', 'd'], .pop, .pop, .pop]).bind maxTopStr).map (·.1) = some ['a', 'b', 'c'] := by decide +kernel
example : (play maxTopStr 4 [.push ['t', 'u', 'v'], .push ['g', 'h', 'i'], .push ['k', 'l', 'm'], .push ['a', 'b', 'c'], .push ['a', 'b', 'c'], .pop, .push ['v', 'w', 'x'], .push ['b', 'c', 'd'], .pop, .pop, .pop, .pop]).map List.length = some 0 := by decide +kernel

/-! `/repo/test/utils/FixedCapacityPriorityQueueTest.cpp:193`, `sort`. -/

example : (play minTop 4 []).map (PQ.sort (fun l => l.insertionSort (fun a b => a ≤ b))) = some [] := by decide +kernel
example : (play minTop 4 [.push 2, .push 8]).map (PQ.sort (fun l => l.insertionSort (fun a b => a ≤ b))) = some [2, 8] := by decide +kernel
example : (play minTop 4 [.push 2, .push 8, .push 7, .push 1, .push 4, .push 6]).map (PQ.sort (fun l => l.insertionSort (fun a b => a ≤ b))) = some [4, 6, 7, 8] := by decide +kernel
example : (play minTop 4 [.push 2, .push 8, .push 7, .push 1, .push 4, .push 6]).map (PQ.sort (fun l => l.insertionSort (fun a b => b ≤ a))) = some [8, 7, 6, 4] := by decide +kernel
example : (play minTop 4 [.push 2, .push 8, .push 7, .push 1, .push 4, .push 6, .pop]).map (PQ.sort (fun l => l.insertionSort (fun a b => a ≤ b))) = some [6, 7, 8] := by decide +kernel
example : (play minTop 4 [.push 2, .push 8, .push 7, .push 1, .push 4, .push 6, .pop, .pop]).map (PQ.sort (fun l => l.insertionSort (fun a b => a ≤ b))) = some [7, 8] := by decide +kernel

/-! `/repo/test/utils/TextBlocksDetectionUtilsTest.cpp:610`, `computeIsPrefixedByItemLabel`: the lines that do not start with a
superscript, for which the answer is that of the regular expressions (texts as bytes). -/

example : ItemLabel.matchesItemRegex ['M', 'e', 'r', 'y', 'l', ' ', 'S', 't', 'r', 'e', 'e', 'p'] = false := by decide +kernel
example : ItemLabel.matchesItemRegex ['-', ' ', 'J', 'u', 'd', 'i', ' ', 'D', 'e', 'n', 'c', 'h'] = true := by decide +kernel
example : ItemLabel.matchesItemRegex ['+', ' ', 'I', 'n', 'g', 'r', 'i', 'd', ' ', 'B', 'e', 'r', 'g', 'm', 'a', 'n'] = true := by decide +kernel
example : ItemLabel.matchesItemRegex ['2', ' ', 'F', 'r', 'a', 'n', 'c', 'e', 's', ' ', 'M', 'c', 'D', 'o', 'r', 'm', 'a', 'n', 'd'] = false := by decide +kernel
example : ItemLabel.matchesItemRegex ['I', '.', ' ', 'J', 'o', 'd', 'i', 'e', ' ', 'F', 'o', 's', 't', 'e', 'r'] = true := by decide +kernel
example : ItemLabel.matchesItemRegex ['I', 'I', '.', ' ', 'N', 'i', 'c', 'o', 'l', 'e', ' ', 'K', 'i', 'd', 'm', 'a', 'n'] = true := by decide +kernel
example : ItemLabel.matchesItemRegex ['I', 'V', '.', ' ', 'K', 'a', 't', 'e', ' ', 'W', 'i', 'n', 's', 'l', 'e', 't'] = true := by decide +kernel
example : ItemLabel.matchesItemRegex ['(', 'I', ')', ' ', 'J', 'u', 'l', 'i', 'a', ' ', 'R', 'o', 'b', 'e', 'r', 't', 's'] = true := by decide +kernel
example : ItemLabel.matchesItemRegex ['(', 'I', 'I', ')', ' ', 'C', 'h', 'a', 'r', 'l', 'i', 'z', 'e', ' ', 'T', 'h', 'e', 'r', 'o', 'n'] = true := by decide +kernel
example : ItemLabel.matchesItemRegex ['(', 'I', 'V', ')', ' ', 'V', 'i', 'o', 'l', 'a', ' ', 'D', 'a', 'v', 'i', 's'] = true := by decide +kernel
example : ItemLabel.matchesItemRegex ['a', '.', ' ', 'E', 'm', 'm', 'a', ' ', 'T', 'h', 'o', 'm', 'p', 's', 'o', 'n'] = true := by decide +kernel
example : ItemLabel.matchesItemRegex ['b', '.', ' ', 'N', 'a', 't', 'a', 'l', 'i', 'e', ' ', 'P', 'o', 'r', 't', 'm', 'a', 'n'] = true := by decide +kernel
example : ItemLabel.matchesItemRegex ['c', '.', ' ', 'A', 'n', 'g', 'e', 'l', 'i', 'n', 'a', ' ', 'J', 'o', 'l', 'i', 'e'] = true := by decide +kernel
example : ItemLabel.matchesItemRegex ['1', '.', ' ', 'T', 'i', 'l', 'd', 'a', ' ', 'S', 'w', 'i', 'n', 't', 'o', 'n'] = true := by decide +kernel
example : ItemLabel.matchesItemRegex ['2', '.', ' ', 'D', 'i', 'a', 'n', 'e', ' ', 'K', 'e', 'a', 't', 'o', 'n'] = true := by decide +kernel
example : ItemLabel.matchesItemRegex ['3', '.', ' ', 'H', 'e', 'l', 'e', 'n', ' ', 'M', 'i', 'r', 'r', 'e', 'n'] = true := by decide +kernel
example : ItemLabel.matchesItemRegex ['(', 'A', ')', ' ', 'S', 'a', 'n', 'd', 'r', 'a', ' ', 'B', 'u', 'l', 'l', 'o', 'c', 'k'] = true := by decide +kernel
example : ItemLabel.matchesItemRegex ['(', 'C', '1', ')', ' ', 'M', 'a', 'r', 'i', 'o', 'n', ' ', 'C', 'o', 't', 'i', 'l', 'l', 'a', 'r', 'd'] = true := by decide +kernel
example : ItemLabel.matchesItemRegex ['[', '1', ']', ' ', 'J', 'e', 'n', 'n', 'i', 'f', 'e', 'r', ' ', 'L', 'a', 'w', 'r', 'e', 'n', 'c', 'e'] = true := by decide +kernel
example : ItemLabel.matchesItemRegex ['[', 'J', 'e', 'L', 'a', '2', '0', ']', ' ', 'J', 'e', 's', 's', 'i', 'c', 'a', ' ', 'L', 'a', 'n', 'g', 'e'] = true := by decide +kernel
example : ItemLabel.matchesItemRegex ['A', ')', ' ', 'M', 'i', 'c', 'h', 'e', 'l', 'l', 'e', ' ', 'P', 'f', 'e', 'i', 'f', 'f', 'e', 'r'] = true := by decide +kernel
example : ItemLabel.matchesItemRegex ['c', ')', ' ', 'S', 'a', 'o', 'i', 'r', 's', 'e', ' ', 'R', 'o', 'n', 'a', 'n'] = true := by decide +kernel
example : ItemLabel.matchesItemRegex ['a', '1', ')', ' ', 'M', 'i', 's', 's', 'e', 's', ' ', 'X'] = true := by decide +kernel

/-! `/repo/test/utils/PageSegmentationUtilsTest.cpp:34`, `createPageSegment`. -/

example : (PageSegmentation.createPageSegment []).pos = ({ pageNum := -1, leftX := dblMax, upperY := dblMax, rightX := dblMin, lowerY := dblMin } : Box) := by decide +kernel
example : (PageSegmentation.createPageSegment
    [⟨.word, 1, el 3 20.0 720.0 24.5 725.0 0 0, -1⟩, ⟨.word, 2, el 3 25.0 719.1 27.8 724.9 0 0, -1⟩,
      ⟨.word, 3, el 3 28.2 720.0 32.5 724.9 0 0, -1⟩, ⟨.word, 4, el 3 33.0 720.1 37.7 724.8 0 0, -1⟩]).pos =
    el 3 20.0 719.1 37.7 725.0 0 0 := by decide +kernel
example : (PageSegmentation.createPageSegment
    [⟨.word, 1, el 3 20.0 720.0 24.5 725.0 0 0, -1⟩, ⟨.word, 2, el 3 25.0 719.1 27.8 724.9 0 0, -1⟩,
      ⟨.word, 3, el 3 28.2 720.0 32.5 724.9 0 0, -1⟩, ⟨.word, 4, el 3 33.0 720.1 37.7 724.8 0 0, -1⟩]).elements.map (·.uid) = [1, 2, 3, 4] := by decide +kernel

end Verif.UnitTests
