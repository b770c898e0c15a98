import Verif.Model.Box

/-!
# The unit tests of `/repo/test/utils/ComparatorsTest.cpp`, run on the model

These examples are no proofs of properties.  They check that in the order the authors of the program
expect every element comes strictly before every later one, so that every sorting function must return this
order.
-/

namespace Verif.Conformance.Comparators

open Verif.Comparators

/-- `char0`, `/repo/test/utils/ComparatorsTest.cpp:33`. -/
def char0 : Box := ⟨1, 2, 4.1, 2.5, 7.8, 0, 0⟩
/-- `char1`, `/repo/test/utils/ComparatorsTest.cpp:34`. -/
def char1 : Box := ⟨1, 1.7, 7.5, 8.1, 7.7, 0, 0⟩
/-- `char2`, `/repo/test/utils/ComparatorsTest.cpp:35`. -/
def char2 : Box := ⟨1, 5, 1.2, 7.2, 9.2, 0, 0⟩
/-- `char3`, `/repo/test/utils/ComparatorsTest.cpp:36`. -/
def char3 : Box := ⟨1, 3.2, 4.5, 5.1, 5.5, 0, 0⟩
/-- `char4`, `/repo/test/utils/ComparatorsTest.cpp:37`. -/
def char4 : Box := ⟨1, 3, 2, 4.7, 3.1, 0, 0⟩
/-- `word0`, `/repo/test/utils/ComparatorsTest.cpp:41`. -/
def word0 : Box := ⟨1, 4.8, 2, 9.9, 2.7, 1, 0⟩
/-- `word1`, `/repo/test/utils/ComparatorsTest.cpp:42`. -/
def word1 : Box := ⟨1, 5.2, 3.1, 5.5, 8.1, 1, 0⟩
/-- `word2`, `/repo/test/utils/ComparatorsTest.cpp:43`. -/
def word2 : Box := ⟨1, 1, 5.5, 7.2, 5.9, 1, 0⟩
/-- `word3`, `/repo/test/utils/ComparatorsTest.cpp:44`. -/
def word3 : Box := ⟨1, 3.3, 6.2, 6.5, 9, 1, 0⟩

/-- Test `LeftXAscComparator`, `/repo/test/utils/ComparatorsTest.cpp:48-63`. -/
example :
    [char1, char0, char4, char3, char2].Pairwise (fun a b => leftXAsc a b = true ∧ leftXAsc b a = false) ∧
    [word2, word3, word0, word1].Pairwise (fun a b => leftXAsc a b = true ∧ leftXAsc b a = false) := by
  decide +kernel

/-- Test `RightXDescComparator`, `/repo/test/utils/ComparatorsTest.cpp:66-81`. -/
example :
    [char1, char2, char3, char4, char0].Pairwise (fun a b => rightXDesc a b = true ∧ rightXDesc b a = false) ∧
    [word0, word2, word3, word1].Pairwise (fun a b => rightXDesc a b = true ∧ rightXDesc b a = false) := by
  decide +kernel

/-- Test `UpperYAscComparator`, `/repo/test/utils/ComparatorsTest.cpp:84-99`. -/
example :
    [char2, char4, char0, char3, char1].Pairwise (fun a b => upperYAsc a b = true ∧ upperYAsc b a = false) ∧
    [word0, word1, word2, word3].Pairwise (fun a b => upperYAsc a b = true ∧ upperYAsc b a = false) := by
  decide +kernel

/-- Test `RotLeftXAscComparator`, `/repo/test/utils/ComparatorsTest.cpp:102-117`. -/
example :
    [char1, char0, char4, char3, char2].Pairwise (fun a b => rotLeftXAsc a b = true ∧ rotLeftXAsc b a = false) ∧
    [word0, word1, word2, word3].Pairwise (fun a b => rotLeftXAsc a b = true ∧ rotLeftXAsc b a = false) := by
  decide +kernel

/-- Test `RotLeftXDescComparator`, `/repo/test/utils/ComparatorsTest.cpp:120-135`. -/
example :
    [char2, char3, char4, char0, char1].Pairwise (fun a b => rotLeftXDesc a b = true ∧ rotLeftXDesc b a = false) ∧
    [word3, word2, word1, word0].Pairwise (fun a b => rotLeftXDesc a b = true ∧ rotLeftXDesc b a = false) := by
  decide +kernel

/-- Test `RotLowerYAscComparator`, `/repo/test/utils/ComparatorsTest.cpp:138-153`. -/
example :
    [char4, char3, char1, char0, char2].Pairwise (fun a b => rotLowerYAsc a b = true ∧ rotLowerYAsc b a = false) ∧
    [word2, word3, word0, word1].Pairwise (fun a b => rotLowerYAsc a b = true ∧ rotLowerYAsc b a = false) := by
  decide +kernel

/-- Test `RotLowerYDescComparator`, `/repo/test/utils/ComparatorsTest.cpp:156-171`. -/
example :
    [char2, char0, char1, char3, char4].Pairwise (fun a b => rotLowerYDesc a b = true ∧ rotLowerYDesc b a = false) ∧
    [word1, word0, word3, word2].Pairwise (fun a b => rotLowerYDesc a b = true ∧ rotLowerYDesc b a = false) := by
  decide +kernel

end Verif.Conformance.Comparators
