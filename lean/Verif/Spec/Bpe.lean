import Mathlib.Logic.Relation
import Mathlib.Data.Int.Notation

/-!
# Specification: byte pair encoding (as described in the header of the encoder)
-/

namespace Verif.Spec

/-- The leftmost pair of neighbouring tokens whose concatenation is in the vocabulary; the result is
this concatenation. -/
def leftmostPair (inVocab : List Char → Bool) : List (List Char) → Option (List Char)
  | a :: b :: rest => if inVocab (a ++ b) then some (a ++ b) else leftmostPair inVocab (b :: rest)
  | _ => none

/-- Go through the tokens from left to right and merge every two neighbouring tokens whose
concatenation is `m`. -/
def mergeAll (m : List Char) : List (List Char) → List (List Char)
  | a :: b :: rest =>
    if a ++ b = m then (a ++ b) :: mergeAll m rest else a :: mergeAll m (b :: rest)
  | ts => ts

/-- One round of byte pair encoding. -/
def IsRound (inVocab : List Char → Bool) (ts ts' : List (List Char)) : Prop :=
  ∃ m, leftmostPair inVocab ts = some m ∧ ts' = mergeAll m ts

/-- `ts` is the sequence of tokens of the word: reached from its characters by rounds, and no further
round is possible. -/
def IsEncoding (inVocab : List Char → Bool) (word : List Char) (ts : List (List Char)) : Prop :=
  Relation.ReflTransGen (IsRound inVocab) (word.map fun c => [c]) ts ∧ leftmostPair inVocab ts = none

/-- The list cut or padded at the end to length `n`. -/
def fit (n : Nat) (pad : ℤ) (xs : List ℤ) : List ℤ := (xs ++ List.replicate n pad).take n

end Verif.Spec
