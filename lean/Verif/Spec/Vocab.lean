import Mathlib.Data.Nat.Digits.Defs
import Verif.Spec.Bpe

/-!
# Specification of the vocabulary files
-/

namespace Verif.Spec

/-- A text that starts with a decimal number of 32 bits (after white space, with an optional sign). -/
def Numeral (s : List Char) (i : ℤ) : Prop :=
  ∃ blanks sign digits rest, s = blanks ++ sign ++ digits ++ rest ∧
    (∀ c ∈ blanks, c ∈ [' ', '\t', '\n', Char.ofNat 11, Char.ofNat 12, '\r']) ∧
    (sign = [] ∨ sign = ['+'] ∨ sign = ['-']) ∧ digits ≠ [] ∧ (∀ c ∈ digits, '0' ≤ c ∧ c ≤ '9') ∧
    (∀ c, rest.head? = some c → ¬ ('0' ≤ c ∧ c ≤ '9')) ∧
    i = (if sign = ['-'] then -1 else 1) * ((Nat.ofDigits 10 ((digits.map fun c => c.toNat - 48).reverse) : ℕ) : ℤ) ∧
    -2 ^ 31 ≤ i ∧ i < 2 ^ 31

/-- The meaning of a line: `<text>TAB<number>`, or nothing if there is no TAB. -/
def LineMeans (line : List Char) : Option (List Char × ℤ) → Prop
  | none => '\t' ∉ line
  | some e => ∃ number, line = e.1 ++ '\t' :: number ∧ '\t' ∉ e.1 ∧ Numeral number e.2

/-- The content of a file: lines that end with a newline, and a rest without newline. -/
def content (lines : List (List Char)) (rest : List Char) : List Char := lines.flatMap (· ++ ['\n']) ++ rest

end Verif.Spec
