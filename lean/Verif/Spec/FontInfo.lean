import Mathlib.Data.List.Basic
import Mathlib.Data.List.Infix
import Verif.Model.Math

/-!
# What a reader of the documentation expects from font names and styles

Written without the model: names are lists of characters.
-/

namespace Verif.Spec

/-- `l` is the lower-case ASCII letter of the upper-case letter `u`. -/
def LowerOf (l u : Char) : Prop := 65 ≤ u.toNat ∧ u.toNat ≤ 90 ∧ l.toNat = u.toNat + 32

/-- `l` is `c` with an ASCII upper-case letter replaced by its lower-case letter. -/
def Lowered (l c : Char) : Prop := LowerOf l c ∨ (l = c ∧ ¬ (65 ≤ c.toNat ∧ c.toNat ≤ 90))

/-- `low` is `s` in lower case. -/
def IsLower (low s : List Char) : Prop := List.Forall₂ Lowered low s

/-- `word` (in lower case) occurs somewhere in `s`, whatever the case of the letters of `s`. -/
def Mentions (s word : List Char) : Prop := ∃ mid, mid <:+: s ∧ IsLower word mid

/-- `ls` are the lines of the text `s`; the last one need not end with a newline. -/
inductive IsLines : List (List Char) → List Char → Prop where
  | nil : IsLines [] []
  | last (l : List Char) : l ≠ [] → '\n' ∉ l → IsLines [l] l
  | cons (l : List Char) (ls : List (List Char)) (s : List Char) : '\n' ∉ l → IsLines ls s →
      IsLines (l :: ls) (l ++ '\n' :: s)

/-- `line` is `before`, then `key`, then `rest`, and no occurrence of `key` begins earlier. -/
def FirstAt (line before key rest : List Char) : Prop :=
  line = before ++ key ++ rest ∧ ∀ p q, line = p ++ key ++ q → before.length ≤ p.length

/-- The line has an entry `/Weight (text)`, the first of its kind in the line. -/
def WeightEntry (line text : List Char) : Prop :=
  ∃ before after, FirstAt line before "/Weight (".toList (text ++ ')' :: after) ∧ ')' ∉ text

/-- The line has an entry `/FontMatrix ... [text]`, the first of its kind in the line. -/
def MatrixEntry (line text : List Char) : Prop :=
  ∃ before between after,
    FirstAt line before "/FontMatrix".toList (between ++ '[' :: (text ++ ']' :: after)) ∧
    '[' ∉ between ∧ ']' ∉ text

/-- The weight the text of a `/Weight` entry stands for, `d` for an unknown text. -/
def namedWeight (text : List Char) (d : ℤ) : ℤ :=
  match [("Regular", 400), ("Medium", 500), ("Bold", 700)].find? (fun p => p.1.toList == text) with
  | some p => p.2
  | none => d

/-- `v` is the answer of the first element of `xs` that has one, and `d` if none has. -/
def IsFirstAnswer {α β : Type} (answers : α → β → Prop) (xs : List α) (d v : β) : Prop :=
  (∃ before x after, xs = before ++ x :: after ∧ answers x v ∧ ∀ y ∈ before, ∀ w, ¬ answers y w) ∨
  ((∀ x ∈ xs, ∀ w, ¬ answers x w) ∧ v = d)

/-- What an `/ItalicAngle` line says about the slant (`v`): upright only if the line is exactly
`/ItalicAngle 0 def`. -/
def SlantLine (line : List Char) (v : Bool) : Prop :=
  "/ItalicAngle".toList <+: line ∧ (v = true ↔ line ≠ "/ItalicAngle 0 def".toList)

/-- `m'` is `m` after the numbers of all matrix entries of the lines, read by `numbers`, were
written to the front of it, one entry after the other. -/
def overlay (numbers : List Char → List ℚ) : List (List Char) → List ℚ → List ℚ → Prop
  | [], m, m' => m' = m
  | line :: ls, m, m' =>
    (∃ t, MatrixEntry line t ∧ overlay numbers ls (numbers t ++ m.drop (numbers t).length) m') ∨
    ((∀ t, ¬ MatrixEntry line t) ∧ overlay numbers ls m m')

/-- The four bytes that write a length, least significant byte first. -/
def lengthBytes (n : ℕ) : List ℕ := [n % 256, n / 256 % 256, n / 65536 % 256, n / 16777216 % 256]

end Verif.Spec
