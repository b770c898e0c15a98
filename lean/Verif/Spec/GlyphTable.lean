import Mathlib.Data.Nat.Digits.Defs
import Verif.Model.GlyphTable
import Verif.Spec.Type1

/-!
# The private part of a Type 1 font, as its format describes it

A text is a list of bytes.  The subroutines follow the word `/Subrs`, each as
`dup <number> <length> RD <data>`; the glyphs follow the word `/CharStrings`, each as
`/<name> <length> RD <data>`.  The data are encrypted with the key 4330.
-/

namespace Verif.Spec.GlyphTable

open Verif Verif.Spec.Type1

/-- The ASCII codes of a text. -/
def ascii (s : String) : List ℕ := s.toList.map Char.toNat

/-- White space: tab, line feed, vertical tab, form feed, carriage return, blank. -/
def Blank (b : ℕ) : Prop := b ∈ [9, 10, 11, 12, 13, 32]

/-- The digits stand for a number. -/
def IsNumber (ds : List ℕ) (n : ℕ) : Prop :=
  ds ≠ [] ∧ (∀ d ∈ ds, 48 ≤ d ∧ d ≤ 57) ∧ n = Nat.ofDigits 10 (ds.reverse.map (· - 48))

/-- The text begins with `/<name> <digits> RD ` and continues with `rest`. -/
def GlyphHead (s name digits rest : List ℕ) : Prop :=
  ∃ blanks a b, s = 47 :: (name ++ (blanks ++ (digits ++ a :: 82 :: 68 :: b :: rest))) ∧
    name ≠ [] ∧ (∀ c ∈ name, ¬ Blank c) ∧ blanks ≠ [] ∧ (∀ c ∈ blanks, Blank c) ∧
    digits ≠ [] ∧ (∀ d ∈ digits, 48 ≤ d ∧ d ≤ 57) ∧ Blank a ∧ Blank b

/-- The text begins with `dup <digits> <digits> RD ` and continues with `rest`. -/
def SubrHead (s index digits rest : List ℕ) : Prop :=
  ∃ a b c d, s = 100 :: 117 :: 112 :: a :: (index ++ b :: (digits ++ c :: 82 :: 68 :: d :: rest)) ∧
    index ≠ [] ∧ (∀ d ∈ index, 48 ≤ d ∧ d ≤ 57) ∧ digits ≠ [] ∧ (∀ d ∈ digits, 48 ≤ d ∧ d ≤ 57) ∧
    Blank a ∧ Blank b ∧ Blank c ∧ Blank d

/-- The head of no glyph starts in `gap` when `s` follows. -/
def NoGlyphIn (gap s : List ℕ) : Prop :=
  ∀ k < gap.length, ∀ name ds rest, ¬ GlyphHead ((gap ++ s).drop k) name ds rest

/-- The head of no subroutine starts in `gap` when `s` follows. -/
def NoSubrIn (gap s : List ℕ) : Prop :=
  ∀ k < gap.length, ∀ i ds rest, ¬ SubrHead ((gap ++ s).drop k) i ds rest

/-- The text starts with the encrypted form of a program, with `iv` arbitrary bytes in front of it. -/
def HasData (iv : ℕ) (s program : List ℕ) (len : ℕ) : Prop :=
  ∃ lead after, s = encrypt 4330 (lead ++ program) ++ after ∧ lead.length = iv ∧
    len = (lead ++ program).length ∧ len ≤ 2147483647 ∧ (∀ b ∈ lead ++ program, b < 256)

/-- The text contains exactly the given glyphs: everything that looks like the head of a glyph is one,
and is followed by its data. -/
inductive GlyphEntries (iv : ℕ) : List ℕ → List (List ℕ × List ℕ) → Prop where
  | none (s : List ℕ) : NoGlyphIn s [] → GlyphEntries iv s []
  | glyph (gap s name digits rest program : List ℕ) (len : ℕ) (gs : List (List ℕ × List ℕ)) :
      NoGlyphIn gap s → GlyphHead s name digits rest → IsNumber digits len →
      HasData iv rest program len → GlyphEntries iv rest gs →
      GlyphEntries iv (gap ++ s) ((name, program) :: gs)

/-- The text contains exactly the given subroutines. -/
inductive SubrEntries (iv : ℕ) : List ℕ → List (ℕ × List ℕ) → Prop where
  | none (s : List ℕ) : NoSubrIn s [] → SubrEntries iv s []
  | subr (gap s index digits rest program : List ℕ) (i len : ℕ) (ss : List (ℕ × List ℕ)) :
      NoSubrIn gap s → SubrHead s index digits rest → IsNumber index i → i ≤ 2147483647 →
      IsNumber digits len → HasData iv rest program len → SubrEntries iv rest ss →
      SubrEntries iv (gap ++ s) ((i, program) :: ss)

/-- `text` is `before`, the word, `after`, and this is the first occurrence of the word. -/
def FirstWord (word text before after : List ℕ) : Prop :=
  text = before ++ word ++ after ∧ ∀ p q, text = p ++ word ++ q → before.length ≤ p.length

/-- The number of arbitrary bytes in front of the programs: 4, or what the entry `/lenIV` says. -/
def LenIV (text : List ℕ) (iv : ℕ) : Prop :=
  (¬ ascii "/lenIV " <:+: text ∧ iv = 4) ∨
  ∃ before digits after, FirstWord (ascii "/lenIV ") text before (digits ++ 32 :: after) ∧
    IsNumber digits iv ∧ iv ≤ 2147483647

/-- A private part with the given subroutines and glyphs: the subroutines stand between the first
`/Subrs` and the first `ND` behind it, the glyphs behind the first `/CharStrings`, and the word `end`
comes after that. -/
structure PrivatePart (text : List ℕ) (subrs : List (ℕ × List ℕ)) (glyphs : List (List ℕ × List ℕ)) :
    Prop where
  parts : ∃ iv before1 st behind before2 ct, LenIV text iv ∧
    FirstWord (ascii "/Subrs") text before1 (st ++ ascii "ND" ++ behind) ∧
    FirstWord (ascii "ND") (st ++ ascii "ND" ++ behind) st behind ∧
    SubrEntries iv st subrs ∧
    FirstWord (ascii "/CharStrings") text before2 ct ∧ ascii "end" <:+: ct ∧
    GlyphEntries iv ct glyphs

/-- The last entry with a key. -/
def lastWith {α β : Type} [DecidableEq α] (key : α) : List (α × β) → Option β
  | [] => none
  | (k, v) :: rest => (lastWith key rest).orElse fun _ => if k = key then some v else none

end Verif.Spec.GlyphTable
