import Verif.Model.Text

/-!
# Specification of item labels (C73)

What counts as an item label, without regular expressions.
-/

namespace Verif.Spec.Labels

/-- White space between words. -/
def Blank (c : Char) : Prop := c ∈ [' ', '\t', '\n', '\r', '\x0B', '\x0C']

instance (c : Char) : Decidable (Blank c) := inferInstanceAs (Decidable (c ∈ _))

/-- The same word in lower case letters (only the letters A to Z are changed). -/
def lowerCase (w : List Char) : List Char := w.map fun c => if 'A' ≤ c ∧ c ≤ 'Z' then Char.ofNat (c.toNat + 32) else c

/-- The roman numerals up to 19, in lower case. -/
def romanNumerals : List (List Char) :=
  ["i", "ii", "iii", "iv", "v", "vi", "vii", "viii", "ix", "x", "xi", "xii", "xiii", "xiv", "xv", "xvi", "xvii", "xviii",
    "xix"].map String.toList

/-- `0` to `9`. -/
def IsDigit (c : Char) : Prop := '0' ≤ c ∧ c ≤ '9'
/-- `a` to `z`. -/
def IsLower (c : Char) : Prop := 'a' ≤ c ∧ c ≤ 'z'
/-- `A` to `Z`. -/
def IsUpper (c : Char) : Prop := 'A' ≤ c ∧ c ≤ 'Z'

/-- The bullets (in UTF-8): `•`, `-`, `–`, `+`. -/
def bullets : List (List Char) :=
  [[0xE2, 0x80, 0xA2].map Char.ofNat, ['-'], [0xE2, 0x80, 0x93].map Char.ofNat, ['+']]

/-- The item labels. -/
inductive ItemLabel : List Char → Prop where
  /-- `•`, `-`, `–`, `+` -/
  | bullet {w} : w ∈ bullets → ItemLabel w
  /-- `iv.`, `XII.` -/
  | romanDot {w r} : r ∈ romanNumerals → lowerCase w = r → ItemLabel (w ++ ['.'])
  /-- `(iv)`, `(XII)` -/
  | roman {w r} : r ∈ romanNumerals → lowerCase w = r → ItemLabel ('(' :: w ++ [')'])
  /-- `a.` -/
  | letterDot {c} : IsLower c → ItemLabel [c, '.']
  /-- `1.`, `2023.` -/
  | numberDot {ds} : ds ≠ [] → (∀ d ∈ ds, IsDigit d) → ItemLabel (ds ++ ['.'])
  /-- `(A)`, `(1)`, `[C12]`; the brackets need not fit together -/
  | bracket {o c ds x} : o ∈ ['(', '['] → IsLower c ∨ IsUpper c ∨ IsDigit c → ds.length ≤ 2 → (∀ d ∈ ds, IsDigit d) →
      x ∈ [')', ']'] → ItemLabel (o :: c :: ds ++ [x])
  /-- `[Bu2]`, `[Ch]` -/
  | citation {c cs} : IsUpper c → cs.length ≤ 5 → (∀ d ∈ cs, IsLower d ∨ IsUpper d ∨ IsDigit d) →
      ItemLabel ('[' :: c :: cs ++ [']'])
  /-- `A)`, `1)`, `a1)` -/
  | paren {c ds} : IsLower c ∨ IsUpper c ∨ IsDigit c → ds.length ≤ 1 → (∀ d ∈ ds, IsDigit d) →
      ItemLabel (c :: ds ++ [')'])
  /-- `PACS` -/
  | pacs {w} : lowerCase w = "pacs".toList → ItemLabel w
  /-- The numeral may be missing: `.` and `()`. -/
  | noNumeral {w} : w ∈ [['.'], ['(', ')']] → ItemLabel w

end Verif.Spec.Labels
