/-!
# Specification of text operations, independent of the model

Nothing here refers to the model or to the source code.
-/

namespace Verif.Spec

/-- `IsSplit d text words`: `words` are the maximal runs of non-delimiters of `text`, in order.
Before each word only delimiters are skipped, a word is non-empty and free of delimiters, and it is
followed by the end of the text or by a delimiter. -/
inductive IsSplit {α : Type} (d : α → Bool) : List α → List (List α) → Prop where
  | done (pre : List α) (hpre : ∀ c ∈ pre, d c = true) : IsSplit d pre []
  | word (pre w rest : List α) (ws : List (List α))
      (hpre : ∀ c ∈ pre, d c = true) (hne : w ≠ []) (hw : ∀ c ∈ w, d c = false)
      (hmax : ∀ c, rest.head? = some c → d c = true) (hrest : IsSplit d rest ws) :
      IsSplit d (pre ++ w ++ rest) (w :: ws)

/-- The value of a hexadecimal digit (RFC 8259: both cases are allowed). -/
def hexValue (c : Char) : Option Nat :=
  if 48 ≤ c.toNat ∧ c.toNat ≤ 57 then some (c.toNat - 48)
  else if 97 ≤ c.toNat ∧ c.toNat ≤ 102 then some (c.toNat - 87)
  else if 65 ≤ c.toNat ∧ c.toNat ≤ 70 then some (c.toNat - 55)
  else none

/-- The UTF-8 bytes of a code point below `2^16` (a byte is a `Char` below 256). -/
def utf8 (n : Nat) : List Char :=
  if n < 0x80 then [Char.ofNat n]
  else if n < 0x800 then [Char.ofNat (0xC0 + n / 64), Char.ofNat (0x80 + n % 64)]
  else [Char.ofNat (0xE0 + n / 4096), Char.ofNat (0x80 + n / 64 % 64), Char.ofNat (0x80 + n % 64)]

/-- The character meant by a two-character escape sequence (RFC 8259, section 7). -/
def simpleEscape (e : Char) : Option Char :=
  if e = '"' then some '"'
  else if e = '\\' then some '\\'
  else if e = '/' then some '/'
  else if e = 'b' then some (Char.ofNat 8)
  else if e = 'f' then some (Char.ofNat 12)
  else if e = 'n' then some (Char.ofNat 10)
  else if e = 'r' then some (Char.ofNat 13)
  else if e = 't' then some (Char.ofNat 9)
  else none

/-- Decoder for the inside of a JSON string token (RFC 8259, section 7), working on bytes.  Raw
control characters, unescaped quotes, unknown escapes and truncated escapes are rejected. -/
def decodeJson : List Char → Option (List Char)
  | [] => some []
  | '\\' :: 'u' :: a :: b :: c :: d :: rest =>
    match hexValue a, hexValue b, hexValue c, hexValue d, decodeJson rest with
    | some a, some b, some c, some d, some r => some (utf8 (4096 * a + 256 * b + 16 * c + d) ++ r)
    | _, _, _, _, _ => none
  | '\\' :: e :: rest =>
    match simpleEscape e, decodeJson rest with
    | some c, some r => some (c :: r)
    | _, _ => none
  | ['\\'] => none
  | c :: rest =>
    if c = '"' ∨ c.toNat < 32 then none
    else
      match decodeJson rest with
      | some r => some (c :: r)
      | none => none

/-- `interleave [p₀, …, pₙ] [s₁, …, sₙ] = p₀ s₁ p₁ … sₙ pₙ`. -/
def interleave {α : Type} : List (List α) → List α → List α
  | [], _ => []
  | p :: _, [] => p
  | p :: ps, s :: ss => p ++ s :: interleave ps ss

/-- `t` is `s` without its leading and trailing characters satisfying `sp`. -/
def IsTrim {α : Type} (sp : α → Bool) (s t : List α) : Prop :=
  ∃ a b, s = a ++ t ++ b ∧ (∀ c ∈ a, sp c = true) ∧ (∀ c ∈ b, sp c = true) ∧
    (∀ c, t.head? = some c → sp c = false) ∧ (∀ c, t.getLast? = some c → sp c = false)

end Verif.Spec
