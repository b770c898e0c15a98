import Verif.Spec.Text

/-!
# The grammar of JSON (RFC 8259), independent of the model
-/

namespace Verif.Spec

/-- A JSON value; a number is given by its token. -/
inductive JVal where
  | null
  | bool (b : Bool)
  | num (token : List Char)
  | str (s : List Char)
  | arr (vs : List JVal)
  | obj (ms : List (List Char × JVal))

/-- A decimal digit. -/
def IsDigit (c : Char) : Prop := 48 ≤ c.toNat ∧ c.toNat ≤ 57

/-- The number tokens of JSON (RFC 8259, section 6):
`[ "-" ] ( "0" / digit1-9 *digit ) [ "." 1*digit ] [ ( "e" / "E" ) [ "-" / "+" ] 1*digit ]`. -/
def IsNumber (s : List Char) : Prop :=
  ∃ sign int frac exp, s = sign ++ int ++ frac ++ exp ∧
    (sign = [] ∨ sign = ['-']) ∧
    (int = ['0'] ∨ ∃ d ds, int = d :: ds ∧ d ≠ '0' ∧ IsDigit d ∧ ∀ c ∈ ds, IsDigit c) ∧
    (frac = [] ∨ ∃ ds, frac = '.' :: ds ∧ ds ≠ [] ∧ ∀ c ∈ ds, IsDigit c) ∧
    (exp = [] ∨ ∃ e sg ds, exp = e :: (sg ++ ds) ∧ (e = 'e' ∨ e = 'E') ∧ (sg = [] ∨ sg = ['-'] ∨ sg = ['+']) ∧
      ds ≠ [] ∧ ∀ c ∈ ds, IsDigit c)

/-- Insignificant white space. -/
def IsWs (s : List Char) : Prop := ∀ c ∈ s, c = ' ' ∨ c = '\t' ∨ c = '\n' ∨ c = '\r'

/-- What a text is parsed as. -/
inductive JKind where
  | value | elements | members

/-- `Parses .value s v`: the text `s` is a JSON text for the value `v`. (`.elements` and `.members` are the inside of an array and
of an object.) -/
inductive Parses : JKind → List Char → JVal → Prop where
  | null : Parses .value "null".toList .null
  | true : Parses .value "true".toList (.bool true)
  | false : Parses .value "false".toList (.bool false)
  | num {s} : IsNumber s → Parses .value s (.num s)
  | str {s t} : decodeJson s = some t → Parses .value ('"' :: s ++ ['"']) (.str t)
  | arrEmpty {w} : IsWs w → Parses .value ('[' :: w ++ [']']) (.arr [])
  | arr {s vs} : Parses .elements s (.arr vs) → Parses .value ('[' :: s ++ [']']) (.arr vs)
  | objEmpty {w} : IsWs w → Parses .value ('{' :: w ++ ['}']) (.obj [])
  | obj {s ms} : Parses .members s (.obj ms) → Parses .value ('{' :: s ++ ['}']) (.obj ms)
  | element {a s b v} : IsWs a → Parses .value s v → IsWs b → Parses .elements (a ++ s ++ b) (.arr [v])
  | elements {a s b v rest vs} : IsWs a → Parses .value s v → IsWs b → Parses .elements rest (.arr vs) →
      Parses .elements (a ++ s ++ b ++ ',' :: rest) (.arr (v :: vs))
  | member {a k key b c s d v} : IsWs a → decodeJson k = some key → IsWs b → IsWs c → Parses .value s v → IsWs d →
      Parses .members (a ++ '"' :: k ++ '"' :: b ++ ':' :: c ++ s ++ d) (.obj [(key, v)])
  | members {a k key b c s d v rest ms} : IsWs a → decodeJson k = some key → IsWs b → IsWs c → Parses .value s v →
      IsWs d → Parses .members rest (.obj ms) →
      Parses .members (a ++ '"' :: k ++ '"' :: b ++ ':' :: c ++ s ++ d ++ ',' :: rest) (.obj ((key, v) :: ms))

end Verif.Spec
