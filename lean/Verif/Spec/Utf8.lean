import Verif.Spec.EndToEnd

/-!
# Specification for C89: valid UTF-8
-/

namespace Verif.Spec

open Verif.Text (Str)

/-- The bytes are the UTF-8 encoding of some sequence of characters (Unicode scalar values), as Lean's own encoder writes it. -/
def IsUtf8 (s : Str) : Prop := ∃ t : List Char, s.map Char.toNat = EndToEnd.bytes t

end Verif.Spec
