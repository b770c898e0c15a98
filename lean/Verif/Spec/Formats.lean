import Verif.Spec.Json
import Verif.Model.Pipeline

/-!
# Specification for C84: the output formats tell the same text
-/

namespace Verif.Spec

open Verif.Pipeline

/-- The text member of a JSON object. -/
def textMember : JVal → Option (List Char)
  | .obj ms => match ms.find? fun m => m.1 == "text".toList with
    | some (_, .str t) => some t
    | _ => none
  | _ => none

/-- No line of a block ends with a word that ends with a hyphen and is more than the hyphen. -/
def NoHyphenAtLineEnd (d : Document) : Prop :=
  ∀ p ∈ (toSDoc d).pages, ∀ b ∈ p.blocks, ∀ l ∈ b.lines, ∀ w, l.words.getLast? = some w → ¬ (2 ≤ w.text.length ∧ w.text.getLast? = some '-')

end Verif.Spec
