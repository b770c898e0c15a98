import Verif.Spec.Links

/-!
# Specification: what a JSONL record tells about a paragraph, word or character of a typed page
-/

namespace Verif.Spec

open Verif.Serialize

/-- The digits of the number member of a JSON object with the given key. -/
def numMember (key : String) : JVal → Option (List Char)
  | .obj ms => match ms.find? fun m => m.1 == key.toList with
    | some (_, .num t) => some t
    | _ => none
  | _ => none

/-- The record has the given type, text and corners (left, upper, right, lower), names the font of the page, its size and the number of the page. -/
structure Tells (P : Printer) (type text : List Char) (c : ℕ × ℕ × ℕ × ℕ) (v : JVal) : Prop where
  type : strMember "type" v = some type
  text : strMember "text" v = some text
  font : strMember "font" v = some ['F']
  size : numMember "fontSize" v = some (P.dbl 10)
  page : numMember "page" v = some (P.int 1)
  minX : numMember "minX" v = some (P.dbl c.1)
  minY : numMember "minY" v = some (P.dbl c.2.1)
  maxX : numMember "maxX" v = some (P.dbl c.2.2.1)
  maxY : numMember "maxY" v = some (P.dbl c.2.2.2)

end Verif.Spec
