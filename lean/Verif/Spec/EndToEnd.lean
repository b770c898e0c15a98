import Verif.Spec.Parsing
import Verif.Model.EndToEnd

/-!
# From the drawing operations to the printed text: what the user expects
-/

namespace Verif.Spec.EndToEnd

open Verif Verif.Parsing Verif.Spec.Parsing
open Verif.Text (Str)

/-- The numbers and the (rounded) clip boxes of the pages, in the order in which they are started. -/
def pageStarts : List Event → List (ℤ × Clip)
  | [] => []
  | .startPage n c :: es => (n, c.round) :: pageStarts es
  | _ :: es => pageStarts es

/-- The pages are numbered 1, 2, 3, ... -/
def NumberedFromOne (es : List Event) : Prop :=
  ∀ (k : ℕ) (n : ℤ) (c : Clip), (pageStarts es)[k]? = some (n, c) → n = k + 1

/-- The character of a drawn item if it is one that is drawn on the page `k` under the clip box `clip`. -/
def charOn (k : ℕ) (clip : Clip) (i : Item) : Option PChar :=
  match i.elem with
  | .char c => if i.page = k ∧ SameClip i.clip clip then some c else none
  | _ => none

/-- The characters drawn on the page `k` (counted from 0) under the page's own clip box, in the order of drawing. -/
def pageChars (t : Tables) (es : List Event) (k : ℕ) (clip : Clip) : List PChar :=
  (history t {} es).filterMap (charOn k clip)

/-- The texts that are drawn on the pages, page by page. -/
def pageTexts (t : Tables) (es : List Event) : List Str :=
  (pageStarts es).mapIdx fun k p => (pageChars t es k p.2).flatMap (·.text)

/-- A number from the least to the greatest positive normal number. -/
def Positive (x : ℚ) : Prop := Math.dblMin ≤ x ∧ x ≤ Math.dblMax

/-- The characters that are drawn on the pages lie to the right of and below the upper left corner of the page and are not arbitrarily small. -/
def InPage (t : Tables) (es : List Event) : Prop :=
  ∀ k n clip, (pageStarts es)[k]? = some (n, clip) → ∀ c ∈ pageChars t es k clip,
    Positive c.pos.leftX ∧ Positive c.pos.upperY ∧ Positive c.pos.rightX ∧ Positive c.pos.lowerY ∧ Math.dblMin + Math.tol < c.fontSize

/-- The UTF-8 bytes of a text. -/
def bytes (t : Str) : List ℕ := t.flatMap fun c => (String.utf8EncodeChar c).map UInt8.toNat

end Verif.Spec.EndToEnd
