import Verif.Model.EmbeddedFont
import Verif.Spec.FontInfo
import Verif.Spec.GlyphTable
import Verif.Spec.Parsing
import Verif.Spec.Type1

/-!
# An embedded Type 1 font file, as its format describes it
-/

namespace Verif.Spec.EmbeddedFont

open Verif Verif.Spec Verif.Spec.Type1 Verif.Spec.GlyphTable
open Verif.EmbeddedFont (FontFile)
open Verif.Text (Str)

/-- The file consists of a clear-text part, an encrypted part in binary form with the plain text `plain` behind four arbitrary bytes,
and a trailer; either without segment headers and with the two lengths in the dictionary, or with segment headers (PFB).  As the
format demands, the encrypted part of a file without headers does not begin with four hexadecimal digits. -/
inductive WrittenAs : FontFile → List ℕ → List ℕ → Prop where
  | bare (clear lead plain trailer : List ℕ) : clear ≠ [] → lead.length = 4 → (∀ b ∈ lead ++ plain ++ trailer, b < 256) →
      ¬ [128, 1] <+: clear ++ encrypt 55665 (lead ++ plain) ++ trailer →
      (∃ c ∈ (encrypt 55665 (lead ++ plain)).take 4, c ∉ hexDigits) → ¬ [128, 2] <+: encrypt 55665 (lead ++ plain) →
      WrittenAs ⟨some clear.length, some (lead ++ plain).length, clear ++ encrypt 55665 (lead ++ plain) ++ trailer⟩ clear plain
  | pfb (clear lead plain trailer : List ℕ) (length1 length2 : ℤ) : clear ≠ [] → lead.length = 4 →
      (∀ b ∈ lead ++ plain ++ trailer, b < 256) → clear.length < 2147483648 → (lead ++ plain).length < 2147483648 →
      ((lead ++ plain).length : ℤ) ≤ length2 →
      WrittenAs ⟨some length1, some length2, [128, 1] ++ lengthBytes clear.length ++ clear ++
        ([128, 2] ++ lengthBytes (lead ++ plain).length ++ encrypt 55665 (lead ++ plain) ++ trailer)⟩ clear plain

/-- A font file with the given lines in its clear-text part and the given outlines of its glyphs, in the order of the file: each glyph
is a program of the Type 1 format that draws its outline, possibly with the help of the subroutines `sub`, within 32-bit coordinates. -/
def IsFont (file : FontFile) (lines : List Str) (outlines : List (List ℕ × List Seg)) : Prop :=
  ∃ clear plain subrs glyphs, ∃ sub : ℕ → Option (List Tok), WrittenAs file clear plain ∧ IsLines lines (clear.map Char.ofNat) ∧
    PrivatePart plain subrs glyphs ∧
    (∀ i toks, sub i = some toks → ∃ bs, lastWith i subrs = some bs ∧ Encodes toks bs) ∧
    List.Forall₂ (fun g o => g.1 = o.1 ∧ (∃ toks, Encodes toks g.2 ∧ IsGlyph (fun i => if 0 ≤ i then sub i.toNat else none) toks o.2) ∧
      ∀ p ∈ points o.2, IsInt32 p.1 ∧ IsInt32 p.2) glyphs outlines

/-- The last matrix entry of the lines has six numbers, as `numbers` reads them, those of `m`; earlier ones don't have more. -/
def HasMatrix (numbers : Str → List ℚ) (lines : List Str) (m : Parsing.Mat) : Prop :=
  ∃ before line after text, lines = before ++ line :: after ∧ MatrixEntry line text ∧
    numbers text = [m.m0, m.m1, m.m2, m.m3, m.m4, m.m5] ∧
    (∀ l ∈ before, ∀ t, MatrixEntry l t → (numbers t).length ≤ 6) ∧ ∀ l ∈ after, ∀ t, ¬ MatrixEntry l t

/-- Where a point of the glyph space is drawn on the page: through the font matrix and the text rendering matrix. -/
def drawnAt (m : Parsing.Mat) (ev : Parsing.CharEvent) (p : ℚ × ℚ) : ℚ × ℚ :=
  Parsing.apply (Parsing.renderMatrix ev) (Parsing.apply m p)

/-- The least and the greatest value of a coordinate of the drawn points that define an outline. -/
def Extent (segs : List Seg) (k : ℚ × ℚ → ℚ) (low high : ℚ) : Prop :=
  IsLeastOf (points segs) (fun p => k ((p.1 : ℚ), (p.2 : ℚ))) low ∧ IsGreatestOf (points segs) (fun p => k ((p.1 : ℚ), (p.2 : ℚ))) high

/-- The outline contains the point. -/
def OnOutline (segs : List Seg) (p : ℚ × ℚ) : Prop := ∃ g ∈ segs, g.On p.1 p.2

end Verif.Spec.EmbeddedFont
