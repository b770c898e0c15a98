import Verif.Spec.Geometry
import Verif.Model.TextBlocks
import Mathlib.Logic.Relation

/-!
# Specification: when a text line starts a new block

The rules in words, with plain arithmetic (the model is imported for its data types only; the
regular expressions and the two text tests on sentence ends and capitals are those of C14).
-/

namespace Verif.Spec

open Verif.TextBlocks

/-- At least half of the interval between `lo` and `hi` lies between `lo'` and `hi'` (up to 0.0001). -/
def HalfCovered (lo hi lo' hi' : ℚ) : Prop :=
  1 / 2 - 1 / 10000 ≤ interLen (min lo hi) (max lo hi) (min lo' hi') (max lo' hi') / |hi - lo|

/-- The box lies in the figure: at least half of its width and half of its height. -/
def InFigure (e f : Box) : Prop :=
  HalfCovered e.leftX e.rightX f.leftX f.rightX ∧ HalfCovered e.upperY e.lowerY f.upperY f.lowerY

/-- Both boxes lie in the figure number `k` and in no earlier one. -/
def SameFigure (figures : List Box) (a b : Box) : Prop :=
  ∃ (k : ℕ) (f : Box), figures[k]? = some f ∧ InFigure a f ∧ InFigure b f ∧
    ∀ (j : ℕ) (g : Box), j < k → figures[j]? = some g → ¬ InFigure a g ∧ ¬ InFigure b g

/-- The result of a list of rules: each rule is a pair of conditions "the line starts a block" and
"the line continues the block" (the first one wins); the first rule that has an answer decides,
and if none has, the line continues the block. -/
def FirstAnswer : List (Prop × Prop) → Prop
  | [] => False
  | r :: rs => r.1 ∨ ¬ r.2 ∧ FirstAnswer rs

/-- The usual distance between lines of the font size: the most frequent one in the document, or
the most frequent one for that font size if that is larger. -/
def usualDistance (d : Doc) (fontSize : ℚ) : ℚ :=
  max (max 0 ((d.lineDistancePerFontSize fontSize).getD 0)) d.mostFreqLineDistance

/-- The first word of line `i` would have fit into the line `p` (which has room on its right). -/
def HadRoom (d : Doc) (s : State) (p i : ℕ) : Prop :=
  ∃ w, (d.line i).words.head? = some w ∧
    w.pos.rightX - w.pos.leftX + 2 * d.avgCharWidth < s.rightMargin p

/-- The line begins with a superscripted character that occurs in the alphabet (a text ends at its first zero byte), or with an item
label (regular expression). -/
def HasItemLabel (d : Doc) (i : ℕ) : Prop :=
  ∃ w c, (d.line i).words.head? = some w ∧ w.chars.head? = some c ∧
    ((c.isSuperscript = true ∧ beforeZero c.text <:+: superItemLabelAlphabet) ∨
      d.matchesItemRegex (d.line i).text = true)

/-- The text of the superscripts in front of the line. -/
def frontSuperscripts (d : Doc) (i : ℕ) : Option Text.Str :=
  (d.line i).words.head?.map fun w => ((w.chars.takeWhile (·.isSuperscript)).map (·.text)).flatten

/-- The line begins with a footnote label: with one of the labels, if labels are given, and with a
non-empty superscript otherwise. -/
def HasFootnoteLabel (d : Doc) (labels : Option (List Text.Str)) (i : ℕ) : Prop :=
  ∃ t, frontSuperscripts d i = some t ∧ match labels with
    | some ls => t ∈ ls
    | none => t ≠ []

/-- The line seems to continue the text of the line before: that line has no item label, the same
font, (almost) the same font size and left edge, overlaps vertically and does not end a sentence. -/
def ContinuesSentence (d : Doc) (s : State) (i : ℕ) : Prop :=
  ∃ p, s.prevLine i = some p ∧ ¬ HasItemLabel d p ∧ (d.line p).fontName = (d.line i).fontName ∧
    |(d.line p).fontSize - (d.line i).fontSize| ≤ 1 ∧
    Elements.computeVerticalGap (d.line p).pos (d.line i).pos ≤ 1 / 10000 ∧
    Text.endsWithSentenceDelimiter (d.line p).text = false ∧
    |(d.line p).pos.leftX - (d.line i).pos.leftX| ≤ d.avgCharWidth

/-- Line `j` begins with an item label whose font and font size are those of the first word of line
`i`. -/
def LabelledAlike (d : Doc) (i j : ℕ) : Prop :=
  HasItemLabel d j ∧ ∃ w w', (d.line i).words.head? = some w ∧ (d.line j).words.head? = some w' ∧
    w'.fontName = w.fontName ∧ |w'.fontSize - w.fontSize| ≤ 1

/-- The line is the first line of an item of an enumeration (or of a footnote): it begins with a
label, does not continue the sentence of the line before, and it is a footnote or one of its
sibling lines is labelled alike. -/
def StartsItem (d : Doc) (s : State) (labels : Option (List Text.Str)) (i : ℕ) : Prop :=
  (d.line i).words ≠ [] ∧ (HasItemLabel d i ∨ HasFootnoteLabel d labels i) ∧
  ¬ ContinuesSentence d s i ∧
  ((∃ j, ((d.link i).prevSibling = some j ∨ (d.link i).nextSibling = some j) ∧ LabelledAlike d i j) ∨
    HasFootnoteLabel d labels i)

/-- The line belongs to an item that an ancestor in the line hierarchy starts. -/
def ContinuesItem (d : Doc) (s : State) (labels : Option (List Text.Str)) (i : ℕ) : Prop :=
  ∃ a, Relation.TransGen (fun x y => (d.link x).parent = some y) i a ∧ StartsItem d s labels a

/-- The left edge of `i` is at most one character right and at most six characters left of that of
`p`. -/
def OffsetFits (d : Doc) (p i : ℕ) : Prop :=
  -d.avgCharWidth - 1 / 10000 ≤ (d.line p).pos.leftX - (d.line i).pos.leftX ∧
  (d.line p).pos.leftX - (d.line i).pos.leftX ≤ 6 * d.avgCharWidth + 1 / 10000

/-- A text in the given font is emphasised: its font is larger than the dominant one, or at least as
large and bolder or italic, or the text is in upper case. -/
def EmphasizedText (d : Doc) (fontName : Text.Str) (fontSize : ℚ) (text : Text.Str) : Prop :=
  ∃ docFont font, d.fontInfos d.mostFreqFontName = some docFont ∧ d.fontInfos fontName = some font ∧
    (d.mostFreqFontSize + 1 < fontSize ∨
     (d.mostFreqFontSize - 1 ≤ fontSize ∧ (docFont.weight + 100 < font.weight ∨ font.isItalic = true)) ∨
     ((∃ c ∈ text, 'A' ≤ c ∧ c ≤ 'Z') ∧ ∀ c ∈ text, ¬ ('a' ≤ c ∧ c ≤ 'z')))

/-- The line is emphasised. -/
def Emphasized (d : Doc) (l : TextLines.Line) : Prop := EmphasizedText d l.fontName l.fontSize l.text

/-- When the first pass starts a new block at line `i` with the line `p` before it: never if both
lie in the same figure, and otherwise if they differ in rotation, writing mode or (both most
frequent and largest) font size, or if their distance is positive and exceeds the usual distance
or the distance between `p` and the line before it. -/
def FirstPass (d : Doc) (s : State) (p i : ℕ) : Prop :=
  let prev := d.line p
  let line := d.line i
  let gap (a b : TextLines.Line) := Math.roundTo (Elements.computeVerticalGap a.pos b.pos) 1
  FirstAnswer [
    (False, SameFigure (d.figures line.pos.pageNum) prev.pos line.pos),
    (prev.pos.rotation ≠ line.pos.rotation, False),
    (prev.pos.wMode ≠ line.pos.wMode, False),
    (1 < |prev.fontSize - line.fontSize| ∧ 1 < |prev.maxFontSize - line.maxFontSize|, False),
    (1 / 10000 < gap prev line ∧
      usualDistance d line.fontSize + max 1 (usualDistance d line.fontSize / 10) < gap prev line,
      gap prev line ≤ 1 / 10000),
    (∃ pp, s.prevLine p = some pp ∧ gap (d.line pp) prev + d.mostFreqWordHeight / 2 < gap prev line,
      False)]

/-- When the second pass starts a new block at line `i` with the line `p` before it. -/
def SecondPass (d : Doc) (centered : Bool) (hangingIndent : ℚ) (s : State) (p i : ℕ) : Prop :=
  let labels := some s.labels
  let cw := d.avgCharWidth
  let ItemLine (x : ℕ) := StartsItem d s labels x ∨ ContinuesItem d s labels x
  let Far (x : ℕ) := 6 * cw + 1 / 10000 < s.leftMargin x
  FirstAnswer [
    -- lines of a centered block: only the first lines of items start a block
    (centered = true ∧ StartsItem d s none i, centered = true),
    -- items
    (StartsItem d s labels i ∨
      (ContinuesItem d s labels i ∧ (HadRoom d s p i ∨
        (¬ StartsItem d s labels p ∧ ContinuesItem d s labels p ∧ ¬ OffsetFits d p i))) ∨
      (ItemLine p ∧ ¬ ItemLine i ∧ HadRoom d s p i),
     ContinuesItem d s labels i ∨
      (ItemLine p ∧ Text.endsWithSentenceDelimiter (d.line p).text = false ∧
        Text.startsWithUpper (d.line i).text = false)),
    -- lines emphasised alike
    (False, Emphasized d (d.line p) ∧ Emphasized d (d.line i) ∧
      (d.line p).fontName = (d.line i).fontName ∧ |(d.line p).fontSize - (d.line i).fontSize| ≤ 1),
    -- blocks with a hanging indent
    (1 / 10000 < hangingIndent ∧
      (s.leftMargin i < hangingIndent - cw ∨
       (hangingIndent + cw < s.leftMargin p ∧ ¬ OffsetFits d p i) ∨
       (s.leftMargin p ≤ hangingIndent + cw ∧
         (hangingIndent + cw < s.leftMargin i ∨ HadRoom d s p i))),
     1 / 10000 < hangingIndent),
    -- indentation in other blocks
    (((Far i ∨ Far p) ∧ cw < |(d.line p).pos.leftX - (d.line i).pos.leftX|) ∨
      (¬ Far i ∧ ¬ Far p ∧ (cw - 1 / 10000 ≤ s.leftMargin i ∨ HadRoom d s p i)),
     Far i ∨ Far p)]

end Verif.Spec
