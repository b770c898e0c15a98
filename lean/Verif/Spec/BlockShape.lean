import Verif.Spec.Geometry
import Verif.Spec.Frequency
import Verif.Model.TextBlocks

/-!
# Specification: what block detection finds out about a block

Centering, margins, hanging indent and footnote labels in words, with plain arithmetic and without
loops (the model is imported for its data types and for the alphabet of footnote labels only).
-/

namespace Verif.Spec

open Verif.TextBlocks

/-! ## Centered lines -/

/-- The distance of the left edges of two lines. -/
def leftDist (a b : Box) : ℚ := |a.leftX - b.leftX|

/-- The distance of the right edges of two lines. -/
def rightDist (a b : Box) : ℚ := |a.rightX - b.rightX|

/-- Two lines are centered: one of them covers (almost) all of the other horizontally, and they are
indented by (almost) the same amount on both sides. -/
def CenteredPair (cw : ℚ) (a b : Box) : Prop :=
  99 / 100 - 1 / 10000 ≤ max
    (interLen (min a.leftX a.rightX) (max a.leftX a.rightX) (min b.leftX b.rightX) (max b.leftX b.rightX)
      / |a.rightX - a.leftX|)
    (interLen (min a.leftX a.rightX) (max a.leftX a.rightX) (min b.leftX b.rightX) (max b.leftX b.rightX)
      / |b.rightX - b.leftX|) ∧
  |leftDist a b - rightDist a b| ≤ 2 * cw

/-- Two lines that are visibly indented against each other and contain no formula. -/
def Staggered (cw : ℚ) (a b : TextLines.Line) : Prop :=
  '=' ∉ a.text ∧ '+' ∉ a.text ∧ '=' ∉ b.text ∧ '+' ∉ b.text ∧
  (2 * cw + 1 / 10000 < leftDist a.pos b.pos ∨ 2 * cw + 1 / 10000 < rightDist a.pos b.pos)

/-- The pairs of consecutive elements. -/
def pairs {α : Type} (xs : List α) : List (α × α) := xs.zip xs.tail

open Classical in
/-- The lines are centered: all consecutive lines are, some of them visibly, and at most five are
not. -/
def LinesCentered (cw : ℚ) (ls : List TextLines.Line) : Prop :=
  (∀ p ∈ pairs ls, CenteredPair cw p.1.pos p.2.pos) ∧
  (∃ p ∈ pairs ls, Staggered cw p.1 p.2) ∧
  ((pairs ls).filter fun p => decide (¬ Staggered cw p.1 p.2)).length ≤ 5

/-! ## Margins -/

/-- The block lies in the middle of its segment (up to one average character width). -/
def MidSegment (d : Doc) (b : Block) : Prop :=
  ∀ f, b.lines.head? = some f →
    |(b.pos.leftX - (d.seg f).pos.leftX) - ((d.seg f).pos.rightX - b.pos.rightX)| ≤ d.avgCharWidth

open Classical in
/-- The right edge from which the right margins of the lines of block `b` (in the list `bs`) are
measured: the right edge of its trim box; for a block of two lines that is not in the middle of its
segment, that of the block before, if that is further right. -/
noncomputable def rightEdge (d : Doc) (bs : List Block) (b : Block) : ℚ :=
  if b.lines.length = 2 ∧ ¬ MidSegment d b then
    ((b.prevBlock.bind (bs[·]?)).map fun p => max b.trimRightX p.trimRightX).getD b.trimRightX
  else b.trimRightX

/-! ## Hanging indents

`l`, `r` are the left and right margins of the lines. -/

/-- The margins that are at least one average character width. -/
def largeMargins (cw : ℚ) (l : ℕ → ℚ) (lines : List ℕ) : List ℚ :=
  (lines.map l).filter fun m => decide (cw - 1 / 10000 ≤ m)

/-- More than half of the lines with a large left margin have the left margin `m`. -/
def MajorityMargin (cw : ℚ) (l : ℕ → ℚ) (lines : List ℕ) (m : ℚ) : Prop :=
  ((largeMargins cw l lines).length : ℚ) / 2 + 1 / 10000 < occurrences (largeMargins cw l lines) m

/-- The lines that are considered: those of at least three bytes that are not centered. -/
def Considered (d : Doc) (l r : ℕ → ℚ) (i : ℕ) : Prop :=
  3 ≤ (d.line i).text.length ∧ ¬ (|l i - r i| ≤ d.avgCharWidth ∧ d.avgCharWidth + 1 / 10000 < l i)

/-- The line starts with a lower case letter. -/
def StartsLower (d : Doc) (i : ℕ) : Prop :=
  ∃ c, (d.line i).text.head? = some c ∧ 'a' ≤ c ∧ c ≤ 'z'

/-- The line starts with a prefix of a surname. -/
def StartsWithNamePrefix (d : Doc) (i : ℕ) : Prop :=
  ∃ w, (d.line i).words.head? = some w ∧
    (w.text = "van".toList ∨ w.text = "von".toList ∨ w.text = "de".toList)

open Classical in
/-- The lines have a hanging indent of `m`: some line is indented by `m`; every line that is not
indented starts with an upper case letter (or a prefix of a surname); and
* exactly the lines after the first one are indented, and the first word of the second line would
  not have fit into the first line, or
* ten lines are not indented, or
* four lines are not too short, and some indented line starts with a lower case letter. -/
def Hangs (d : Doc) (l r : ℕ → ℚ) (lines : List ℕ) (m : ℚ) : Prop :=
  let Indented (i : ℕ) := Considered d l r i ∧ |l i - m| ≤ d.avgCharWidth
  let NotIndented (i : ℕ) := Considered d l r i ∧ |l i| ≤ d.avgCharWidth
  (∃ i ∈ lines, Indented i) ∧
  (∀ i ∈ lines, NotIndented i → StartsLower d i → StartsWithNamePrefix d i) ∧
  (((∀ i, lines[0]? = some i → ¬ Indented i) ∧
    (∀ i j, lines[0]? = some i → lines[1]? = some j → Considered d l r j →
      ¬ ∃ w, (d.line j).words.head? = some w ∧ w.pos.rightX - w.pos.leftX + 2 * d.avgCharWidth < r i) ∧
    (∀ i ∈ lines.tail, Considered d l r i → Indented i)) ∨
   10 ≤ (lines.filter fun i => decide (NotIndented i)).length ∨
   (4 ≤ (lines.filter fun i => decide (3 ≤ (d.line i).text.length)).length ∧
    ∃ i ∈ lines, Indented i ∧ StartsLower d i))

/-- The hanging indent of the lines: the margin of the majority of the indented lines if the lines
hang by it, and 0 otherwise. -/
def HangingIndentIs (d : Doc) (l r : ℕ → ℚ) (lines : List ℕ) (hi : ℚ) : Prop :=
  (MajorityMargin d.avgCharWidth l lines hi ∧ Hangs d l r lines hi) ∨
  (hi = 0 ∧ ∀ m, MajorityMargin d.avgCharWidth l lines m → ¬ Hangs d l r lines m)

/-! ## Footnote labels -/

/-- The characters behind the first character that is neither a subscript nor a superscript; those
without text do not count. -/
def behindBase (cs : List Words.Glyph) : List Words.Glyph :=
  ((cs.dropWhile fun c => c.isSubscript || c.isSuperscript).tail).filter fun c => !c.text.isEmpty

/-- The UTF-8 bytes of the special footnote labels. -/
def specialLabelBytes : Text.Str :=
  ("*∗†‡§‖¶?".toList.flatMap String.utf8EncodeChar).map fun b => Char.ofNat b.toNat

/-- The character may be part of a footnote label: its first byte occurs among the bytes of the special
labels, or it is a superscripted letter or digit. -/
def LabelChar (c : Words.Glyph) : Prop :=
  ∃ x, c.text.head? = some x ∧ (x ∈ specialLabelBytes ∨
    c.isSuperscript = true ∧ (('A' ≤ x ∧ x ≤ 'Z') ∨ ('a' ≤ x ∧ x ≤ 'z') ∨ ('0' ≤ x ∧ x ≤ '9')))

/-- `label` is a longest run of label characters behind the base of the word. -/
def LabelOf (w : Words.Word) (label : Text.Str) : Prop :=
  ∃ a run b, behindBase w.chars = a ++ run ++ b ∧ run ≠ [] ∧ (∀ c ∈ run, LabelChar c) ∧
    (∀ x, a.getLast? = some x → ¬ LabelChar x) ∧ (∀ x, b.head? = some x → ¬ LabelChar x) ∧
    label = (run.map (·.text)).flatten

/-! ## The state in which a line is judged -/

open Classical in
/-- The state in which the lines `done` are in their final blocks (as in `s'`), the other ones
still in the preliminary blocks (as in `s1`), and `labels` are the footnote labels seen so far. -/
noncomputable def stateAt (done : List ℕ) (s1 s' : State) (labels : List Text.Str) : State where
  prevLine x := if x ∈ done then s'.prevLine x else s1.prevLine x
  nextLine x := if x ∈ done then s'.nextLine x else s1.nextLine x
  leftMargin x := if x ∈ done then s'.leftMargin x else s1.leftMargin x
  rightMargin x := if x ∈ done then s'.rightMargin x else s1.rightMargin x
  labels := labels

end Verif.Spec
