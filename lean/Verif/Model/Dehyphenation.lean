import Verif.Model.Serializers

/-!
# Model of `/repo/src/WordsDehyphenation.cpp`

The words of a document are objects shared by pointers; the module sets the two pointers
`isFirstPartOfHyphenatedWord` and `isSecondPartOfHyphenatedWord` of some words. The model keeps these pointers in two maps from the
address (`uid`) of a word, and writes them back at the end.
-/

namespace Verif.Dehyphenation

open Verif.Text Verif.Serialize

/-- `isFirstPartOfHyphenatedWord` (with the text of the merged word) and `isSecondPartOfHyphenatedWord` of all words,
`/repo/src/Types.h:590-604`. -/
structure Flags where
  first : ℕ → Option Str
  second : ℕ → Bool

/-- The text of the merged word if the last word of the previous line is hyphenated,
`/repo/src/WordsDehyphenation.cpp:51-68`: the text without its last character (a byte), followed by the text of the first word. -/
def mergedText (last first : Str) : Option Str :=
  if last.length > 1 ∧ last.getLast? = some '-' then some (last.take (last.length - 1) ++ first) else none

/-- One iteration over a line, `/repo/src/WordsDehyphenation.cpp:43-76`. The state is the flags and `prevLine`. -/
def step (st : Flags × Option SLine) (line : SLine) : Flags × Option SLine :=
  match line.words with
  | [] => st
  | w :: _ =>
    match st.2 with
    | none => (st.1, some line)
    | some prev =>
      match prev.words.getLast? with
      | none => (st.1, some line)
      | some p =>
        match mergedText p.text w.text with
        | none => (st.1, some line)
        | some t =>
          ({ first := Function.update st.1.first p.uid (some t),
             second := Function.update st.1.second w.uid true }, some line)

/-- All lines in the order of the loops, `/repo/src/WordsDehyphenation.cpp:41-43`. -/
def allLines (doc : SDoc) : List SLine := doc.pages.flatMap fun p => p.blocks.flatMap (·.lines)

/-- The flags before the run. -/
def initFlags (doc : SDoc) : Flags where
  first u := (((allLines doc).flatMap (·.words)).find? fun w => w.uid == u).bind (·.first)
  second u := (((allLines doc).flatMap (·.words)).find? fun w => w.uid == u).any (·.second)

/-- Writing the flags back to the words of a line. -/
def SLine.setFlags (f : Flags) (l : SLine) : SLine :=
  { words := l.words.map fun w => { w with first := f.first w.uid, second := f.second w.uid } }

/-- `WordsDehyphenation::process`, `/repo/src/WordsDehyphenation.cpp:37-80`. -/
def process (doc : SDoc) : SDoc :=
  let f := ((allLines doc).foldl step (initFlags doc, none)).1
  { doc with pages := doc.pages.map fun p => { p with blocks := p.blocks.map fun b =>
      { b with lines := b.lines.map (SLine.setFlags f) } } }

end Verif.Dehyphenation
