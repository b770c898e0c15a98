import Verif.Spec.Json
import Verif.Model.Pipeline

/-!
# Specification for C87: the ids link the records of the JSONL output
-/

namespace Verif.Spec

open Verif.Serialize
open Verif.Text (Str)

/-- The value of a member of a JSON object, if it is a string. -/
def strMember (key : String) : JVal → Option Str
  | .obj ms => match ms.find? fun m => m.1 == key.toList with
    | some (_, .str t) => some t
    | _ => none
  | _ => none

/-- The records of a type. -/
def recordsOf (type : String) (vals : List JVal) : List JVal := vals.filter fun v => decide (strMember "type" v = some type.toList)

/-- The records whose member `key` is the id of the record `v`. -/
def linkedTo (key : String) (v : JVal) (vals : List JVal) : List JVal := vals.filter fun w => decide (strMember key w = strMember "id" v)

/-- The records whose id is the member `key` of the record `v`. -/
def referredBy (key : String) (v : JVal) (vals : List JVal) : List JVal := vals.filter fun w => decide (strMember "id" w = strMember key v)

/-- The texts of records. -/
def textsOf (vals : List JVal) : List Str := vals.map fun v => (strMember "text" v).getD []

/-- The words of a document. -/
def docWords (doc : SDoc) : List SWord := doc.pages.flatMap fun p => p.blocks.flatMap fun b => b.lines.flatMap (·.words)

/-- No two blocks and no two words have the same id. -/
structure DistinctIds (doc : SDoc) : Prop where
  blocks : ((doc.pages.flatMap (·.blocks)).map (·.id)).Nodup
  words : ((docWords doc).map (·.id)).Nodup

/-- A character without its id, colour and opacity. -/
def plainChar (c : SChar) : SChar := { c with id := [], color := (0, 0, 0), opacity := 1 }

/-- A word without its id and those of its characters. -/
def plainWord (w : SWord) : SWord := { w with id := [], chars := w.chars.map plainChar }

/-- A block without its id and those of its words. -/
def plainBlock (b : SBlock) : SBlock := { b with id := [], lines := b.lines.map fun l => ⟨l.words.map plainWord⟩ }

/-- A page without its size, the ids of its figures and shapes and the ranks of its shapes. -/
def plainPage (p : SPage) : SPage :=
  { pageNum := p.pageNum, blocks := p.blocks.map plainBlock, figures := p.figures.map fun f => { rank := f.rank, pos := f.pos }, shapes := p.shapes.map fun f => { pos := f.pos } }

/-- A document without everything that the model of the stages leaves out: the random ids, the colours, the size of the pages and whether a font is a Type 3 font. -/
def plainDoc (doc : SDoc) : SDoc :=
  { pages := doc.pages.map plainPage, fontInfos := fun f => (doc.fontInfos f).map fun i => { i with isType3 := false } }

/-- What the JSONL records with the units characters, words and blocks tell about each other. -/
structure Linked (vals : List JVal) : Prop where
  /-- The block a word refers to is exactly one record. -/
  wordBlock : ∀ w ∈ recordsOf "word" vals, ∃ b, referredBy "block" w (recordsOf "block" vals) = [b]
  /-- The word a character refers to is exactly one record, and both refer to the same block. -/
  charWord : ∀ c ∈ recordsOf "char" vals, ∃ w, referredBy "word" c (recordsOf "word" vals) = [w] ∧ strMember "block" w = strMember "block" c
  /-- The text of a block is the texts of the words that refer to it. -/
  blockText : ∀ b ∈ recordsOf "block" vals, strMember "text" b = some ([' '].intercalate (textsOf (linkedTo "block" b (recordsOf "word" vals))))
  /-- The text of a word is the texts of the characters that refer to it. -/
  wordText : ∀ w ∈ recordsOf "word" vals, strMember "text" w = some (textsOf (linkedTo "word" w (recordsOf "char" vals))).flatten

end Verif.Spec
