import Verif.Model.Box
import Verif.Model.Outcome
import Verif.Model.Text
import Verif.Model.ReadingOrder

/-!
# Model of `/repo/src/SemanticRolesPrediction.cpp`

The neural network is a parameter (its output is any list of numbers).  `float` is modelled by `ℚ`,
NaN by `none` in the output of the network.
-/

namespace Verif.Roles

open Verif.Text

export Verif.ReadingOrder (Role)

/-- `SemanticRole(number)`, the enumerators of `/repo/src/Types.h:69-84` in their order; a number
without enumerator is kept as `none` (the cast itself is defined for a scoped enumeration). -/
def ofNumber : ℕ → Option Role
  | 0 => some .paragraph
  | 1 => some .reference
  | 2 => some .marginal
  | 3 => some .footnote
  | 4 => some .heading
  | 5 => some .formula
  | 6 => some .title
  | 7 => some .authorInfo
  | 8 => some .abstract
  | 9 => some .date
  | 10 => some .caption
  | 11 => some .table
  | 12 => some .other
  | 13 => some .toc
  | _ => none

/-- The comparison `x > maxProb` of `/repo/src/SemanticRolesPrediction.cpp:158`: false for NaN. -/
def greater (x : Option ℚ) (maxProb : ℚ) : Bool :=
  match x with
  | none => false
  | some q => decide (q > maxProb)

/-- The loop over the roles, `/repo/src/SemanticRolesPrediction.cpp:157-162`; `k` is the number of
roles that are left, `roleNum` the next one.  Reading behind the end of the vector is undefined. -/
def argmaxLoop (data : List (Option ℚ)) (offset : ℕ) : ℕ → ℕ → ℚ → ℕ → Outcome ℕ
  | 0, _, _, best => .ok best
  | k + 1, roleNum, maxProb, best =>
    match data[offset + roleNum]? with
    | none => .ub "outputData out of range"
    | some x =>
      if greater x maxProb then argmaxLoop data offset k (roleNum + 1) (x.getD 0) roleNum
      else argmaxLoop data offset k (roleNum + 1) maxProb best

/-- The loop over the blocks (of all pages), `/repo/src/SemanticRolesPrediction.cpp:151-167`:
the numbers of the roles of blocks `blockIndex`, `blockIndex + 1`, ... (`n` blocks). -/
def predictLoop (data : List (Option ℚ)) (yDim : ℕ) : ℕ → ℕ → Outcome (List ℕ)
  | 0, _ => .ok []
  | n + 1, blockIndex =>
    (argmaxLoop data (blockIndex * yDim) yDim 0 0 0).bind fun r =>
    (predictLoop data yDim n (blockIndex + 1)).bind fun rs => .ok (r :: rs)

/-- `predict`, `/repo/src/SemanticRolesPrediction.cpp:130-168`, after the network was applied: the roles
of the blocks of the pages with the given numbers of blocks, in order. -/
def predict (data : List (Option ℚ)) (yDim : ℕ) (numBlocks : ℕ) : Outcome (List (Option Role)) :=
  (predictLoop data yDim numBlocks 0).bind fun rs => .ok (rs.map ofNumber)

/-! ### The layout features -/

/-- Character classes of the wide character functions (`iswdigit`, `iswupper`, `iswpunct`, `iswspace`)
in the current locale, used in `/repo/src/SemanticRolesPrediction.cpp:268-309`: any functions. -/
structure CharClasses where
  isDigit : Char → Bool
  isUpper : Char → Bool
  isPunct : Char → Bool
  isSpace : Char → Bool
  /-- `isupper` of `<ctype.h>` for the values 0 to 255. -/
  isUpperByte : ℕ → Bool

/-- The fields of a text block that are read, `/repo/src/Types.h:744-805`; the texts are already
converted to wide strings (`/repo/src/SemanticRolesPrediction.cpp:204,340`). -/
structure FBlock where
  pos : Box
  fontName : Str
  fontSize : ℚ
  text : List Char
  words : List (List Char)

/-- A page: width and height (`/repo/src/Types.cpp:569-576`) and its blocks. -/
structure FPage where
  width : ℚ
  height : ℚ
  blocks : List FBlock

/-- `numeric_limits<float>::max()`, `/repo/src/SemanticRolesPrediction.cpp:176`. -/
def fltMax : ℚ := (2 ^ 24 - 1) * 2 ^ 104

/-- `numeric_limits<float>::min()`, `/repo/src/SemanticRolesPrediction.cpp:177`. -/
def fltMin : ℚ := 1 / 2 ^ 126

/-- The smallest and largest font size, `/repo/src/SemanticRolesPrediction.cpp:176-191`. -/
def fontSizeRange (blocks : List FBlock) : ℚ × ℚ :=
  blocks.foldl (fun (r : ℚ × ℚ) b =>
    (if b.fontSize < r.1 then b.fontSize else r.1, if b.fontSize > r.2 then b.fontSize else r.2))
    (fltMax, fltMin)

/-- `static_cast<unsigned char>(c) > 127`, `/repo/src/SemanticRolesPrediction.cpp:293`. -/
def countsAsNonAscii (c : Char) : Bool := decide (c.toNat % 256 > 127)

/-- Number of characters with a property, `/repo/src/SemanticRolesPrediction.cpp:279-305`. -/
def numWith (p : Char → Bool) (text : List Char) : ℕ := (text.filter p).length

/-- A quotient of two counts, 0 if the second one is 0,
e.g. `/repo/src/SemanticRolesPrediction.cpp:310-314`. -/
def share (n d : ℕ) : ℚ := if d > 0 then (n : ℚ) / d else 0

/-- The number of words that start with an upper-case character,
`/repo/src/SemanticRolesPrediction.cpp:335-347`.  `isupper` is undefined for values that do not fit
into an `unsigned char`. -/
def upperWords (cc : CharClasses) : List (List Char) → Outcome ℕ
  | [] => .ok 0
  | w :: ws =>
    (match w with
      | [] => Outcome.ok 0
      | c :: _ => if c.toNat > 255 then .ub "isupper of a value above UCHAR_MAX"
        else .ok (if cc.isUpperByte c.toNat then 1 else 0)).bind fun k =>
    (upperWords cc ws).bind fun n => .ok (k + n)

/-- The 15 values for one block, `/repo/src/SemanticRolesPrediction.cpp:199-365`.  `fontInfos` gives
weight and `isItalic` of a font; `at` throws for an unknown font. -/
def layoutFeatures (cc : CharClasses) (fontInfos : Str → Option (ℚ × Bool)) (numPages : ℕ)
    (minFs maxFs : ℚ) (page : FPage) (b : FBlock) : Outcome (List ℚ) :=
  match fontInfos b.fontName with
  | none => .throw "out_of_range"
  | some info =>
    (upperWords cc b.words).bind fun upper =>
    let nonSpace := numWith (fun c => !cc.isSpace c) b.text
    .ok [
      if numPages > 1 then ((b.pos.pageNum - 1 : ℤ) : ℚ) / ((numPages : ℚ) - 1) else 0,
      if page.width > 0 then b.pos.leftX / page.width else 0,
      if page.height > 0 then (page.height - b.pos.lowerY) / page.height else 0,
      if page.width > 0 then b.pos.rightX / page.width else 0,
      if page.height > 0 then (page.height - b.pos.upperY) / page.height else 0,
      if minFs < maxFs then (b.fontSize - minFs) / (maxFs - minFs) else 0,
      if info.1 > 500 then 1 else 0,
      if info.2 then 1 else 0,
      if b.text.contains '@' then 1 else 0,
      match b.text with
        | [] => 0
        | c :: _ => if cc.isDigit c then 1 else 0,
      share (numWith cc.isDigit b.text) nonSpace,
      share (numWith countsAsNonAscii b.text) nonSpace,
      share (numWith cc.isPunct b.text) nonSpace,
      share upper b.words.length,
      share (numWith cc.isUpper b.text) nonSpace ]

/-- Values for the blocks of one page, `/repo/src/SemanticRolesPrediction.cpp:200-366`. -/
def pageFeatures (f : FPage → FBlock → Outcome (List ℚ)) (page : FPage) : List FBlock → Outcome (List ℚ)
  | [] => .ok []
  | b :: bs => (f page b).bind fun x => (pageFeatures f page bs).bind fun xs => .ok (x ++ xs)

/-- Values for all pages, `/repo/src/SemanticRolesPrediction.cpp:199-367`. -/
def docFeatures (f : FPage → FBlock → Outcome (List ℚ)) : List FPage → Outcome (List ℚ)
  | [] => .ok []
  | p :: ps => (pageFeatures f p p.blocks).bind fun x => (docFeatures f ps).bind fun xs => .ok (x ++ xs)

/-- `createLayoutInputTensor`, `/repo/src/SemanticRolesPrediction.cpp:171-371`: number of rows (blocks)
and the values. -/
def layoutTensor (cc : CharClasses) (fontInfos : Str → Option (ℚ × Bool)) (pages : List FPage) :
    Outcome (ℕ × List ℚ) :=
  let blocks := pages.flatMap (·.blocks)
  let r := fontSizeRange blocks
  (docFeatures (layoutFeatures cc fontInfos pages.length r.1 r.2) pages).bind fun xs =>
    .ok (blocks.length, xs)

end Verif.Roles
