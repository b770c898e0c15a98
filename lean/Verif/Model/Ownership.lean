import Verif.Model.Outcome
import Mathlib.Data.Nat.Notation
import Mathlib.Logic.Function.Basic

/-!
# Model: the lifetime of the objects of a document

The heap of the program, the objects of a document in it, what the stages create and hand over to an owner, and the destructors of
`/repo/src/Types.cpp`.  (Simplifications: addresses are not used again after a release; only the pointers that a destructor follows are kept;
everything else the stages do is in the other models.)
-/

namespace Verif.Ownership

/-- A pointer. Model glue. -/
abbrev Addr := ℕ

/-- The elements that own nothing but their position: `PdfCharacter`, `PdfWord`, `PdfTextLine`, `PdfTextBlock`, `PdfShape`, `PdfGraphic`,
`/repo/src/Types.h:455-960`; the destructors `/repo/src/Types.cpp:205, 257-261, 341, 375, 454, 477` release nothing. -/
inductive Kind where
  | character | word | line | block | shape | graphic
deriving DecidableEq, Repr

/-- The members of a `PdfPage` that its destructor releases, `/repo/src/Types.h:1005-1070`. -/
structure PageObj where
  characters : List Addr := []
  words : List Addr := []
  blocks : List Addr := []
  segments : List Addr := []
  figures : List Addr := []
  shapes : List Addr := []
  graphics : List Addr := []
  blockCuts : List Addr := []
  orderCuts : List Addr := []
deriving DecidableEq, Repr

/-- An object on the heap, `/repo/src/Types.h:222-1180`, with the pointers its destructor follows. -/
inductive Obj where
  | position
  | fontInfo
  | cut
  | element (k : Kind) (pos : Addr)
  | figure (pos : Addr) (characters shapes graphics : List Addr)
  | segment (pos : Addr) (lines : List Addr)
  | page (p : PageObj)
deriving DecidableEq, Repr

/-- The heap: the objects that are alive, and the next free address. Model glue. -/
structure Heap where
  next : Addr := 0
  obj : Addr → Option Obj := fun _ => none

/-- `new`: the object gets a fresh address. Model glue. -/
def Heap.alloc (h : Heap) (o : Obj) : Addr × Heap :=
  (h.next, { next := h.next + 1, obj := Function.update h.obj h.next (some o) })

/-- Overwriting an object that is alive. Model glue. -/
def Heap.set (h : Heap) (a : Addr) (o : Obj) : Heap := { h with obj := Function.update h.obj a (some o) }

/-- Releasing the memory of an object; releasing it twice is undefined. Model glue. -/
def Heap.free (h : Heap) (a : Addr) : Outcome Heap :=
  match h.obj a with
  | none => .ub "double free"
  | some _ => .ok { h with obj := Function.update h.obj a none }

/-! ## The destructors -/

/-- `for (const auto* x : xs) { delete x; }`. Model glue. -/
def deleteAll (del : Addr → Heap → Outcome Heap) : List Addr → Heap → Outcome Heap
  | [], h => .ok h
  | a :: as, h => (del a h).bind (deleteAll del as)

/-- `delete pos`, `/repo/src/Types.cpp:32, 164-166`. -/
def deletePosition (a : Addr) (h : Heap) : Outcome Heap :=
  match h.obj a with
  | some .position => h.free a
  | _ => .ub "delete of a pointer to a released or different object"

/-- `delete` of an element that owns only its position, `/repo/src/Types.cpp:164-166, 205, 257-261, 341, 375, 454, 477`. -/
def deleteElement (k : Kind) (a : Addr) (h : Heap) : Outcome Heap :=
  match h.obj a with
  | some (.element k' pos) => if k' = k then (deletePosition pos h).bind (·.free a) else .ub "delete of a pointer to a different object"
  | _ => .ub "delete of a pointer to a released or different object"

/-- `delete` of a `PdfFigure`, `/repo/src/Types.cpp:416-431` and `164-166`. -/
def deleteFigure (a : Addr) (h : Heap) : Outcome Heap :=
  match h.obj a with
  | some (.figure pos cs ss gs) =>
    (deleteAll (deleteElement .character) cs h).bind fun h =>
    (deleteAll (deleteElement .shape) ss h).bind fun h =>
    (deleteAll (deleteElement .graphic) gs h).bind fun h =>
    (deletePosition pos h).bind (·.free a)
  | _ => .ub "delete of a pointer to a released or different object"

/-- `delete` of a `PdfPageSegment`, `/repo/src/Types.cpp:500-505` and `164-166`. -/
def deleteSegment (a : Addr) (h : Heap) : Outcome Heap :=
  match h.obj a with
  | some (.segment pos ls) =>
    (deleteAll (deleteElement .line) ls h).bind fun h =>
    (deletePosition pos h).bind (·.free a)
  | _ => .ub "delete of a pointer to a released or different object"

/-- `delete` of a `Cut`, `/repo/src/Types.cpp:617`. -/
def deleteCut (a : Addr) (h : Heap) : Outcome Heap :=
  match h.obj a with
  | some .cut => h.free a
  | _ => .ub "delete of a pointer to a released or different object"

/-- `delete` of a `PdfFontInfo`, `/repo/src/Types.cpp:596-598`. -/
def deleteFontInfo (a : Addr) (h : Heap) : Outcome Heap :=
  match h.obj a with
  | some .fontInfo => h.free a
  | _ => .ub "delete of a pointer to a released or different object"

/-- `delete` of a `PdfPage`, `/repo/src/Types.cpp:529-566`. -/
def deletePage (a : Addr) (h : Heap) : Outcome Heap :=
  match h.obj a with
  | some (.page p) =>
    (deleteAll (deleteElement .character) p.characters h).bind fun h =>
    (deleteAll (deleteElement .word) p.words h).bind fun h =>
    (deleteAll (deleteElement .block) p.blocks h).bind fun h =>
    (deleteAll deleteSegment p.segments h).bind fun h =>
    (deleteAll deleteFigure p.figures h).bind fun h =>
    (deleteAll (deleteElement .shape) p.shapes h).bind fun h =>
    (deleteAll (deleteElement .graphic) p.graphics h).bind fun h =>
    (deleteAll deleteCut p.blockCuts h).bind fun h =>
    (deleteAll deleteCut p.orderCuts h).bind (·.free a)
  | _ => .ub "delete of a pointer to a released or different object"

/-! ## What the stages create -/

/-- The document (`pages` and `fontInfos`, `/repo/src/Types.h:1095-1130`), the current page of the parser (`/repo/src/PdfParsing.h`)
and the heap. -/
structure State where
  heap : Heap := {}
  pages : List Addr := []
  fontInfos : List (String × Addr) := []
  current : Option Addr := none

/-- `PdfDocument::~PdfDocument`, `/repo/src/Types.cpp:590-599`. -/
def destroy (s : State) : Outcome Heap :=
  (deleteAll deletePage s.pages s.heap).bind (deleteAll deleteFontInfo (s.fontInfos.map (·.2)))

/-- What the parser draws. -/
inductive Drawn where
  | character | shape | graphic
deriving DecidableEq, Repr

/-- The class of a drawn thing, `/repo/src/PdfParsing.cpp:180, 646, 800`. -/
def Drawn.kind : Drawn → Kind
  | .character => .character
  | .shape => .shape
  | .graphic => .graphic

/-- Where the parser puts it: to the page, to the `i`-th figure of the page, or to a new figure, `/repo/src/PdfParsing.cpp:530-578, 674-719, 828-873`. -/
inductive Target where
  | page
  | figure (i : ℕ)
  | newFigure
deriving DecidableEq, Repr

/-- The things a run does with objects.  The numbers are positions in the lists of the document, of a page or of a segment. -/
inductive Op where
  /-- `startPage`, `/repo/src/PdfParsing.cpp:85-100`. -/
  | startPage
  /-- `updateFont`, `/repo/src/PdfParsing.cpp:143-151` and `/repo/src/utils/PdfFontInfoParser.cpp:75`. -/
  | updateFont (name : String)
  /-- A character that is a whitespace, `/repo/src/PdfParsing.cpp:180, 241-245`. -/
  | drawSpace
  /-- `/repo/src/PdfParsing.cpp:180-578, 646-719, 800-873`. -/
  | draw (d : Drawn) (t : Target)
  /-- `/repo/src/utils/WordsDetectionUtils.cpp:46` and `/repo/src/WordsDetection.cpp:127-128, 162-163`. -/
  | addWord (page : ℕ)
  /-- A cut of `xyCut` whose caller collects the cuts, `/repo/src/utils/XYCut.cpp:165-179, 203-205, 267-280, 300-302`: for page segmentation
  (`/repo/src/PageSegmentation.cpp:112-120`) or for the reading order (`/repo/src/ReadingOrderDetection.cpp:124-138`). -/
  | addCut (page : ℕ) (reading : Bool)
  /-- `/repo/src/PageSegmentation.cpp:123-126` and `/repo/src/utils/PageSegmentationUtils.cpp:41`. -/
  | addSegment (page : ℕ)
  /-- `/repo/src/TextLinesDetection.cpp:312-322, 356`. -/
  | addLine (page segment : ℕ)
  /-- `/repo/src/utils/TextBlocksDetectionUtils.cpp:678, 782`. -/
  | addBlock (page : ℕ)
  /-- `page->blocks = blocksSorted`, `/repo/src/ReadingOrderDetection.cpp:140-153`: the blocks at these positions, in this order. -/
  | reorder (page : ℕ) (order : List ℕ)
  /-- An element that is created, but handed over to no owner: the merged word of de-hyphenation (`/repo/src/WordsDehyphenation.cpp:63-69`), a line that was
  merged with the previous one (`/repo/src/TextLinesDetection.cpp:284-296`), anything whose creation is interrupted by an exception. -/
  | lose (k : Kind)
  /-- A cut whose caller does not collect the cuts, `/repo/src/utils/XYCut.cpp:203-205`, `/repo/src/PageSegmentation.cpp:462-466`,
  `/repo/src/ReadingOrderDetection.cpp:361, 375, 393`. -/
  | loseCut
deriving DecidableEq, Repr

/-- The constructor of an element that owns only its position, `/repo/src/Types.cpp:159-161`. -/
def newElement (k : Kind) (h : Heap) : Addr × Heap :=
  let p := h.alloc .position
  p.2.alloc (.element k p.1)

/-- Changing a page. Model glue. -/
def onPage (a : Addr) (f : PageObj → PageObj) (h : Heap) : Outcome Heap :=
  match h.obj a with
  | some (.page p) => .ok (h.set a (.page (f p)))
  | _ => .ub "access to a released or different object"

/-- `push_back` of a drawn thing to its list of the page, `/repo/src/PdfParsing.cpp:540, 681, 835`. -/
def PageObj.push (p : PageObj) (d : Drawn) (x : Addr) : PageObj :=
  match d with
  | .character => { p with characters := p.characters ++ [x] }
  | .shape => { p with shapes := p.shapes ++ [x] }
  | .graphic => { p with graphics := p.graphics ++ [x] }

/-- A new figure with a drawn thing in it, `/repo/src/PdfParsing.cpp:564-576, 705-717, 859-871`. -/
def figureWith (pos : Addr) (d : Drawn) (x : Addr) : Obj :=
  match d with
  | .character => .figure pos [x] [] []
  | .shape => .figure pos [] [x] []
  | .graphic => .figure pos [] [] [x]

/-- `push_back` of a drawn thing to its list of a figure, `/repo/src/PdfParsing.cpp:557, 698, 852`. -/
def pushFigure (d : Drawn) (x : Addr) (a : Addr) (h : Heap) : Outcome Heap :=
  match h.obj a with
  | some (.figure pos cs ss gs) =>
    .ok (h.set a (match d with
      | .character => .figure pos (cs ++ [x]) ss gs
      | .shape => .figure pos cs (ss ++ [x]) gs
      | .graphic => .figure pos cs ss (gs ++ [x])))
  | _ => .ub "access to a released or different object"

/-- The figures of a page. Model glue. -/
def figuresOf (a : Addr) (h : Heap) : List Addr :=
  match h.obj a with
  | some (.page p) => p.figures
  | _ => []

/-- The segments of a page. Model glue. -/
def segmentsOf (a : Addr) (h : Heap) : List Addr :=
  match h.obj a with
  | some (.page p) => p.segments
  | _ => []

/-- Adding a drawn thing, `/repo/src/PdfParsing.cpp:530-578, 674-719, 828-873`. -/
def place (d : Drawn) (x : Addr) (page : Addr) (t : Target) (h : Heap) : Outcome Heap :=
  match t with
  | .page => onPage page (·.push d x) h
  | .figure i =>
    match (figuresOf page h)[i]? with
    | some f => pushFigure d x f h
    | none => .ub "no such figure"
  | .newFigure =>
    let p := h.alloc .position
    let f := p.2.alloc (figureWith p.1 d x)
    onPage page (fun q => { q with figures := q.figures ++ [f.1] }) f.2

/-- `segment->lines.push_back(currLine)`, `/repo/src/TextLinesDetection.cpp:321`. -/
def pushLine (x : Addr) (a : Addr) (h : Heap) : Outcome Heap :=
  match h.obj a with
  | some (.segment pos ls) => .ok (h.set a (.segment pos (ls ++ [x])))
  | _ => .ub "access to a released or different object"

/-- The page at a position of `doc->pages`. Model glue. -/
def withPage (s : State) (i : ℕ) (f : Addr → Outcome Heap) : Outcome State :=
  match s.pages[i]? with
  | some a => (f a).bind fun h => .ok { s with heap := h }
  | none => .ub "no such page"

/-- The current page of the parser. Model glue. -/
def withCurrent (s : State) (f : Addr → Outcome Heap) : Outcome State :=
  match s.current with
  | some a => (f a).bind fun h => .ok { s with heap := h }
  | none => .ub "no current page"

/-- One operation; the lines are those at the constructors of `Op` (`/repo/src/PdfParsing.cpp:85-100` for the first one). -/
def step (s : State) : Op → Outcome State
  | .startPage =>
    let p := s.heap.alloc (.page {})
    .ok { s with heap := p.2, pages := s.pages ++ [p.1], current := some p.1 }
  | .updateFont name =>
    if name ∈ s.fontInfos.map (·.1) then .ok s
    else
      let f := s.heap.alloc .fontInfo
      .ok { s with heap := f.2, fontInfos := s.fontInfos ++ [(name, f.1)] }
  | .drawSpace =>
    let c := newElement .character s.heap
    (deleteElement .character c.1 c.2).bind fun h => .ok { s with heap := h }
  | .draw d t => withCurrent s fun a =>
    let x := newElement d.kind s.heap
    place d x.1 a t x.2
  | .addWord i => withPage s i fun a =>
    let x := newElement .word s.heap
    onPage a (fun p => { p with words := p.words ++ [x.1] }) x.2
  | .addCut i reading => withPage s i fun a =>
    let x := s.heap.alloc .cut
    onPage a (fun p => if reading then { p with orderCuts := p.orderCuts ++ [x.1] } else { p with blockCuts := p.blockCuts ++ [x.1] }) x.2
  | .addSegment i => withPage s i fun a =>
    let q := s.heap.alloc .position
    let x := q.2.alloc (.segment q.1 [])
    onPage a (fun p => { p with segments := p.segments ++ [x.1] }) x.2
  | .addLine i j => withPage s i fun a =>
    let x := newElement .line s.heap
    match (segmentsOf a s.heap)[j]? with
    | some g => pushLine x.1 g x.2
    | none => .ub "no such segment"
  | .addBlock i => withPage s i fun a =>
    let x := newElement .block s.heap
    onPage a (fun p => { p with blocks := p.blocks ++ [x.1] }) x.2
  | .reorder i order => withPage s i fun a =>
    onPage a (fun p => { p with blocks := order.filterMap (p.blocks[·]?) }) s.heap
  | .lose k => .ok { s with heap := (newElement k s.heap).2 }
  | .loseCut => .ok { s with heap := (s.heap.alloc .cut).2 }

/-- A history, from the empty document on. Model glue. -/
def run : List Op → State → Outcome State
  | [], s => .ok s
  | o :: os, s => (step s o).bind (run os)

end Verif.Ownership
