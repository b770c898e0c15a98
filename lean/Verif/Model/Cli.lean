import Verif.Model.Log
import Verif.Model.Serializers

/-!
# Model of the command line: `/repo/src/Validators.cpp`, `/repo/src/PdfDocumentSerialization.*`,
`/repo/src/serializers/Serializer.cpp`, `/repo/src/PdfToTextPlusPlus.cpp` and `/repo/src/pdftotext++.cpp`

The tokenisation of the command line by boost is not modelled: it yields the values of every option
in the order in which they were given.  Loading a file (poppler), the stages and the running times
are parameters.
-/

namespace Verif.Cli

open Verif.Text Verif.Serialize Verif.Log
open Verif.ReadingOrder (Role)

/-! ### Names -/

/-- `SerializationFormat`, `/repo/src/Types.h:119-123`. -/
inductive Format where
  | txt | txtExtended | jsonl
deriving DecidableEq, Repr

/-- `SERIALIZATION_FORMAT_NAMES`, `/repo/src/Types.h:126-130`. -/
def formatNames : List Str := ["txt".toList, "txt-extended".toList, "jsonl".toList]

/-- `SEMANTIC_ROLE_NAMES`, `/repo/src/Types.h:87-102`. -/
def roleNames : List Str :=
  ["paragraph".toList, "reference".toList, "marginal".toList, "footnote".toList, "heading".toList,
   "formula".toList, "title".toList, "author-info".toList, "abstract".toList, "date".toList,
   "caption".toList, "table".toList, "other".toList, "toc".toList]

/-- `PDF_ELEMENT_TYPE_NAMES`, `/repo/src/Types.h:55-63`. -/
def typeNames : List Str :=
  ["pages".toList, "blocks".toList, "lines".toList, "words".toList, "characters".toList,
   "figures".toList, "shapes".toList]

/-- `SemanticRole(i)`, enumerators of `/repo/src/Types.h:69-84`; numbers without enumerator do not occur. -/
def roleOfNum : ℕ → Role
  | 0 => .paragraph
  | 1 => .reference
  | 2 => .marginal
  | 3 => .footnote
  | 4 => .heading
  | 5 => .formula
  | 6 => .title
  | 7 => .authorInfo
  | 8 => .abstract
  | 9 => .date
  | 10 => .caption
  | 11 => .table
  | 12 => .other
  | _ => .toc

/-- `static_cast<int>(role)`, `/repo/src/utils/PdfElementsUtils.cpp:296`. -/
def roleNum : Role → ℕ
  | .paragraph => 0
  | .reference => 1
  | .marginal => 2
  | .footnote => 3
  | .heading => 4
  | .formula => 5
  | .title => 6
  | .authorInfo => 7
  | .abstract => 8
  | .date => 9
  | .caption => 10
  | .table => 11
  | .other => 12
  | .toc => 13

/-- `PdfElementType(i)`, enumerators of `/repo/src/Types.h:44-52`. -/
def typeOfNum : ℕ → Unit'
  | 0 => .pages
  | 1 => .textBlocks
  | 2 => .textLines
  | 3 => .words
  | 4 => .characters
  | 5 => .figures
  | _ => .shapes

/-- `static_cast<int>(unit)`, `/repo/src/utils/PdfElementsUtils.cpp:244`. -/
def typeNum : Unit' → ℕ
  | .pages => 0
  | .textBlocks => 1
  | .textLines => 2
  | .words => 3
  | .characters => 4
  | .figures => 5
  | .shapes => 6

/-- `SerializationFormat(i)`, enumerators of `/repo/src/Types.h:119-123`. -/
def formatOfNum : ℕ → Format
  | 0 => .txt
  | 1 => .txtExtended
  | _ => .jsonl

/-- `static_cast<int>(format)`, `/repo/src/utils/PdfElementsUtils.cpp:270`. -/
def formatNum : Format → ℕ
  | .txt => 0
  | .txtExtended => 1
  | .jsonl => 2

/-- `getSemanticRoleName`, `/repo/src/utils/PdfElementsUtils.cpp:295-297` (the index is always valid). -/
def getRoleName (r : Role) : Str := roleNames.getD (roleNum r) []

/-- `getPdfElementTypeName`, `/repo/src/utils/PdfElementsUtils.cpp:243-245`. -/
def getTypeName (t : Unit') : Str := typeNames.getD (typeNum t) []

/-- `getSerializationFormatName`, `/repo/src/utils/PdfElementsUtils.cpp:269-271`. -/
def getFormatName (f : Format) : Str := formatNames.getD (formatNum f) []

/-- `getSemanticRoles`, `/repo/src/utils/PdfElementsUtils.cpp:274-280`. -/
def getRoles : List Role := (List.range roleNames.length).map roleOfNum

/-- `getPdfElementTypes`, `/repo/src/utils/PdfElementsUtils.cpp:222-228`. -/
def getTypes : List Unit' := (List.range typeNames.length).map typeOfNum

/-- `getSerializationFormats`, `/repo/src/utils/PdfElementsUtils.cpp:248-254`. -/
def getFormats : List Format := (List.range formatNames.length).map formatOfNum

/-- The loop of `getSemanticRolesStr` and its siblings, `/repo/src/utils/PdfElementsUtils.cpp:231-240,
257-266, 283-292` and `/repo/src/PdfDocumentSerialization.cpp:24-33`. -/
def joinNames (sep : Str) : Str → List Str → Str
  | acc, [] => acc
  | acc, n :: ns => joinNames sep ((if acc.length > 0 then acc ++ sep else acc) ++ n) ns

/-! ### Validators -/

/-- The loop of `validate`, `/repo/src/Validators.cpp:61-66, 80-85`: index of the first equal name. -/
def findName (token : Str) : ℕ → List Str → Option ℕ
  | _, [] => none
  | i, n :: ns => if token = n then some i else findName token (i + 1) ns

/-- `validate` for roles, `/repo/src/Validators.cpp:53-69`. -/
def validateRole (token : Str) : Outcome Role :=
  match findName token 0 roleNames with
  | some i => .ok (roleOfNum i)
  | none => .throw "invalid_option_value"

/-- `validate` for types, `/repo/src/Validators.cpp:72-88`. -/
def validateType (token : Str) : Outcome Unit' :=
  match findName token 0 typeNames with
  | some i => .ok (typeOfNum i)
  | none => .throw "invalid_option_value"

/-- The formats with a serializer, in the iteration order of the unordered map
(`SERIALIZERS`, `/repo/src/PdfDocumentSerialization.h:31-35`): any order of these two.
JSONL is commented out. -/
structure SerializersOrder where
  order : List Format
  perm : order.Perm [.txt, .txtExtended]

/-- `validate` for formats, `/repo/src/Validators.cpp:34-50`: only formats with a serializer. -/
def validateFormat (s : SerializersOrder) (token : Str) : Outcome Format :=
  match s.order.find? fun f => decide (token = getFormatName f) with
  | some f => .ok f
  | none => .throw "invalid_option_value"

/-- All values of an option that can be repeated (boost's `validate` for vectors calls the validator for
every value), `/repo/src/pdftotext++.cpp:231-247`. -/
def validateAll {α : Type} (v : Str → Outcome α) : List Str → Outcome (List α)
  | [] => .ok []
  | s :: ss => (v s).bind fun x => (validateAll v ss).bind fun xs => .ok (x :: xs)

/-- An option that may be given once (`check_first_occurrence`, `/repo/src/Validators.cpp:36`). -/
def validateOnce {α : Type} (v : Str → Outcome α) (default : α) : List Str → Outcome α
  | [] => .ok default
  | [s] => v s
  | _ => .throw "multiple_occurrences"

/-- `getSerializer`, `/repo/src/PdfDocumentSerialization.cpp:36-38`, applied: what the serializer writes;
`none` for the null pointer.  The txt serializers ignore the types. -/
def runSerializer (f : Format) (roles : List Role) (doc : SDoc) : Option Str :=
  match f with
  | .txt => some (plainText roles doc)
  | .txtExtended => some (plainTextExtended roles doc)
  | .jsonl => none

/-! ### Writing the output -/

/-- What happens to the outside world while writing the output. -/
inductive Write where
  | stdout (text : Str)
  | stderr (text : Str)
  | shell (command : Str)
  | file (path text : Str)
deriving DecidableEq

/-- The operating system: does a shell command fail, can a file be opened for writing after it. -/
structure Os where
  fails : Str → Bool
  opens : Str → Bool

/-- `substr(0, find_last_of("/"))` or ".", `/repo/src/serializers/Serializer.cpp:47-51`. -/
def parentDir (path : Str) : Str :=
  match path.reverse.dropWhile (fun c => decide (c ≠ '/')) with
  | [] => ['.']
  | _ :: rest => rest.reverse

/-- `Serializer::serialize`, `/repo/src/serializers/Serializer.cpp:33-65`. -/
def writeOutput (os : Os) (text : Str) (path : Str) : List Write :=
  if path.length = 1 ∧ path[0]? = some '-' then [.stdout text]
  else
    let cmd := "mkdir -p ".toList ++ parentDir path
    if os.fails cmd then
      [.shell cmd, .stderr ("Could not create directory '".toList ++ parentDir path ++ "'.\n".toList)]
    else if !os.opens path then
      [.shell cmd, .stderr ("Could not open file '".toList ++ path ++ "'.\n".toList)]
    else [.shell cmd, .file path text]

/-! ### The pipeline -/

/-- The stages of `process`, `/repo/src/PdfToTextPlusPlus.cpp:107-253`. -/
inductive Stage where
  | glyphStatistics | diacritics | words | wordStatistics | segmentation | lines | scripts
  | lineStatistics | blocks | readingOrder | dehyphenation
deriving DecidableEq, Repr

/-- The name of the timing of a stage, `/repo/src/PdfToTextPlusPlus.cpp:114, 126, ...`. -/
def Stage.timing : Stage → Str
  | .glyphStatistics => "Calculate glyph statistics".toList
  | .diacritics => "Merge combining diacritics".toList
  | .words => "Detect words".toList
  | .wordStatistics => "Calculate words statistics".toList
  | .segmentation => "Segment pages".toList
  | .lines => "Detect lines".toList
  | .scripts => "Detect sub/superscripts".toList
  | .lineStatistics => "Calculate text line statistics".toList
  | .blocks => "Detect text blocks".toList
  | .readingOrder => "Detect reading order".toList
  | .dehyphenation => "Dehyphenate words".toList

/-- Settings of one stage, `BaseConfig` and `disabled` in `/repo/src/Config.h:50-62, 133`. -/
structure StageConfig where
  disabled : Bool := false
  logLevel : Level := .error
  logPageFilter : ℤ := 0
deriving DecidableEq

/-- `Config`, `/repo/src/Config.h`, as far as it is set by `main`. -/
structure Config where
  parsing : StageConfig := {}
  skipFontFiles : Bool := false
  stage : Stage → StageConfig := fun _ => {}
  roles : StageConfig := {}

/-- The environment of `process`: the result of loading (`some code` for a failed load), parsing, the
stages, the two snippets that rebuild the list of text lines
(`/repo/src/PdfToTextPlusPlus.cpp:181-189, 255-263`), and a clock. `D` is the type of documents. -/
structure Env (D : Type) where
  loadError : Option ℤ
  parse : StageConfig → Bool → D → Outcome D
  stage : Stage → StageConfig → StageConfig → D → Outcome D
  linesFromSegments : D → D
  linesFromBlocks : D → D
  duration : ℕ → ℕ

/-- State of `process`: the document and the timings (`none` for a null pointer),
`/repo/src/PdfToTextPlusPlus.cpp:72`. -/
structure PState (D : Type) where
  doc : D
  timings : Option (List (Str × ℕ))

/-- `if (timings) timings->push_back(...)`, e.g. `/repo/src/PdfToTextPlusPlus.cpp:85-87`. -/
def PState.record {D : Type} (E : Env D) (s : PState D) (name : Str) : PState D :=
  { s with timings := s.timings.map fun ts => ts ++ [(name, E.duration ts.length)] }

/-- One stage, e.g. `/repo/src/PdfToTextPlusPlus.cpp:107-117`.  (Only reading order detection gets a second
configuration, the one of the role prediction.) -/
def runStage {D : Type} (E : Env D) (cfg : Config) (st : Stage) (s : PState D) : Outcome (PState D) :=
  if (cfg.stage st).disabled = false then
    (E.stage st (cfg.stage st) cfg.roles s.doc).bind fun d =>
      .ok ({ s with doc := d }.record E st.timing)
  else .ok s

/-- `process`, `/repo/src/PdfToTextPlusPlus.cpp:72-267`: the status and the state. -/
def process {D : Type} (E : Env D) (cfg : Config) (s : PState D) : Outcome (ℤ × PState D) :=
  let s := s.record E "Load PDF".toList
  match E.loadError with
  | some code => .ok (code, s)
  | none =>
    (E.parse cfg.parsing cfg.skipFontFiles s.doc).bind fun d =>
    let s := { s with doc := d }.record E "Parse PDF".toList
    (runStage E cfg .glyphStatistics s).bind fun s =>
    (runStage E cfg .diacritics s).bind fun s =>
    (runStage E cfg .words s).bind fun s =>
    (runStage E cfg .wordStatistics s).bind fun s =>
    (runStage E cfg .segmentation s).bind fun s =>
    (runStage E cfg .lines s).bind fun s =>
    let s := if (cfg.stage .lines).disabled = false then { s with doc := E.linesFromSegments s.doc } else s
    (runStage E cfg .scripts s).bind fun s =>
    (runStage E cfg .lineStatistics s).bind fun s =>
    (runStage E cfg .blocks s).bind fun s =>
    (runStage E cfg .readingOrder s).bind fun s =>
    (runStage E cfg .dehyphenation s).bind fun s =>
    .ok (0, { s with doc := E.linesFromBlocks s.doc })

/-! ### main -/

/-- The parsed command line, `/repo/src/pdftotext++.cpp:162-223`: variables of `main`. -/
structure Args where
  pdfFile : Str
  outputFile : Str := ['-']
  format : Format := .txt
  roles : List Role := getRoles
  types : List Unit' := getTypes
  controlCharacters : Bool := false
  semanticRoles : Bool := false
  noScripts : Bool := false
  noDehyphenation : Bool := false
  visualize : List String := []
  visualizationPath : Str := []
  verbosity : Str := "error".toList
  skipFontFiles : Bool := false
  /-- The options `--skip-...` of the stages. -/
  skip : Stage → Bool := fun _ => false
  skipRoles : Bool := false
  debugParsing : Bool := false
  /-- The options `--debug-...` of the stages. -/
  debug : Stage → Bool := fun _ => false
  debugRoles : Bool := false
  logPageFilter : ℤ := -1
  printRunningTimes : Bool := false
  printVersion : Bool := false
  printHelp : Bool := false
  printFullHelp : Bool := false

/-- The values given on the command line, option by option, in their order; boost's tokenisation is
not modelled.  `flag` tells whether a switch was given; `/repo/src/pdftotext++.cpp:225-552`. -/
structure Given where
  pdfFile : List Str
  outputFile : List Str := []
  format : List Str := []
  role : List Str := []
  type : List Str := []
  visualizationPath : List Str := []
  verbosity : List Str := []
  /-- The values of `--log-page-filter` (numbers that boost has already converted). -/
  logPageFilter : List ℤ := []
  flag : String → Bool := fun _ => false

/-- The names of the `--skip-...` options, `/repo/src/pdftotext++.cpp:415-540`, and the variables they set. -/
def skipOption : Stage → String
  | .glyphStatistics => "skip-glyphs-statistics-calculation"
  | .diacritics => "skip-diacritic-marks-merging"
  | .words => "skip-words-detection"
  | .wordStatistics => "skip-words-statistics-calculation"
  | .segmentation => "skip-page-segmentation"
  | .lines => "skip-text-lines-detection"
  | .scripts => "skip-sub-super-scripts-detection"
  | .lineStatistics => "skip-text-lines-statistics-calculation"
  | .blocks => "skip-text-blocks-detection"
  | .readingOrder => "skip-reading-order-detection"
  | .dehyphenation => "skip-words-dehyphenation"

/-- The names of the `--debug-...` options, `/repo/src/pdftotext++.cpp:410-535`. -/
def debugOption : Stage → String
  | .glyphStatistics => "debug-glyphs-statistics-calculation"
  | .diacritics => "debug-diacritic-marks-merging"
  | .words => "debug-words-detection"
  | .wordStatistics => "debug-words-statistics-calculation"
  | .segmentation => "debug-page-segmentation"
  | .lines => "debug-text-lines-detection"
  | .scripts => "debug-sub-super-scripts-detection"
  | .lineStatistics => "debug-text-lines-statistics-calculation"
  | .blocks => "debug-text-blocks-detection"
  | .readingOrder => "debug-reading-order-detection"
  | .dehyphenation => "debug-words-dehyphenation"

/-- The `--visualize-...` options in the order in which they are looked at,
`/repo/src/pdftotext++.cpp:728-760`. -/
def visualizeOptions : List String :=
  ["visualize-characters", "visualize-figures", "visualize-shapes", "visualize-graphics", "visualize-words",
   "visualize-text-lines", "visualize-text-blocks", "visualize-segments", "visualize-reading-order",
   "visualize-segment-cuts", "visualize-reading-order-cuts"]

/-- An integer option that may be given once, `/repo/src/pdftotext++.cpp:541-547`. -/
def once {α β : Type} (default : β) (v : α → β) : List α → Outcome β
  | [] => .ok default
  | [x] => .ok (v x)
  | _ => .throw "multiple_occurrences"

/-- `store` and `notify`, `/repo/src/pdftotext++.cpp:559-561`: the variables of `main`.  Validation errors
are raised by `store`, the missing file name by `notify`; an option that is not given leaves the
default of the variable (`:163-223`). -/
def parseArgs (s : SerializersOrder) (g : Given) : Outcome Args :=
  (validateOnce (validateFormat s) .txt g.format).bind fun format =>
  (validateAll validateRole g.role).bind fun roles =>
  (validateAll validateType g.type).bind fun types =>
  (once ['-'] id g.outputFile).bind fun out =>
  (once [] id g.visualizationPath).bind fun visPath =>
  (once "error".toList id g.verbosity).bind fun verbosity =>
  (once (-1) id g.logPageFilter).bind fun filter =>
  match g.pdfFile with
  | [pdf] => .ok {
      pdfFile := pdf, outputFile := out, format := format
      roles := if g.role = [] then getRoles else roles
      types := if g.type = [] then getTypes else types
      controlCharacters := g.flag "control-characters"
      semanticRoles := g.flag "semantic-roles"
      noScripts := g.flag "no-scripts"
      noDehyphenation := g.flag "no-dehyphenation"
      visualize := visualizeOptions.filter g.flag
      visualizationPath := visPath
      verbosity := verbosity
      skipFontFiles := g.flag "skip-embedded-font-files-parsing"
      skip := fun st => g.flag (skipOption st)
      skipRoles := g.flag "skip-semantic-roles-prediction"
      debugParsing := g.flag "debug-pdf-parsing"
      debug := fun st => g.flag (debugOption st)
      debugRoles := g.flag "debug-semantic-roles-prediction"
      logPageFilter := filter
      printRunningTimes := g.flag "print-running-times"
      printVersion := g.flag "version"
      printHelp := g.flag "help"
      printFullHelp := g.flag "full-help" }
  | [] => .throw "required_option"
  | _ => .throw "multiple_occurrences"

/-- The log level, `/repo/src/pdftotext++.cpp:611-615`. -/
def logLevelOf (verbosity : Str) : Level :=
  let l := Level.error
  let l := if verbosity = "trace".toList ∨ verbosity = "TRACE".toList then .trace else l
  let l := if verbosity = "debug".toList ∨ verbosity = "DEBUG".toList then .debug else l
  let l := if verbosity = "info".toList ∨ verbosity = "INFO".toList then .info else l
  if verbosity = "warn".toList ∨ verbosity = "WARN".toList then .warn else l

/-- `conf.*.logPageFilter = logPageFilter` and its use in `Logger(...)`,
`/repo/src/pdftotext++.cpp:620`, `/repo/src/Config.h:62`: `int` to `unsigned int` and back to `int`. -/
def pageFilterOf (n : ℤ) : ℤ := Int.bmod (n % 2 ^ 32) (2 ^ 32)

/-- The configuration, `/repo/src/pdftotext++.cpp:617-672`. -/
def configOf (a : Args) : Config :=
  let lv := logLevelOf a.verbosity
  { parsing := { logLevel := if a.debugParsing then .debug else lv, logPageFilter := pageFilterOf a.logPageFilter }
    skipFontFiles := a.skipFontFiles
    stage := fun st => { disabled := a.skip st, logLevel := if a.debug st then .debug else lv
                         logPageFilter := pageFilterOf a.logPageFilter }
    roles := { disabled := a.skipRoles, logLevel := if a.debugRoles then .debug else lv
               logPageFilter := pageFilterOf a.logPageFilter } }

/-- What a run does, in order. -/
inductive Action where
  | fullHelp | help | version
  | usageError
  | error
  | write (w : Write)
  | visualize (kinds : List String) (path : Str)
  | times (ts : List (Str × ℕ))
deriving DecidableEq

/-- Result of a run: the actions and the exit code; `none` if the program is terminated by an
exception that is not caught. -/
structure Run where
  actions : List Action
  exit : Option ℤ
deriving DecidableEq

/-- How `process` can end, as seen by `main`, `/repo/src/pdftotext++.cpp:680-688`. -/
inductive Engine where
  | finished (status : ℤ) (doc : SDoc) (timings : List (Str × ℕ))
  | invalidArgument
  | otherException

/-- `main` after parsing the command line, `/repo/src/pdftotext++.cpp:583-787`. -/
def mainAfterParsing (os : Os) (engine : Config → Str → Engine) (clock : ℕ → ℕ) (a : Args) : Run :=
  if a.printFullHelp then ⟨[.fullHelp], some 0⟩
  else if a.printHelp then ⟨[.help], some 0⟩
  else if a.printVersion then ⟨[.version], some 0⟩
  else
    match engine (configOf a) a.pdfFile with
    | .invalidArgument => ⟨[.error], some 3⟩
    | .otherException => ⟨[], none⟩
    | .finished status doc timings =>
      if status > 0 then ⟨[], some status⟩
      else
        let out : List Action :=
          match runSerializer a.format a.roles doc with
          | none => []
          | some text => (writeOutput os text a.outputFile).map .write
        let ts := timings ++ [("Serialize".toList, clock 0)]
        let vis : List Action := if a.visualizationPath ≠ [] then [.visualize a.visualize a.visualizationPath] else []
        let ts := if a.visualizationPath ≠ [] then ts ++ [("Visualize".toList, clock 1)] else ts
        let times : List Action := if a.printRunningTimes then [.times ts] else []
        ⟨out ++ vis ++ times, some 0⟩

/-- Does `store` succeed, so that all switches are known when `notify` fails,
`/repo/src/pdftotext++.cpp:559-561`? -/
def storeOk (s : SerializersOrder) (g : Given) : Bool :=
  (parseArgs s { g with pdfFile := [['x']] }).isOk && decide (g.pdfFile.length ≤ 1)

/-- `main`, `/repo/src/pdftotext++.cpp:162-787`.  `seen` tells which of `--full-help`, `--help`, `--version`
boost has stored before an error occurred in `store`; if only `notify` fails, they are all stored. -/
def main (os : Os) (engine : Config → Str → Engine) (clock : ℕ → ℕ) (s : SerializersOrder)
    (seen : Bool × Bool × Bool) (g : Given) : Run :=
  match parseArgs s g with
  | .ok a => mainAfterParsing os engine clock a
  | _ =>
    let seen := if storeOk s g then (g.flag "full-help", g.flag "help", g.flag "version") else seen
    if seen.1 then ⟨[.fullHelp], some 0⟩
    else if seen.2.1 then ⟨[.help], some 0⟩
    else if seen.2.2 then ⟨[.version], some 0⟩
    else ⟨[.usageError], some 1⟩

/-- The call of `process` in `main`, `/repo/src/pdftotext++.cpp:674-688`: a new document and new timings.
`view` is what the serializers see of a document.
`invalid_argument` is caught.  (Undefined behaviour is put together with other exceptions here; theorems
about runs exclude it.) -/
def engineOf {D : Type} (env : Str → Env D) (view : D → SDoc) (newDoc : D) (cfg : Config) (path : Str) : Engine :=
  match process (env path) cfg ⟨newDoc, some []⟩ with
  | .ok (status, s) => .finished status (view s.doc) (s.timings.getD [])
  | .throw m => if m = "invalid_argument" then .invalidArgument else .otherException
  | .ub _ => .otherException

end Verif.Cli
