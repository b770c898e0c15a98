import Verif.Model.Cli
import Lean.Elab.Term

/-!
# Model of the help and version messages: `/repo/src/pdftotext++.cpp:92-154, 225-548`

Texts are byte strings.  What is written to the standard output is the returned string.  The name of an
option as boost prints it (`option_description::format_name`) is modelled after the documentation of
boost; `endl` is a newline.
-/

namespace Verif.Help

open Verif.Text Verif.Cli

/-- `chars! "abc"` is the list `['a', 'b', 'c']` (written out by the elaborator, so that the kernel need not
decode the literal). -/
elab "chars! " s:str : term => return Lean.toExpr s.getString.toList

/-- `bool_switch` or `value`, `/repo/src/pdftotext++.cpp:228-548`. -/
inductive Kind where
  | switch | value
deriving DecidableEq, Repr

/-- An entry of `add_options()`, `/repo/src/pdftotext++.cpp:228-548`: long name, short name (empty if there is
none), kind and description. -/
structure Opt where
  long : Str
  short : Str := []
  kind : Kind
  desc : Str
deriving DecidableEq, Repr

/-- The compile-time texts, `/repo/src/pdftotext++.cpp:88-91`. -/
structure Program where
  name : Str
  version : Str
  description : Str
  usage : Str

/-- `opt->format_name()` (boost), `/repo/src/pdftotext++.cpp:134, 142`. -/
def formatName (o : Opt) : Str :=
  if o.short = [] then "--".toList ++ o.long
  else "-".toList ++ o.short ++ " [ --".toList ++ o.long ++ " ]".toList

/-- `BBLUE << title << OFF << endl`, `/repo/src/pdftotext++.cpp:116`, `/repo/src/utils/Log.h:31, 34`. -/
def title (t : Str) : Str := "\x1b[1;34m".toList ++ t ++ "\x1b[0m".toList ++ ['\n']

/-- `wrap(strip(text), width, indent)`, `/repo/src/pdftotext++.cpp:117, 135`. -/
def paragraph (text : Str) (width indent : ℕ) : Outcome Str :=
  (strip text).bind fun t => .ok (wrap t width indent)

/-- A section with one text, `/repo/src/pdftotext++.cpp:116-118, 120-122, 124-126, 128-130`. -/
def textSection (t text : Str) (width : ℕ) : Outcome Str :=
  (paragraph text width 0).bind fun p => .ok (title t ++ p ++ ['\n'] ++ ['\n'])

/-- The loop over the options, `/repo/src/pdftotext++.cpp:133-136, 141-144`. -/
def optionLines (width indent : ℕ) : List Opt → Outcome Str
  | [] => .ok []
  | o :: os =>
    (paragraph o.desc width indent).bind fun p =>
    (optionLines width indent os).bind fun rest =>
    .ok (formatName o ++ ['\n'] ++ p ++ ['\n'] ++ rest)

/-- A section with options, `/repo/src/pdftotext++.cpp:132-137, 140-145`. -/
def optionSection (t : Str) (os : List Opt) (width indent : ℕ) : Outcome Str :=
  (optionLines width indent os).bind fun p => .ok (title t ++ p ++ ['\n'])

/-- `printHelpMessage`, `/repo/src/pdftotext++.cpp:111-147`, with its default arguments; `none` for the null
pointer.  (If a text is blank, `strip` is undefined; the parts already printed do not matter then.) -/
def helpMessage (p : Program) (pub : List Opt) (priv : Option (List Opt) := none) (width : ℕ := 100)
    (indent : ℕ := 4) : Outcome Str :=
  (textSection "NAME".toList p.name width).bind fun a =>
  (textSection "VERSION".toList p.version width).bind fun b =>
  (textSection "DESCRIPTION".toList p.description width).bind fun c =>
  (textSection "USAGE".toList p.usage width).bind fun d =>
  (optionSection "OPTIONS".toList pub width indent).bind fun e =>
  match priv with
  | none => .ok (a ++ b ++ c ++ d ++ e)
  | some priv =>
    (optionSection "NON-PUBLIC OPTIONS".toList priv width indent).bind fun f => .ok (a ++ b ++ c ++ d ++ e ++ f)

/-- `printVersionMessage`, `/repo/src/pdftotext++.cpp:152-154`. -/
def versionMessage (p : Program) : Str := p.name ++ ", version ".toList ++ p.version ++ ['\n']

/-- `getSerializationFormatChoicesStr`, `/repo/src/PdfDocumentSerialization.cpp:24-33`. -/
def formatChoices (s : SerializersOrder) : Str := joinNames ", ".toList [] (s.order.map getFormatName)

/-- `getSemanticRolesStr`, `/repo/src/utils/PdfElementsUtils.cpp:283-292`. -/
def roleChoices : Str := joinNames ", ".toList [] roleNames

/-- `getPdfElementTypesStr`, `/repo/src/utils/PdfElementsUtils.cpp:231-240`. -/
def typeChoices : Str := joinNames ", ".toList [] typeNames

/-- `publicOpts`, `/repo/src/pdftotext++.cpp:227-381`. -/
def publicOpts (s : SerializersOrder) : List Opt :=
  [
   { long := chars! "format", kind := .value
     desc := chars! "Output the extracted text in the specified format.\nValid formats: " ++
       formatChoices s ++ chars! ".\n" },
   { long := chars! "role", kind := .value
     desc := chars! "Output only the text from text blocks with the specified roles. Use the syntax \
       '--role <value1> --role <value2> ...' to specify multiple roles.\nValid roles: " ++ roleChoices
       ++ chars! ".\n" },
   { long := chars! "type", kind := .value
     desc := chars! "Output semantic and layout information about the specified type(s) of elements. Use \
       the syntax '--type <value1> --type <value2> ...' to specify multiple types.Valid types: " ++
       typeChoices ++ chars! ".\nNOTE: This option does not have an effect when used together with the \
       '--format txt' or '--format txt-extended' option." },
   { long := chars! "control-characters", kind := .switch
     desc := chars! "Output the extracted text together with the following control \
       characters:\n\u00e2\u0080\u00a2 \"^A\" (start of heading) in front of each emphasized text \
       block\n\u00e2\u0080\u00a2 \"^L\" (form feed) between two text blocks when there is a page break \
       in between.\nNOTE: This option only has an effect when used together with the '--format txt' \
       option." },
   { long := chars! "semantic-roles", kind := .switch
     desc := chars! "Output each extracted text block together with its semantic role. NOTE: This option \
       only has an effect when used together with the '--format txt' option." },
   { long := chars! "no-scripts", kind := .switch
     desc := chars! "Output the extracted text without characters that appear as a subscript or \
       superscript in the PDF." },
   { long := chars! "no-dehyphenation", kind := .switch
     desc := chars! "Do not merge hyphenated words. NOTE: Using this option has the consequence that \
       each part into which a hyphenated word is divided appears as a separate word in the extracted text." },
   { long := chars! "visualization-path", kind := .value
     desc := chars! "Create a visualization PDF file, that is: a copy of the PDF file, with annotations \
       added by the different '--visualize-*' options below, and write it to the specified file. NOTE: \
       If not specified, no such visualization will be created, even if one or more of the \
       '--visualize-*' options is used." },
   { long := chars! "visualize-characters", kind := .switch
     desc := chars! "Draw bounding boxes around the detected characters into the visualization PDF file. \
       NOTE: This option only has an effect when used together with the '--visualization-path <string>' \
       option." },
   { long := chars! "visualize-graphics", kind := .switch
     desc := chars! "Draw bounding boxes around the detected graphics into the visualization PDF file. \
       NOTE: This option only has an effect when used together with the '--visualization-path <string>' \
       option." },
   { long := chars! "visualize-figures", kind := .switch
     desc := chars! "Draw bounding boxes around the detected figures into the visualization PDF file. \
       NOTE: This option only has an effect when used together with the '--visualization-path <string>' \
       option." },
   { long := chars! "visualize-shapes", kind := .switch
     desc := chars! "Draw bounding boxes around the detected shapes into the visualization PDF file. \
       NOTE: This option only has an effect when used together with the '--visualization-path <string>' \
       option." },
   { long := chars! "visualize-words", kind := .switch
     desc := chars! "Draw bounding boxes around the detected words into the visualization PDF file. \
       NOTE: This option only has an effect when used together with the '--visualization-path <string>' \
       option." },
   { long := chars! "visualize-text-lines", kind := .switch
     desc := chars! "Draw bounding boxes around the detected text lines into the visualization PDF file. \
       NOTE: This option only has an effect when used together with the '--visualization-path <string>' \
       option." },
   { long := chars! "visualize-text-blocks", kind := .switch
     desc := chars! "Draw bounding boxes around the detected text blocks into the visualization PDF \
       file. NOTE: This option only has an effect when used together with the '--visualization-path \
       <string>' option." },
   { long := chars! "visualize-segments", kind := .switch
     desc := chars! "Draw bounding boxes around the detected page segments into the visualization PDF \
       file. NOTE: This option only has an effect when used together with the '--visualization-path \
       <string>' option." },
   { long := chars! "visualize-segment-cuts", kind := .switch
     desc := chars! "Draw the XY-cuts made to segment the pages into the visualization PDF file. NOTE: \
       This option only has an effect when used together with the '--visualization-path <string>' option." },
   { long := chars! "visualize-reading-order", kind := .switch
     desc := chars! "Draw (directed) edges between the detected text blocks into the visualization PDF \
       file, for visualizing the detected reading order. NOTE: This option only has an effect when used \
       together with the '--visualization-path <string>' option." },
   { long := chars! "visualize-reading-order-cuts", kind := .switch
     desc := chars! "Draw the XY-cuts made to detect the reading order into the visualization PDF file. \
       NOTE: This option only has an effect when used together with the '--visualization-path <string>' \
       option." },
   { long := chars! "verbosity", kind := .value
     desc := chars! "Specify the verbosity. Valid values are: trace, debug, info, warn, error. Logging \
       messages with a level lower than the specified value will be not printed to the console. Default: \
       error." },
   { long := chars! "version", short := chars! "v", kind := .switch
     desc := chars! "Print the version info." },
   { long := chars! "help", short := chars! "h", kind := .switch
     desc := chars! "Print the help." }
  ]

/-- `privateOpts`, `/repo/src/pdftotext++.cpp:387-548`. -/
def privateOpts : List Opt :=
  [
   { long := chars! "pdf-file", kind := .value
     desc := chars! "The path to the PDF file to process." },
   { long := chars! "output-file", kind := .value
     desc := chars! "The path to the file into which the extracted text should be written." },
   { long := chars! "debug-pdf-parsing", kind := .switch
     desc := chars! "Print the debug messages produced while parsing the content streams of the PDF file." },
   { long := chars! "skip-embedded-font-files-parsing", kind := .switch
     desc := chars! "Skip the parsing of embedded font files. NOTE: Using this option results in a \
       faster extraction process, but a less accurate extraction result." },
   { long := chars! "debug-glyphs-statistics-calculation", kind := .switch
     desc := chars! "Print the debug messages produced while calculating the glyph statistics." },
   { long := chars! "skip-glyphs-statistics-calculation", kind := .switch
     desc := chars! "Skip the calculation of glyph statistics." },
   { long := chars! "debug-diacritic-marks-merging", kind := .switch
     desc := chars! "Print the debug messages produced while merging diacritical marks with their base \
       characters." },
   { long := chars! "skip-diacritic-marks-merging", kind := .switch
     desc := chars! "Skip the merging of diacritical marks with their base characters." },
   { long := chars! "debug-words-detection", kind := .switch
     desc := chars! "Print the debug messages produced while detecting words." },
   { long := chars! "skip-words-detection", kind := .switch
     desc := chars! "Skip the detection of words." },
   { long := chars! "debug-words-statistics-calculation", kind := .switch
     desc := chars! "Print the debug messages produced while calculating the word statistics." },
   { long := chars! "skip-words-statistics-calculation", kind := .switch
     desc := chars! "Skip the calculation of word statistics." },
   { long := chars! "debug-page-segmentation", kind := .switch
     desc := chars! "Print the debug messages produced while segmenting the pages." },
   { long := chars! "skip-page-segmentation", kind := .switch
     desc := chars! "Skip the segmentation of pages." },
   { long := chars! "debug-text-lines-detection", kind := .switch
     desc := chars! "Print the debug messages produced while detecting text lines." },
   { long := chars! "skip-text-lines-detection", kind := .switch
     desc := chars! "Skip the detection of text lines." },
   { long := chars! "debug-sub-super-scripts-detection", kind := .switch
     desc := chars! "Print the debug messages produced while detecting sub-/superscripts." },
   { long := chars! "skip-sub-super-scripts-detection", kind := .switch
     desc := chars! "Skip the detection of sub-/superscripts." },
   { long := chars! "debug-text-lines-statistics-calculation", kind := .switch
     desc := chars! "Print the debug messages produced while calculating the text line statistics." },
   { long := chars! "skip-text-lines-statistics-calculation", kind := .switch
     desc := chars! "Skip the calculation of text line statistics." },
   { long := chars! "debug-text-blocks-detection", kind := .switch
     desc := chars! "Print the debug messages produced while detecting text blocks." },
   { long := chars! "skip-text-blocks-detection", kind := .switch
     desc := chars! "Skip the detection of text blocks." },
   { long := chars! "debug-reading-order-detection", kind := .switch
     desc := chars! "Print the debug messages produced while detecting the reading order." },
   { long := chars! "skip-reading-order-detection", kind := .switch
     desc := chars! "Skip the detection of the reading order." },
   { long := chars! "debug-semantic-roles-prediction", kind := .switch
     desc := chars! "Print the debug messages produced while predicting the semantic roles." },
   { long := chars! "skip-semantic-roles-prediction", kind := .switch
     desc := chars! "Skip the prediction of the semantic roles." },
   { long := chars! "debug-words-dehyphenation", kind := .switch
     desc := chars! "Print the debug messages produced while dehyphenating words." },
   { long := chars! "skip-words-dehyphenation", kind := .switch
     desc := chars! "Skip the dehyphenation of words." },
   { long := chars! "log-page-filter", kind := .value
     desc := chars! "When specified, only the logging messages that are produced while processing the \
       specified page is printed to the console. NOTE: the page numbers are 1-based; so to print the \
       logging messages produced while processing the first page, type \"--log-page-filter 1\". " },
   { long := chars! "print-running-times", kind := .switch
     desc := chars! "Print the running times needed by the different steps in the extraction pipeline." },
   { long := chars! "full-help", kind := .switch
     desc := chars! "Print the full help (containing also the descriptions of all non-public commands)." }
  ]

/-- What is printed for the messages that replace the extraction, `/repo/src/pdftotext++.cpp:563-600`; `none` for
the other actions. -/
def messageOf (p : Program) (s : SerializersOrder) : Action → Option (Outcome Str)
  | .fullHelp => some (helpMessage p (publicOpts s) (some privateOpts))
  | .help => some (helpMessage p (publicOpts s))
  | .version => some (.ok (versionMessage p))
  | _ => none

end Verif.Help
