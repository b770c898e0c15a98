# Formal model of pdftotext++ in Lean 4 - design

## Method
* Source: /repo/src (C++), read as text, never built or run. Every model definition cites file and lines.
* Numbers: C++ `double` is modelled by the rationals `Rat`. Every finite double is a rational, and
  comparisons, min, max, negation are exact on doubles; the rounding error of `+ - * /` and NaN/inf
  are not modelled. `numeric_limits<double>::max()/min()` are kept as explicit rationals because the code
  uses `min()` (the smallest *positive* double) where minus infinity is meant.
* Undefined behaviour and exceptions are distinct outcomes (`Outcome.ub`, `Outcome.throw`).
* `std::sort`, hash-table iteration order, `rand`, cut strategies, TensorFlow output, Poppler events are
  parameters; the assumed contract is a visible hypothesis of the theorem.
* Theorems about the properties live in `Verif/Props/*.lean`, apart from model and helper lemmas.
  Independent specifications live next to them (`Verif/Spec/*.lean`).

* Validation of the model (not proof): `Verif/UnitTests.lean` transcribes every assertion of the repository's own
  unit tests in `/repo/test/utils` that needs no PDF file (463 assertions: arithmetic, text utilities, counters in
  every iteration order, priority queue, comparators, element geometry, log filter, page segments, the item label
  regular expressions) and evaluates each on the model in the kernel. All agree, except `strip("")`, where the test
  expects "" and the model reports the read before the begin of the text as undefined behaviour (C15).
  Not transcribed: assertions on null pointers (excluded by the model's types) and those that need a PDF file.

## Plan per property
* **C01 Tolerance comparisons form a trichotomy** - Definitions over ℚ; linear arithmetic.
* **C02 Element comparators are valid sort orders on parsed coordinates** - Comparators as Bool functions over boxes; strict-partial-order laws in general; strict weak order on grid-separated inputs; witness for failure off the grid.
* **C03 Rounding returns the nearest decimal** - `std::round` modelled as floor(|x|+1/2) with sign; nearest-multiple theorem, idempotence, monotone, odd.
* **C04 Overlap ratios are true fractions** - Closed form against an independent interval-intersection-length spec; bounds; symmetry.
* **C05 Gaps measure the distance between facing edges** - Model both rotation branches; prove for rotations 0/1, disprove for 2/3 by witness.
* **C06 Rotation-aware extents agree with the box** - Case analysis on the four rotations.
* **C07 Most frequent counter entry** - Counter = list of (key,count) entries in arbitrary iteration order; fold invariant; permutation independence.
* **C08 Largest counter key** - Same; witness for keys <= 1e-4; partial theorem for keys > tolerance and pairwise separated.
* **C09 Bounded priority queue** - Queue = list plus comparator; push = (if full, remove a top) then insert, where *which* top is removed is arbitrary; induction over pushes. capacity 0 = UB outcome.
* **C10 Word splitting** - Index-based loop of the code over find_first_of/find_first_not_of, fuel-free well-founded recursion; equality with an independent structural spec.
* **C11 JSON escaping is lossless and safe** - Byte-wise escape; independent JSON string-token decoder; round trip by induction.
* **C12 Text wrapping keeps the text** - Index loop; termination by well-founded recursion; for indent 0 the output has the same length and differs only in space->newline; general indent: erasing the inserted characters gives the text. Width bound: witness against, partial theorem.
* **C13 Joining strings** - fold; split/join round trip for non-empty strings; witness with leading empty string.
* **C14 Shortening and sentence ends** - direct.
* **C15 Stripping whitespace** - Iterator model with UB outcome when walking past the ends; UB exactly on all-whitespace texts.
* **C16 Random identifiers** - rand outcomes as an arbitrary stream; UB (mod 0) for one-letter alphabets; witness-free proof that the last letter never occurs.
* **C17 A cut partitions the elements** - xCut/yCut with arbitrary strategy; induction over candidate list.
* **C18 XY-cut terminates and partitions** - Well-founded recursion on the number of elements; induction.
* **C19 A chosen cut separates the page** - Queue / running-maximum invariant; needs sorted sequence (sort contract) and grid coordinates.
* **C20 Number of elements a vertical cut may cross** - Queue size invariant; counterexample for completeness.
* **C21 Page segmentation covers the page** - xyCut partition + box fold; box theorem partial because the maxima start at the smallest positive double.
* **C22 Words partition the characters** - fold over the character list with arbitrary geometry.
* **C23 Words are homogeneous** - invariant of the active word.
* **C24 Word boxes and texts** - box fold and text fold.
* **C25 Stacked mathematical symbols** - Model of the scan; witness of two operators claiming the same word; partial theorem when operators claim disjoint words.
* **C26 Text lines contain every word once** - cluster + flatten permutation; partial (stacked symbols).
* **C27 Line merging terminates without losing words** - round function, length decreases; fixed point.
* **C28 Text line hierarchy is a forest** - stack algorithm as fold over line indices; invariant.
* **C29 Segment trim box** - direct from counter theorems.
* **C30 Text blocks partition the text lines** - generic splitting by a Boolean start rule; two-level; permutation/order theorem; links.
* **C31 Block start rules** - rule chain as list of three-valued rules.
* **C32 Block text and box** - text and box folds.
* **C33 Reading order keeps every block** - xCut/yCut/xyCut partition + per-group sort + filter.
* **C34 Plain text output** - Serializer model as fold with the prev-block/prev-word flags; independent spec with intercalate.
* **C35 Extended plain text output** - same.
* **C36 JSONL output is line-wise valid JSON** - JSON object emission as text plus an independent JSON recogniser; witness: font name with a quote; lines unit type prints nothing.
* **C37 De-hyphenation loses no text** - Model marking pass + serializer; witness for chains; partial for documents without chained hyphenation.
* **C38 Diacritical marks are attached, not lost** - Model pass over character list; no null base; witness for mark-of-mark.
* **C39 Sub- and superscripts** - direct.
* **C40 Byte pair encoding has fixed length and is deterministic** - encoder model with cache state; invariant over call histories.
* **C41 Role prediction takes the most probable role** - argmax fold.
* **C42 Option values round-trip** - finite tables, all strings.
* **C43 Log filtering** - direct.
* **C44 Pipeline stages run in order and only when enabled** - stages as abstract state transformers.
* **C45 Command line options take effect** - option record -> config; independence proof shows the options are ignored (property refuted for these options).
* **C46 Type 1 font decryption inverts the Adobe cipher** - cipher over BitVec / Nat mod 65536, independent encryptor; induction; separate signed overflow finding.
* **C47 Type 1 charstring numbers** - independent number encoder; all ranges.
* **C48 Glyph boxes contain the outline** - interpreter with point trace; box = min/max of trace.
* **C49 Malformed fonts cannot hang or corrupt the program** - fuel interpreter with UB outcomes; witnesses for divergence, division by zero, empty stack, heap overflow in the PFA branch.
* **C50 Parsed elements are routed to exactly one place** - event state machine; invariant over event lists.
* **C51 Font information exists for every character** - event state machine invariant.
* **C52 Shapes have well-formed boxes** - witness: a path outside the clip box gives an inverted box; partial for paths with a visible point.
* **C53 Document statistics** - folds + counter theorems.
* **C54 Font name normalisation** - string functions.
* **C55 Which vertical cuts page segmentation takes** - the four rules and the loop with the previously chosen cut; characterisation by induction over the candidates.
* **C56 Horizontal cuts delimit multi-column regions** - the two-pointer lookahead loop; every recorded index is one end of a successful lookahead.
* **C57 Reading order follows the layout** - model of ReadingOrderDetection (primary cuts, xy-cut, sort); invariant "everything left/above comes first" by induction over the recursive cuts; exact condition for each primary cut, also in terms of the page's extent (Props/PrimaryCuts).
* **C58 Statistics of words and lines** - folds over pages into counters, then C07/C08.
* **C59 Input of the role prediction** - layout tensor as a list of rows; bounds by cases on the width/height.
* **C60 The text arrives where the user asked** - file system as a map from paths to contents; `mkdir`, `ofstream`.
* **C61 The encrypted part of a Type 1 font** - reader as loops over the stream with a bounds-checked buffer; round trip against an independent writer of PFA/PFB files.
* **C62 Weight, slant, font matrix** - line parser over the clear text; characterisation by the last matching line.
* **C63 Placement of characters** - `drawChar` arithmetic against an independent specification of the text and font matrices.
* **C64 Images** - `drawImage` arithmetic against the visible rectangle.
* **C65 No text gets lost between PDF and output** - composition of all stages (`Model/Pipeline`); document invariant `DocInv` preserved by each stage; permutation of the visible characters.
* **C66 Blocks know their shape** - exact characterisation of each measure in `Spec/BlockShape`.
* **C67 Characters carry what the PDF says** - event state machine, history specification (`Spec/Parsing`).
* **C68 Glyph table of an embedded font** - the two regular expressions and `find` as list functions; round trip against an independent writer of the private part.
* **C69 The finished document is consistent** - a specification of the whole object graph (`Spec/Wiring`), preserved through segments, lines, blocks, reading order.
* **C70 Vocabularies and the words tensor** - `getline`/`stoi` loop over a file; exact content of the maps.
* **C71 Page segments are divided by white strips** - guillotine-cut specification (`Spec/Guillotine`), induction over the xy-cut.
* **C72 Visualization** - list of annotations against the list of detected elements.
* **C73 Item labels** - regular expressions parsed by a model of the ECMAScript grammar and matched by a backtracking matcher; language of each pattern characterised independently.
* **C74 Character names** - table of `CharMap.h` against the texts given in its comments.
* **C75 From drawing operations to printed text** - C67 + C65 composed.
* **C76 Fonts stay known; reasons of failure** - invariant over all stages that each character's font is in the document; enumeration of the failing operations.
* **C77 The whole program** - `main`: command line, file loading, stages, output, exit code.
* **C78 Rounding errors do not change comparisons** - the arithmetic helpers once more, with a rounding function after every operation; IEEE 754 rounding to nearest specified independently (`Spec/Float`) and shown to exist; error bounds by linear arithmetic. This bridges the gap between the rationals of the model and the doubles of the program for everything that only compares, sorts and takes minima and maxima.
* **C79 The reading order depends on the layout only** - two runs of the modelled reading order detection with permuted inputs and two sets of sorting routines; the places where a sorted list falls apart are shown to be the same for every sorted permutation (`Clear` excludes degenerate ties), hence the same groups at every level of the recursion; the result is compared by `TieSwaps` (`Spec/OrderFree`). A page where ties matter refutes the claim without the condition on common edges.
* **C80 The outlines in an embedded font file decide how high its characters are** - `Model/EmbeddedFont.lean` joins the models of the font file's parts, of the glyph table and of the interpreter (with a bound on the steps, shown not to matter) and yields the `embedded` part of an `updateFont` event; the theorems start from the bytes of a file written in the Type 1 format (`Spec/EmbeddedFont.lean`: `IsFont`, `HasMatrix`) and end at the box of the character that `drawChar` creates. Uses C48, C61, C62, C63, C68.
* **C81 Moving the contents of the pages does not change the text** - a relation between two runs: `Spec/Move.lean` moves every coordinate of a document; for every function of every stage it is shown that it commutes with the move (`Props/Move*.lean`), using that coordinates are only compared with each other and that hulls start with `dblMax`/`dblMin`, beyond every coordinate. The stages are joined with the invariants of C69. Without the assumption on the network, the two runs are compared as in C90 (`Props/MoveNetwork.lean`).
* **C82 Every object of a document is released exactly once** - a heap with the objects of a document and the pointers that the destructors follow; the operations are the creations and hand-overs of the parser and the stages, in any order. Invariant: the objects that are alive are, without overlap, the footprints of the pages and font infos (what their destructors reach) and the lost objects. Each destructor is shown to release exactly its footprint. The reading order is connected with C33.
* **C83 Further pages at the end do not change the pages before them** - two runs of the pipeline model, step by step: after every stage the pages and lines of the shorter document are a prefix of those of the longer one, given that the statistics they read are equal. For the stages with state over the pages (footnote labels, line numbers, line lists) the loops are shown to compute the prefix first. For the text, the join of hyphenated words at the border is excluded by the premise on the last word, and the serializers are shown to write blocks one after the other.
* **C84 The output formats tell the same text** - on the trace of a run: block texts from the block stage (kept by the reading order), word texts from the word stage (kept by the merging of operators, segments, lines and blocks), no hyphenation marks if no line ends with a hyphen; then the outputs through C34 and C36, with the text members of the parsed JSON objects.
* **C85 The help describes every option** - model of the help page and of the two option tables (transcribed by script); the page for arbitrary tables through C10, C12 and C15; the real tables checked by the kernel for both iteration orders; a frame theorem for switches outside the tables.
* **C86 The switches of the last stages** - a run is split before the reading order stage; the first half is the same for both configurations, the JSONL output and the drawings do not read the hyphenation flags, and the reading order stage permutes the blocks (C25) up to their roles and ranks.
* **C87 The ids link the records** - a join on the parsed records (C36) of a labelled document; the texts through C84's invariants of the finished document; list lemmas on filtering by distinct keys.
* **C88 The report of the running times** - arithmetic on the rounded shares, induction over the list of timings; that the switch only adds: the parsed arguments of both command lines differ in one field, case analysis of `main`.
* **C89 The output is valid UTF-8** - an ASCII byte separates two encoded texts (induction over the characters); an invariant of the stages for the texts of characters, words, joined words and blocks; induction over the serializers; case analysis of `main`.
* **C90 What the neural network can change** - two runs with different networks are equal up to the detection of blocks; the XY-cut of relabelled elements is the relabelled XY-cut (the lemmas of C81 with a move by 0), because `choosePrimaryYCuts` only asks for three roles; then dehyphenation and the serializers are compared block by block.
* **C91 Boxes lie inside each other** - on the finished document of a complete run (C69): words by `createWord`, lines by the invariant of C69 through creation and merging, blocks by `createTextBlock`; the edges of a hull are edges of its parts, so regions are inherited; upside-down characters are a concrete run.
* **C92 Blocks are read from top to bottom and from left to right** - invariant of line merging: the lines are sorted by the key of the comparator, and the key of a merged line is that of one of its parts (edges of hulls); then through the finished document of C69 and the division of segments into blocks (C30); turned text by concrete runs.
* **C93 The result does not depend on uninitialised memory** - the role of a text block is the only member that is read without having been written; it is a parameter of the model. Two runs with different values are compared: equal up to block detection, equal up to roles after it, and `assignRoles` overwrites the role of every block.
* **C94 Pages without text at the end do not change the output** - the runs on the two documents side by side, as for C83; that the statistics are the same is proved (loops over empty pages and segments add nothing), and the further pages have no words, lines and blocks by the invariants of the run.
* **C95 The descriptions of elements identify them** - `Model/Descriptions.lean` models `toString`/`toShortString` of all element classes; numbers contain no separator, so that a description can be cut at the separators from the left (from the right for text lines, whose text comes first).
* **C96 Ranks tell the extraction order** - ranks of characters are kept by `Diacritics.step`; the words of a page carry their positions and divide its characters in order (C22), the printed words are words of the page (the page invariant of C65); blocks get their positions when they are created (C30) and are only permuted afterwards (C33). For files: the history of the parser (C50) is ordered by pages.
* **C97 The output options only select** - the table of paragraphs (records) of a document is read off the model of the serializers; picking from it is shown equal to the loops with their role filters, by induction over pages, blocks and units. For the program: the steps of the pipeline depend only on the skip options (C44), the rest of `main` is C45.
* **C98 The order of the entries of hash tables matters only for ties** - the model takes the iteration orders of the hash tables as parameters (`HashOrder`, `iter`). For each use of a counter the result is shown to be the same for two orders unless there is a tie (C07); then stage by stage up to the environment of the program. For the table of words: with one direction there is one group, its lines are sorted by height, and the sorted list of lines with different heights is unique.
* **C99 A column set in fixed-width type is extracted exactly, with its paragraphs** - the characters of the page are computed from the rows by a small specification (`typedRows`). The stages are followed one by one with explicit results (statistics, marks, words, segment, lines, blocks, reading order, output), each by induction over the rows and words; paragraphs are specified by a recursion over the rows (`paragraphs`) that only compares widths, joined words by a recursion that only looks at the ends of rows (`joinRows`); the third-party sorts are only known by their contracts; the records of the JSONL output are specified by their members (`Tells`); `c99_program` connects the page with the drawing operations of a PDF file and with what the program writes; the premises are met by a file of fourteen drawing operations that the kernel parses.

## Trusted base
* Lean 4.33.0's kernel (each module is replayed by vcheck), and that the statements mean what their comments say.
* Axioms: only `propext`, `Quot.sound` and `Classical.choice` of Lean's library. `AXIOMS.md` (generated by `tools/axioms.py` with
  `#print axioms`) lists for every theorem of MANIFEST.json the axioms it depends on. No axiom is added, and neither compiled
  evaluation nor external solvers are used; `decide +kernel` only evaluates decidable propositions in the kernel (in non-vacuity examples and
  in counterexamples, and for finite tables such as the option values and the character map).
* The correspondence between the model and the C++ source, which was established by reading. Every model definition cites the file and
  the lines it models.

## What is modelled
| Source | Model | Claims |
|---|---|---|
| utils/MathUtils, Types (positions), utils/PdfElementsUtils, utils/Comparators.h | Math, Box, Hull | C01-C06 |
| utils/Counter, utils/FixedCapacityPriorityQueue.h | Counter, PriorityQueue | C07-C09 |
| utils/TextUtils, utils/Log | Text, Log | C10-C16, C43 |
| utils/XYCut, PageSegmentation, utils/PageSegmentationUtils | XYCut, PageSegmentation | C17-C21, C55, C56, C71 |
| WordsDetection(+Utils) | Words | C22-C25 |
| TextLinesDetection(+Utils) | TextLines | C25-C29 |
| TextBlocksDetection(+Utils), Config.h (regular expressions) | TextBlocks, ItemLabel | C30-C32, C66, C73 |
| ReadingOrderDetection | ReadingOrder | C33, C57 |
| serializers/*, PdfDocumentSerialization | Serializers, Cli | C34-C36, C60 |
| WordsDehyphenation, DiacriticalMarksMerging, SubSuperScriptsDetection | Dehyphenation, Diacritics, Scripts | C37-C39 |
| utils/BytePairEncoder, SemanticRolesPrediction | Bpe, Roles, Vocab | C40, C41, C59, C70 |
| Validators.cpp, PdfToTextPlusPlus, pdftotext++.cpp | Cli, Pipeline, Program | C42, C44, C45, C65, C69, C76, C77, C81 |
| utils/PdfFontInfoParser | Type1, FontInfo, GlyphTable, EmbeddedFont | C46-C49, C54, C61, C62, C68, C80 |
| PdfParsing, utils/CharMap.h | Parsing, CharMap, EndToEnd | C50-C52, C63, C64, C67, C74, C75 |
| *StatisticsCalculation | Statistics | C53, C58 |
| PdfDocumentVisualization | Visualization | C72 |
| Types (destructors), the `new` and `push_back` of the parser and the stages | Ownership | C82 |

## What is not modelled, or only as a parameter
* Floating point rounding of `+ - * /`, infinities and NaN (except NaN in the network's output, which is `none`). The unqualified `abs` of
  TextBlocksDetection(+Utils) is taken to be the overload for doubles.
* Poppler: it is the source of an arbitrary sequence of drawing events (`Spec.Parsing`), whose `getFontTransMat` is specified
  as `popplerFontTrans`; opacity, colour, and the random ids of the elements are not modelled. Loading a file may fail or succeed arbitrarily.
* TensorFlow: the network's output is an arbitrary list of numbers.
* utf8proc and Poppler's UnicodeMap (the parameter `compose`); a failure of utf8proc_map; `from_bytes` of invalid UTF-8.
* Formatting and reading floating point numbers (`Printer`, `numbers`); time stamps; running times; boost's tokenisation of the command line;
  the help and version texts; the recursion depth of std::regex; memory exhaustion. Lengths are below 2^32 where the code truncates.
* `std::sort`, `partial_sort_copy`, heaps and hash-table orders are parameters with their documented contracts (`LibContract`,
  `LineLibContract`, `HeapContract`, `SortContract`); each contract is shown to be met by a reference implementation.
* Glyph charstrings are decrypted first and interpreted afterwards (in the source both happen in one pass); `|` in the PFB header is evaluated from left to right.
* Constructors, `toString` methods, and the lifetime of objects that do not belong to a document (loggers, serializers, Poppler's objects), except where a claim says so.

## Validation of the model against the repository's tests
The model is executable, so the expectations of the repository's own tests are checked on it. `lean/Verif/Conformance/*.lean` transcribes the
assertions of MathUtilsTest, PdfElementsUtilsTest, ComparatorsTest, CounterTest and TextUtilsTest as kernel-checked examples. The tests that
need a PDF file are replayed (tools/replay/README.md): a small PDF reader plays Poppler, the model parses the embedded fonts, the characters
and runs all stages. WordsDetectionUtilsTest, TextLinesDetectionUtilsTest and TextBlocksDetectionUtilsTest (333 assertions read by machine) come
out exactly as the C++ tests assert, to the last decimal, the 53 text blocks of test/pdfs/1-article-two-columns.pdf have the
rectangles that the program itself once drew into 1-article-two-columns.vis-blocks.pdf, and the end-to-end test agrees up to two ligatures that the stand-in for Poppler delivers differently.
This is evidence for the model, not part of any proof.

## Findings: places where the code does not do what its documentation or a user expects
Each one is a theorem named `..._refuted`, `..._undefined` or an `example` beside the property's theorem.
1. Comparators with a tolerance are no strict weak orders off the parser's grid (C02). Gaps of text turned by 180 or 270 degrees change their sign (C05).
2. Searches for maxima start at the smallest *positive* double (C08, C21, C24, C32, C52).
3. Wrapping ignores the indent in the last line (C12); joining drops a leading empty string (C13); stripping a blank text is undefined (C15); random ids never contain the last letter (C16).
4. Moving all text to the right by a fifth of a unit can merge three paragraphs (C81). A vertical cut crossing one element can be missed (C20); a rule without thickness is taken for a gap (C57); which of two elements with a common edge was drawn first can decide about the reading order (C79).
5. Two stacked operators can claim the same word: it is printed twice or lost (C25). A line with tiny text makes the program throw (C26).
6. Children of a line need not be further indented (C28); a new block can start within a figure (C31).
7. An empty selection of roles prints nothing (C34); font names are not escaped in JSONL and the unit `lines` prints nothing (C36); words hyphenated over three lines lose text (C37); two marks on one base lose one (C38); sub- and superscripts of turned text are swapped (C39).
8. A second text encoded into the same vector is cut (C40); blocks without a positive probability become paragraphs, missing rows are undefined (C41); words starting with a character above U+00FF are undefined behaviour (C59); last vocabulary line without newline is not read, unreadable vocabularies hang (C70).
9. Several options have no effect (C45); the help prints a line of 102 characters although its width is 100 (C85), and the description of the program mentions `--output-*` options that do not exist; failing to write ends with exit code 0, and output paths are interpreted by the shell (C60).
10. Type 1 fonts: signed overflow in the cipher (C46), no box for accented characters and fractions cut to integers (C48), endless recursion, division by zero, empty-stack pops (C49), hexadecimal fonts always overflow the buffer (C61), font matrices with more than six numbers (C62), `-|` instead of `RD` yields no glyphs, `ND` in the data cuts the subroutines (C68).
11. Invisible paths become inverted shapes (C52); images filling the clip box's width are dropped (C64); upside-down text has inverted boxes (C63); outlines wider than the advance reach out of the box (C80); text drawn under another clip box is not printed (C75).
12. Labels: "." and "()" are labels, brackets need not match, "[Enn2020]" is none (C73). `thumbs_up` and three more names have the wrong text (C74). A page with a single block shows no reading-order number (C72). Merged words, merged lines and trial cuts are never released (C82). The JSONL output keeps hyphenated words apart that the plain text joins (C84); later pages may change the paragraphs of earlier ones through the statistics (C83).
13. Observed while modelling, without an own claim: `restoreState` is not overridden in PdfParsing.h, so the font may be stale after `Q`; same-named fonts share the first font's information; the base line of vertically written characters is 0; the reading order stage always predicts roles, and roles are uninitialised if it is skipped; with `--visualize-text-blocks --visualize-reading-order` blocks are drawn twice.

## Why claims are partial
A claim is `partial` in the manifest if its English statement is not true of the code for every input, or not expressible in full; the
theorems prove it exactly where it holds, and the rest is refuted. (Generated by tools/design.py from MANIFEST.json.)

* **C05** - Proved for rotations 0/1 and distinct left/upper edges; refuted for rotations 2/3 (sign flipped) and equal edges (argument order matters).
* **C08** - Proved for positive keys rounded to at most 3 decimals; refuted for non-positive keys (the search starts at DBL_MIN > 0) and for keys closer than the tolerance (order dependent).
* **C12** - Content preservation and the width of all lines but the last are proved; the width claim is refuted for the last line (indent ignored, too long word disables wrapping).
* **C13** - Proved for lists whose first string is non-empty; refuted for leading empty strings.
* **C15** - Proved for texts with a non-blank character; refuted for blank texts: undefined behaviour.
* **C16** - Shape proved; 'every character can occur' is refuted for the last letter of the alphabet; one-letter alphabets divide by zero.
* **C20** - The bound on the crossings is proved, and completeness for cuts crossing nothing; completeness for crossed gaps is refuted: the search looks only at the rightmost elements and may miss a cut crossing one element.
* **C21** - Coverage is proved for all pages; the box theorem needs positive right and lower edges (maxima start at the smallest positive double), refuted otherwise.
* **C24** - Everything is proved for all inputs except that the box is smallest, which needs positive right and lower edges and is refuted otherwise.
* **C25** - Exact characterisation of the attached words; each word is attached exactly once if operators claim disjoint words and no operator is claimed itself; refuted otherwise (printed twice / lost).
* **C26** - Every word exactly once, no empty line, line text, box, order and links are proved for words that contain a character with a font size above 0.0001; a line of smaller text makes the program throw (refuted part). The page level statement assumes that the operators' claims are disjoint (C25).
* **C28** - Forest, siblings and the conditions for links are proved for all pages; 'the parent is less indented' holds for the first sibling only and is refuted for drifting siblings.
* **C31** - Both rule chains are characterised exactly and the boundaries of the blocks are derived from them; 'two lines in the same figure never start a new block' holds for the first pass only and is refuted for the second pass. The regular expressions for item labels are characterised in C73.
* **C32** - Everything is proved except that the box is smallest for non-positive coordinates (see C21).
* **C34** - Exact for every document and every selection of roles; an empty selection prints nothing although Serializer.h documents that it prints everything (refuted part; the command line default selects all roles).
* **C36** - Every line parses (RFC 8259) to exactly the expected object, one line per selected element, for documents whose font names contain no quote, backslash or control character; refuted otherwise (font names are not escaped), and the accepted unit 'lines' produces no output. Number formatting by the standard library is assumed to yield JSON numbers.
* **C37** - Exact for every document without chains (single-word lines that both continue and start a hyphenated word); refuted for chains (text is lost) and for a selection of roles that drops the block with the first part.
* **C38** - Exact characterisation of the merging for every page, no undefined behaviour; nothing is lost if no two marks share a base and no mark is merged with a mark (in particular for marks three or more positions apart); refuted otherwise. utf8proc's composition is uninterpreted.
* **C39** - Flags characterised exactly for every page; they mean what a reader expects for upright text and text turned by 270 degrees; for text turned by 90 or 180 degrees sub- and superscripts are swapped (refuted part).
* **C40** - Greedy longest-match encoding is unique, independent of earlier calls and its tokens concatenate to the word; the requested length is that of the whole result vector, so a call with a non-empty vector cuts or pads too little (refuted part); a vocabulary that contains the padding symbol is ambiguous.
* **C41** - Proved if the network returns one row of non-negative numbers per block; blocks whose row has no positive number become paragraphs (refuted part), and missing rows are undefined behaviour.
* **C45** - --skip-*, --verbosity, --debug-*, --log-page-filter, --role, --format, --help, the output file and the exit codes are proved to act as documented (--debug-* hides trace messages); --no-dehyphenation, --no-scripts, --control-characters, --semantic-roles and --skip-semantic-roles-prediction are proved to have no effect (refuted part). Boost's tokenisation is not modelled.
* **C46** - Decryption inverts the Adobe cipher for every plain text, key and random bytes if signed overflow wraps; the arithmetic is done in int, so for most inputs the C++ standard calls it undefined (characterised: c46_overflow; c46_strict_agrees shows both readings agree whenever nothing overflows).
* **C48** - The box is the least one around the outline for every charstring drawn with the path operators, side bearings, hints, subroutines and integer divisions; accented characters (seac) get no box, and division is modelled for integer quotients (refuted parts beside the theorem).
* **C49** - Every charstring without subroutine calls, or whose subroutines do not call each other in a circle, halts; the causes of undefined behaviour are characterised; endless recursion, division by zero, popping an empty stack and reading behind the buffer are shown by concrete fonts (refuted parts).
* **C52** - Proved for every path with at least one visible point (well-formed, inside the clip box, smallest if the clip box lies at positive coordinates); refuted for paths without a visible point: they become shapes whose box is inside out.
* **C59** - One row per block with the documented values, all between 0 and 1, whenever every word starts with a character up to U+00FF; other words are undefined behaviour (refuted part). Only the lowest byte decides about 'not ASCII'.
* **C60** - Destination proved for every path and file system; refuted: failures end with exit code 0, files in the root directory are never written, and the path is interpreted by the shell.
* **C61** - For files with a binary encrypted part, with or without segment headers, the clear text and the decrypted text are recovered exactly; a hexadecimal encrypted part is always undefined behaviour, and fonts shorter than the announced header are read outside the buffer (refuted parts).
* **C62** - Exact characterisation for every font and font file whose /FontMatrix entries have at most six numbers; refuted: more numbers are written behind the array, and every /ItalicAngle line other than literally '/ItalicAngle 0 def' (for instance with a carriage return, or 0.0) makes the font italic. A /Weight entry overrides the name, also 'black'. Reading a number from a stream is a parameter.
* **C63** - Pen positions, ascent/descent box, glyph box, choice and rotation proved for all states; the metric box is well-formed for text running right, down and up; refuted for text that is upside down: left and right edge are swapped. Poppler's getFontTransMat is specified in Spec/Parsing.lean.
* **C64** - Recording condition and box characterised exactly for all matrices and clip boxes; refuted: an image that fills the width of its clip box is not recorded, and an image turned by a quarter gets a box without extent.
* **C65** - No failure, preservation of the words (with the order of visits around stacked operators, C25) and the empty output of incomplete runs proved for all parsed documents and configurations; the claim about the printed characters is proved under the assumption that stacked operators do not interfere (C25 is refuted otherwise) and, with dehyphenation, that no word is hyphenated twice in a row (C37).
* **C68** - Proved for every private part in which only the entries themselves look like entries and the subroutines' data do not contain the letters ND (with wrap-around decryption, see C46); refuted: fonts that use another reading command than RD yield no glyph at all, ND inside the data cuts the subroutines off, announced lengths beyond the end are read out of bounds, numbers beyond int are an exception.
* **C70** - Proved for readable files: exact content of both maps, malformed and missing files, words tensor. Refuted: a last line without newline is not read; a file that becomes unreadable (bytes that are no UTF-8, a directory) makes the program run forever; after a failed attempt the same object predicts without vocabulary.
* **C72** - Refuted for a page with a single block: it gets no number (c72_single_block_refuted). Poppler's drawing of annotations, loading and saving are not modelled.
* **C73** - The labels are characterised exactly for all texts. Refuted against the documentation: [Enn2020] is not recognised; a dot, empty brackets and brackets that do not fit together are. The recursion depth of std::regex is not modelled.
* **C74** - Proved for all names but five; for these it is refuted: the literals of thumbs_up, thumbs_up_alt, thumbs_down and thumbs_down_alt are a Greek letter followed by a Latin one, and controlNULL has an empty text.
* **C75** - Proved for text drawn under the clip box of the page; text drawn under another clip box becomes part of a figure and is not printed (refutes the unrestricted claim, C50). Pages with interfering mathematical operators are excluded (C25).
* **C77** - Text: proved for text drawn under the clip box of the page (other text becomes part of a figure and is not printed, C50), for pages without interfering operators (C25) and, with dehyphenation, without words hyphenated twice (C37); without these restrictions the claim is false.
* **C80** - Proved for files in binary form that name the reading command RD (C61, C68), for glyphs without seac and with integer quotients (C48), and for text that runs horizontally or vertically; vertically the outline lies in the box up to a tenth and the rounding. Horizontally the claim is false: c80_overhang_refuted (finding).
* **C81** - Proved for the whole run, for moves to the right by whole units (any distance downwards), text that is not turned by 90 or 270 degrees, coordinates the program can handle before and after, words with less than 2^32 characters, and under the assumption that the network predicts the same roles in both runs (its features contain positions relative to the page); whatever the network predicts, only the order and the roles of the blocks can be different (c81_any_network_partial). Otherwise the claim is false: a move by a fifth of a unit merges three paragraphs (c81_fraction_refuted), and the trim box of turned text follows the wrong direction (c81_turned_refuted).
* **C82** - Proved: no double release, no use after a release, for every history of creations cut off at any point; exactly the objects that were handed over to no owner stay allocated, and their number is exact. The part that nothing stays allocated is false: merged hyphenated words, merged text lines, and the trial cuts of the cut choosers have no owner (c82_leak_refuted). That every block appears once in the new reading order is a hypothesis of the theorem on histories and is proved of the modelled stage (c82_order_permutes). Objects that are not part of the document (logger, serializers, Poppler's) are not modelled.
* **C84** - Words and characters are proved without restriction (font names without quotes, see C36). The paragraphs are proved for documents in which no line ends with a hyphenated word, or without dehyphenation; otherwise the claim is false: the plain text joins the parts, the JSONL output keeps the hyphen and a blank (c84_hyphen_refuted).
* **C85** - Proved, including the real option tables; the intended width of 100 characters is refuted (c85_width_refuted: a line of 102 characters, because wrap ignores the indent for the last line). That a switch is read does not mean it has an effect (C45). Boost's tokenisation (for example the guessing of abbreviated names) is not modelled.
* **C88** - Refuted parts: a run in which every step takes less than a millisecond has no percentages but 0 / 0 (c88_percent_refuted); the durations are not aligned for five of the program's own steps (c88_aligned_refuted); the report goes to standard output behind the extracted text, so a reader of the text gets it, too (c88_stdout_refuted).
* **C89** - Premises: the composition of a base character with its mark (utf8proc) gives UTF-8; the code points of the characters are Unicode scalar values (the model's characters can't be lone surrogates, which Poppler would encode, too). Refuted parts: a font name that is not UTF-8 makes the JSONL output invalid (c89_font_refuted); shortening a text for the log cuts characters apart (c89_shorten_refuted).
* **C91** - Boxes, containment of lines and words, and regions are proved for all documents. That a word (and so its line, block and segment) contains its characters is proved for characters with well-formed boxes, and refuted for text that is upside down (c91_upside_down_refuted: the parser records such boxes inside out, C63, and the word, line and block are too small). Segments contain their lines if no word is attached to an operator.
* **C92** - Proved for upright text and text standing on its head. For text turned by 90 degrees only the direction within a line is right: the lines are sorted from left to right although the right one is the first (c92_turned_refuted), and lines beside each other that overlap vertically are mixed up (c92_mixed_refuted); what the code does for turned text is c92_turned_partial.
* **C93** - Proved for every run with reading order detection (the roles are predicted there, and every block gets one). If it is switched off, the roles of all blocks are left uninitialised (c93_refuted); then the document is the same in everything else, and so are the plain text and the JSONL output without blocks if all roles are printed (c93_roles_only).
