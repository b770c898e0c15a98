STATUS.update({
"C01": ("proved", "Exact over the rationals."),
"C02": ("proved", "Includes the negative part: un-rounded coordinates break the strict weak order (finding F1)."),
"C03": ("proved", "Exact arithmetic; double rounding of d*10^n is outside the model."),
"C04": ("proved", ""),
"C05": ("partial", "Proved for rotations 0/1 and distinct left/upper edges; refuted for rotations 2/3 (sign flipped) and equal edges (argument order matters)."),
"C06": ("proved", ""),
"C07": ("proved", ""),
"C08": ("partial", "Proved for positive keys rounded to at most 3 decimals; refuted for non-positive keys (the search starts at DBL_MIN > 0) and for keys closer than the tolerance (order dependent)."),
"C09": ("proved", "For every heap implementation satisfying the top contract."),
"C10": ("proved", ""),
"C11": ("proved", ""),
"C12": ("partial", "Content preservation and the width of all lines but the last are proved; the width claim is refuted for the last line (indent ignored, too long word disables wrapping)."),
"C13": ("partial", "Proved for lists whose first string is non-empty; refuted for leading empty strings."),
"C14": ("proved", ""),
"C15": ("partial", "Proved for texts with a non-blank character; refuted for blank texts: undefined behaviour."),
"C16": ("partial", "Shape proved; 'every character can occur' is refuted for the last letter of the alphabet; one-letter alphabets divide by zero."),
"C17": ("proved", ""),
"C18": ("proved", ""),
"C19": ("proved", "For upright elements with coordinates rounded by the parser and gap limits above the tolerance."),
"C20": ("partial", "The bound on the crossings is proved, and completeness for cuts crossing nothing; completeness for crossed gaps is refuted: the search looks only at the rightmost elements and may miss a cut crossing one element."),
"C21": ("partial", "Coverage is proved for all pages; the box theorem needs positive right and lower edges (maxima start at the smallest positive double), refuted otherwise."),
"C55": ("proved", ""),
"C56": ("proved", ""),
"C22": ("proved", ""),
"C23": ("proved", "Boundaries characterised exactly for upright characters with positive coordinates; homogeneity for all characters. Findings: vertical text becomes one-character words, text rotated by 180 degrees is never split at gaps."),
"C24": ("partial", "Everything is proved for all inputs except that the box is smallest, which needs positive right and lower edges and is refuted otherwise."),
"C25": ("partial", "Exact characterisation of the attached words; each word is attached exactly once if operators claim disjoint words and no operator is claimed itself; refuted otherwise (printed twice / lost)."),
"C26": ("partial", "Every word exactly once, no empty line, line text, box, order and links are proved for words that contain a character with a font size above 0.0001; a line of smaller text makes the program throw (refuted part). The page level statement assumes that the operators' claims are disjoint (C25)."),
"C27": ("proved", "Rounds, their number, the words and the fixed point are proved for all lines of words with a font size above 0.0001 (others make the program throw, see C26)."),
"C28": ("partial", "Forest, siblings and the conditions for links are proved for all pages; 'the parent is less indented' holds for the first sibling only and is refuted for drifting siblings."),
"C29": ("proved", "Finding: for rotated lines the right end is a y-coordinate, so the trim box is meaningless."),
"C30": ("proved", ""),
"C31": ("partial", "Both rule chains are characterised exactly and the boundaries of the blocks are derived from them; 'two lines in the same figure never start a new block' holds for the first pass only and is refuted for the second pass. The regular expressions for item labels are characterised in C73."),
"C32": ("partial", "Everything is proved except that the box is smallest for non-positive coordinates (see C21)."),
"C33": ("proved", "Finding: the ranks and links of the blocks are not updated after the reordering."),
"C57": ("proved", "For upright elements with rounded coordinates; lines without thickness that begin exactly at the edge of another element are excepted, with a refuting example (finding: such a rule is taken for a gap)."),
"C34": ("partial", "Exact for every document and every selection of roles; an empty selection prints nothing although Serializer.h documents that it prints everything (refuted part; the command line default selects all roles)."),
"C35": ("proved", ""),
"C36": ("partial", "Every line parses (RFC 8259) to exactly the expected object, one line per selected element, for documents whose font names contain no quote, backslash or control character; refuted otherwise (font names are not escaped), and the accepted unit 'lines' produces no output. Number formatting by the standard library is assumed to yield JSON numbers."),
"C37": ("partial", "Exact for every document without chains (single-word lines that both continue and start a hyphenated word); refuted for chains (text is lost) and for a selection of roles that drops the block with the first part."),
"C38": ("partial", "Exact characterisation of the merging for every page, no undefined behaviour; nothing is lost if no two marks share a base and no mark is merged with a mark (in particular for marks three or more positions apart); refuted otherwise. utf8proc's composition is uninterpreted."),
"C39": ("partial", "Flags characterised exactly for every page; they mean what a reader expects for upright text and text turned by 270 degrees; for text turned by 90 or 180 degrees sub- and superscripts are swapped (refuted part)."),
"C40": ("partial", "Greedy longest-match encoding is unique, independent of earlier calls and its tokens concatenate to the word; the requested length is that of the whole result vector, so a call with a non-empty vector cuts or pads too little (refuted part); a vocabulary that contains the padding symbol is ambiguous."),
"C41": ("partial", "Proved if the network returns one row of non-negative numbers per block; blocks whose row has no positive number become paragraphs (refuted part), and missing rows are undefined behaviour."),
"C53": ("proved", ""),
"C58": ("proved", "Finding: the distance of rotated lines is measured along the wrong axis and is 0."),
"C59": ("partial", "One row per block with the documented values, all between 0 and 1, whenever every word starts with a character up to U+00FF; other words are undefined behaviour (refuted part). Only the lowest byte decides about 'not ASCII'."),
"C42": ("proved", "Finding: the format jsonl (README) has a name but no registered serializer, --format jsonl is an error."),
"C43": ("proved", ""),
"C44": ("proved", "For arbitrary stages, load results and configurations."),
"C45": ("partial", "--skip-*, --verbosity, --debug-*, --log-page-filter, --role, --format, --help, the output file and the exit codes are proved to act as documented (--debug-* hides trace messages); --no-dehyphenation, --no-scripts, --control-characters, --semantic-roles and --skip-semantic-roles-prediction are proved to have no effect (refuted part). Boost's tokenisation is not modelled."),
"C60": ("partial", "Destination proved for every path and file system; refuted: failures end with exit code 0, files in the root directory are never written, and the path is interpreted by the shell."),
"C46": ("partial", "Decryption inverts the Adobe cipher for every plain text, key and random bytes if signed overflow wraps; the arithmetic is done in int, so for most inputs the C++ standard calls it undefined (characterised: c46_overflow; c46_strict_agrees shows both readings agree whenever nothing overflows)."),
"C47": ("proved", ""),
"C48": ("partial", "The box is the least one around the outline for every charstring drawn with the path operators, side bearings, hints, subroutines and integer divisions; accented characters (seac) get no box, and division is modelled for integer quotients (refuted parts beside the theorem)."),
"C49": ("partial", "Every charstring without subroutine calls, or whose subroutines do not call each other in a circle, halts; the causes of undefined behaviour are characterised; endless recursion, division by zero, popping an empty stack and reading behind the buffer are shown by concrete fonts (refuted parts)."),
"C61": ("partial", "For files with a binary encrypted part, with or without segment headers, the clear text and the decrypted text are recovered exactly; a hexadecimal encrypted part is always undefined behaviour, and fonts shorter than the announced header are read outside the buffer (refuted parts)."),
"C54": ("proved", ""),
"C62": ("partial", "Exact characterisation for every font and font file whose /FontMatrix entries have at most six numbers; refuted: more numbers are written behind the array, and every /ItalicAngle line other than literally '/ItalicAngle 0 def' (for instance with a carriage return, or 0.0) makes the font italic. A /Weight entry overrides the name, also 'black'. Reading a number from a stream is a parameter."),
"C50": ("proved", "Clip boxes count as equal if no coordinate differs by more than 0.1 (the code's tolerance); the run succeeds on every orderly sequence of events (c50_runs)."),
"C51": ("proved", "The name is the one set by the last font event (c51_last_font); fonts of the same name share the information of the first one."),
"C52": ("partial", "Proved for every path with at least one visible point (well-formed, inside the clip box, smallest if the clip box lies at positive coordinates); refuted for paths without a visible point: they become shapes whose box is inside out."),
"C63": ("partial", "Pen positions, ascent/descent box, glyph box, choice and rotation proved for all states; the metric box is well-formed for text running right, down and up; refuted for text that is upside down: left and right edge are swapped. Poppler's getFontTransMat is specified in Spec/Parsing.lean."),
"C64": ("partial", "Recording condition and box characterised exactly for all matrices and clip boxes; refuted: an image that fills the width of its clip box is not recorded, and an image turned by a quarter gets a box without extent."),
"C65": ("partial", "No failure, preservation of the words (with the order of visits around stacked operators, C25) and the empty output of incomplete runs proved for all parsed documents and configurations; the claim about the printed characters is proved under the assumption that stacked operators do not interfere (C25 is refuted otherwise) and, with dehyphenation, that no word is hyphenated twice in a row (C37)."),
"C66": ("proved", "Hanging indents for fewer than 2^32 lines (the counter is a 32-bit sum). Finding: labels are searched byte by byte (c31_bullet_is_label)."),
"C67": ("proved", "Poppler's graphics state is the event's content; opacity, colour and ids are not modelled."),
"C68": ("partial", "Proved for every private part in which only the entries themselves look like entries and the subroutines' data do not contain the letters ND (with wrap-around decryption, see C46); refuted: fonts that use another reading command than RD yield no glyph at all, ND inside the data cuts the subroutines off, announced lengths beyond the end are read out of bounds, numbers beyond int are an exception."),
"C69": ("proved", "For runs with all stages enabled that end with exit code 0 (the only other outcomes are those of C65); glyph boxes rounded, within the page limits; counters below 2^32; the network's output is arbitrary."),
"C70": ("partial", "Proved for readable files: exact content of both maps, malformed and missing files, words tensor. Refuted: a last line without newline is not read; a file that becomes unreadable (bytes that are no UTF-8, a directory) makes the program run forever; after a failed attempt the same object predicts without vocabulary."),
"C71": ("proved", "For upright elements with coordinates rounded by the parser (rotated text: see C19)."),
"C72": ("partial", "Refuted for a page with a single block: it gets no number (c72_single_block_refuted). Poppler's drawing of annotations, loading and saving are not modelled."),
"C73": ("partial", "The labels are characterised exactly for all texts. Refuted against the documentation: [Enn2020] is not recognised; a dot, empty brackets and brackets that do not fit together are. The recursion depth of std::regex is not modelled."),
"C74": ("partial", "Proved for all names but five; for these it is refuted: the literals of thumbs_up, thumbs_up_alt, thumbs_down and thumbs_down_alt are a Greek letter followed by a Latin one, and controlNULL has an empty text."),
"C75": ("partial", "Proved for text drawn under the clip box of the page; text drawn under another clip box becomes part of a figure and is not printed (refutes the unrestricted claim, C50). Pages with interfering mathematical operators are excluded (C25)."),
"C76": ("proved", "Assumes that Poppler's coordinates lie between the smallest and largest double value (Drawable) and that std::sort sorts (LibOk). The three reasons are real: c59_wide_character_undefined, c41_missing_rows_undefined."),
"C77": ("partial", "Text: proved for text drawn under the clip box of the page (other text becomes part of a figure and is not printed, C50), for pages without interfering operators (C25) and, with dehyphenation, without words hyphenated twice (C37); without these restrictions the claim is false."),
"C78": ("proved", "Above 2^39 the trichotomy of the comparisons fails in double arithmetic (c78_huge_refuted); coordinates of that size do not occur in PDF files. Infinities and NaN are not modelled."),
"C79": ("proved", "Hypotheses: parsed coordinates, no line without extent at the edge of another element (c57_rule_cuts_through_block). Without the agreement of elements with a common edge the claim is false: c79_ties_matter_refuted (finding)."),
"C80": ("partial", "Proved for files in binary form that name the reading command RD (C61, C68), for glyphs without seac and with integer quotients (C48), and for text that runs horizontally or vertically; vertically the outline lies in the box up to a tenth and the rounding. Horizontally the claim is false: c80_overhang_refuted (finding)."),
"C81": ("partial", "Proved for the whole run, for moves to the right by whole units (any distance downwards), text that is not turned by 90 or 270 degrees, coordinates the program can handle before and after, words with less than 2^32 characters, and under the assumption that the network predicts the same roles in both runs (its features contain positions relative to the page); whatever the network predicts, only the order and the roles of the blocks can be different (c81_any_network_partial). Otherwise the claim is false: a move by a fifth of a unit merges three paragraphs (c81_fraction_refuted), and the trim box of turned text follows the wrong direction (c81_turned_refuted)."),
"C82": ("partial", "Proved: no double release, no use after a release, for every history of creations cut off at any point; exactly the objects that were handed over to no owner stay allocated, and their number is exact. The part that nothing stays allocated is false: merged hyphenated words, merged text lines, and the trial cuts of the cut choosers have no owner (c82_leak_refuted). That every block appears once in the new reading order is a hypothesis of the theorem on histories and is proved of the modelled stage (c82_order_permutes). Objects that are not part of the document (logger, serializers, Poppler's) are not modelled."),
"C83": ("proved", "The premises are necessary: a hyphen at the end joins the words over the page break (c83_hyphen_refuted), changed statistics change the paragraphs before (c83_statistics_refuted). Pages put in front do change the pages behind them, even with equal statistics: footnote labels are collected over the pages in order (c83_pages_in_front_refuted)."),
"C84": ("partial", "Words and characters are proved without restriction (font names without quotes, see C36). The paragraphs are proved for documents in which no line ends with a hyphenated word, or without dehyphenation; otherwise the claim is false: the plain text joins the parts, the JSONL output keeps the hyphen and a blank (c84_hyphen_refuted)."),
"C85": ("partial", "Proved, including the real option tables; the intended width of 100 characters is refuted (c85_width_refuted: a line of 102 characters, because wrap ignores the indent for the last line). That a switch is read does not mean it has an effect (C45). Boost's tokenisation (for example the guessing of abbreviated names) is not modelled."),
"C86": ("proved", "The switches are the private options --skip-words-dehyphenation and --skip-reading-order-detection (or the configuration in the API); the public option --no-dehyphenation is ignored (C45)."),
"C87": ("proved", "The stages do not read the ids; the model of the stages leaves them out, and the theorem takes any document that is the finished document apart from ids, colours and page sizes. The ids may collide (c87_collision_refuted), so their distinctness is a premise. Font names must be free of quotes and the like (C36)."),
"C88": ("partial", "Refuted parts: a run in which every step takes less than a millisecond has no percentages but 0 / 0 (c88_percent_refuted); the durations are not aligned for five of the program's own steps (c88_aligned_refuted); the report goes to standard output behind the extracted text, so a reader of the text gets it, too (c88_stdout_refuted)."),
"C89": ("partial", "Premises: the composition of a base character with its mark (utf8proc) gives UTF-8; the code points of the characters are Unicode scalar values (the model's characters can't be lone surrogates, which Poppler would encode, too). Refuted parts: a font name that is not UTF-8 makes the JSONL output invalid (c89_font_refuted); shortening a text for the log cuts characters apart (c89_shorten_refuted)."),
"C90": ("proved", "Premises: the library contract; for the second part sorting looks at positions only (std::sort with the program's comparators does). Refuted part: a block predicted to be the title is read at another place (c90_order_refuted), so the text as a whole does depend on the prediction."),
"C91": ("partial", "Boxes, containment of lines and words, and regions are proved for all documents. That a word (and so its line, block and segment) contains its characters is proved for characters with well-formed boxes, and refuted for text that is upside down (c91_upside_down_refuted: the parser records such boxes inside out, C63, and the word, line and block are too small). Segments contain their lines if no word is attached to an operator."),
"C92": ("partial", "Proved for upright text and text standing on its head. For text turned by 90 degrees only the direction within a line is right: the lines are sorted from left to right although the right one is the first (c92_turned_refuted), and lines beside each other that overlap vertically are mixed up (c92_mixed_refuted); what the code does for turned text is c92_turned_partial."),
"C93": ("partial", "Proved for every run with reading order detection (the roles are predicted there, and every block gets one). If it is switched off, the roles of all blocks are left uninitialised (c93_refuted); then the document is the same in everything else, and so are the plain text and the JSONL output without blocks if all roles are printed (c93_roles_only)."),
"C94": ("proved", "The premise on the roles is necessary: the network is given the page number in relation to the number of pages, so that a page without text may change the roles of all paragraphs before it (c94_roles_refuted). It holds when reading order detection is off. In contrast to C83, a hyphen at the end of the last word does no harm."),
"C95": ("proved", "Quotes in texts are not escaped; still the descriptions can be read unambiguously because the text is the only part of unknown form, also for text lines, where it comes first (read from the end). With a semicolon in a font name this fails (c95_semicolon_refuted). PdfPageSegment::toString lacks the closing parenthesis (part of c95_closed)."),
"C96": ("proved", "c96_run combines the parts for complete runs on the drawing operations of a file. The rank of a block is not its position in the output when the reading order was detected (c96_output_order_refuted), and figures never get a rank, they are printed with rank -1 (c96_figures_refuted). The ranks of shapes are not modelled beyond the parser (C50)."),
"C97": ("proved", "c97_roles and c97_records for documents, c97_program and c97_exit_code for calls of the program (with the formats that the command line offers, txt and txt-extended). An empty list of roles prints nothing (C34)."),
"C98": ("proved", "c98_counter and c98_counters: no other counter than one with a tie is sensitive to the order (all documents, all outcomes). c98_tables covers the other tables for pages in one direction; on pages that mix directions each segment has the same lines direction by direction (c98_segments); that the directions come in the same order is refuted by c98_directions_refuted (the paragraphs are printed in another order), ties by c98_ties_refuted (the same lines are one paragraph or two) and c98_formulas_refuted (two words change places)."),
"C99": ("proved", "c99_hyphens: all stages from the characters to the printed text, with the division into paragraphs and the joining of hyphenated words (c99_joined: the joined words are those of C37's specification); c99_places: the corners of the boxes of the words, lines and blocks; c99_jsonl: the records of the paragraphs, words and characters in the JSONL output (numbers printed by an arbitrary printer of JSON numbers); c99_paragraphs: without hyphenated words; c99_paragraph: one justified paragraph, with weaker premises. c99_program: what the whole program writes for a PDF file with such a page. Exact spacing and a font size of 10: other spacings and sizes are not covered (the parser gives characters of size 10 the height 13, unless the embedded font file has glyphs that stick out, as in c99_premises_program). The identities, ranks, glyph names and baselines (the same within a row) of the characters are arbitrary (Marks). c99_premises_program is a PDF file with a paragraph of three rows, c99_premises is a paragraph of three rows, c99_premises_paragraphs a page with two paragraphs, c99_premises_hyphens one with two hyphenated words."),
})
