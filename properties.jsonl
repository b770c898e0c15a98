{"id": "C01", "title": "Tolerance comparisons form a trichotomy", "statement": "For any two numbers and any non-negative tolerance exactly one of equal, smaller and larger answers true; equalOrLarger is exactly 'not smaller', equalOrSmaller exactly 'not larger', between is exactly membership in the interval widened by the tolerance, smaller and larger mirror each other when the arguments are swapped. The minimum and maximum of two, three or four numbers are the least and the greatest of them.", "quantifier": "all pairs (triples) of finite numbers and all tolerances >= 0", "why_tests_cant": "uncountably many argument pairs, and the interesting ones sit exactly on the tolerance boundary", "anchors": ["src/utils/MathUtils.cpp: equal, larger, smaller, equalOrLarger, equalOrSmaller, between, minimum, maximum"]}
{"id": "C02", "title": "Element comparators are valid sort orders on parsed coordinates", "statement": "Every coordinate comparator handed to std::sort / std::priority_queue is irreflexive, asymmetric and transitive for all elements, and is a full strict weak order (so that sorting is defined behaviour and yields an order sorted by exact coordinate) on every collection of elements whose coordinates were rounded to the configured precision by the parser; on arbitrary un-rounded coordinates it is not a strict weak order.", "quantifier": "all finite collections of elements with arbitrary coordinates / with coordinates rounded to at most 3 decimals", "why_tests_cant": "a violation needs three elements within one tolerance and shows up as undefined behaviour inside std::sort, not as a wrong value", "anchors": ["src/utils/Comparators.h: LeftXAscComparator, RightXDescComparator, UpperYAscComparator, RotLeftXAscComparator, RotLeftXDescComparator, RotLowerYAscComparator, RotLowerYDescComparator", "src/PdfParsing.cpp: drawChar"]}
{"id": "C03", "title": "Rounding returns the nearest decimal", "statement": "round(d, n) is a multiple of 10^-n at distance at most half a unit in that decimal place from d, ties go away from zero, rounding is idempotent, monotone and odd.", "quantifier": "all numbers and all numbers of decimals", "why_tests_cant": "unbounded domain; ties and sign handling are a measure-zero set of inputs", "anchors": ["src/utils/MathUtils.cpp: round"]}
{"id": "C04", "title": "Overlap ratios are true fractions", "statement": "computeOverlapRatios returns, for each interval, the length of the intersection divided by the interval's own length (0 for an empty interval); both results lie in [0,1], swapping the intervals swaps the results, reversing the end points of an interval changes nothing, and a result is positive only if the intervals share an interior point.", "quantifier": "all quadruples of interval end points, in any order", "why_tests_cant": "four unbounded real parameters with degenerate and reversed intervals", "anchors": ["src/utils/PdfElementsUtils.cpp: computeOverlapRatios, computeXOverlapRatios, computeYOverlapRatios, computeMaxXOverlapRatio, computeMaxYOverlapRatio"]}
{"id": "C05", "title": "Gaps measure the distance between facing edges", "statement": "The horizontal (vertical) gap between two elements is the left (upper) edge of the element that lies further right (down) minus the right (lower) edge of the other one; it does not depend on the order of the arguments and is positive exactly when the projections are disjoint. Two elements have an equal edge on some side exactly when the coordinates of this side differ by at most the tolerance, and the offset of two left or right edges is the difference of their coordinates.", "quantifier": "all pairs of elements with any coordinates and any rotation", "why_tests_cant": "depends on ordering, tolerance and rotation for unboundedly many positions", "anchors": ["src/utils/PdfElementsUtils.cpp: computeHorizontalGap, computeVerticalGap", "src/utils/PdfElementsUtils.cpp: computeHasEqualLeftX, computeHasEqualUpperY, computeHasEqualRightX, computeHasEqualLowerY, computeLeftXOffset, computeRightXOffset"]}
{"id": "C06", "title": "Rotation-aware extents agree with the box", "statement": "For every well-formed box and every rotation the rotation-aware width and height are non-negative and are the plain width and height for rotations 0 and 2 and exchanged for 1 and 3, and the four rotation-aware edges are the four plain edges permuted.", "quantifier": "all boxes with leftX <= rightX and upperY <= lowerY, all rotations", "why_tests_cant": "all boxes; tests only sample a few boxes per rotation", "anchors": ["src/Types.cpp: PdfPosition::getRotLeftX, getRotUpperY, getRotRightX, getRotLowerY, getRotWidth, getRotHeight"]}
{"id": "C07", "title": "Most frequent counter entry", "statement": "mostFreq / mostFreqCount return a key that occurs in the counter together with its count, no key has a larger count, and they raise an error exactly when no key has a positive count - whatever the iteration order of the hash table; when one key strictly dominates, the result does not depend on that order.", "quantifier": "all counters and all iteration orders of the underlying hash table", "why_tests_cant": "hash iteration order is unspecified and cannot be enumerated by tests", "anchors": ["src/utils/Counter.cpp: DoubleCounter::mostFreqAndCount, StringCounter::mostFreqAndCount, sumCounts"]}
{"id": "C08", "title": "Largest counter key", "statement": "DoubleCounter::max returns the largest key that has a positive count and raises an error only if no key has a positive count.", "quantifier": "all counters over numeric keys (including zero and negative keys) and all iteration orders", "why_tests_cant": "requires all key sets and hash orders; the failing inputs are non-positive or nearly equal keys", "anchors": ["src/utils/Counter.cpp: DoubleCounter::max"]}
{"id": "C09", "title": "Bounded priority queue", "statement": "After any sequence of pushes a queue of capacity c >= 1 holds min(c, number of pushes) of the pushed values, always including the value pushed last; a push onto a full queue removes exactly one top (worst) element and nothing else; sort returns all elements of the queue in comparator order.", "quantifier": "all capacities, all push sequences, all total preorders used as comparator", "why_tests_cant": "arbitrary push histories", "anchors": ["src/utils/FixedCapacityPriorityQueue.h: FixedCapacityPriorityQueue::push, sort"]}
{"id": "C10", "title": "Word splitting", "statement": "splitIntoWords returns exactly the maximal runs of non-delimiter characters of the text, in order: no returned word is empty or contains a delimiter, the concatenation of the words is the text with all delimiters removed, and consecutive words are separated by at least one delimiter.", "quantifier": "all texts and all delimiter alphabets", "why_tests_cant": "all strings over an unbounded alphabet; boundary positions (leading, trailing, adjacent delimiters) interact", "anchors": ["src/utils/TextUtils.cpp: splitIntoWords"]}
{"id": "C11", "title": "JSON escaping is lossless and safe", "statement": "The result of escapeJson, put between double quotes, is a legal JSON string token (no raw control character, no unescaped quote or backslash) and decoding that token with the JSON escape rules gives back exactly the original bytes; hence different texts have different encodings.", "quantifier": "all byte strings", "why_tests_cant": "all byte strings of every length", "anchors": ["src/utils/TextUtils.cpp: escapeJson"]}
{"id": "C12", "title": "Text wrapping keeps the text", "statement": "wrap terminates, keeps every character of the text in order apart from replacing line-breaking whitespace by newline-plus-indent, and produces no line longer than the given width unless a single word is too long to fit.", "quantifier": "all texts, widths and indents", "why_tests_cant": "all strings and widths; termination cannot be tested", "anchors": ["src/utils/TextUtils.cpp: wrap"]}
{"id": "C13", "title": "Joining strings", "statement": "join puts exactly one separator between every two consecutive strings of the list, so that the list can be recovered by splitting at the separator when no string contains it.", "quantifier": "all lists of strings and all separators", "why_tests_cant": "all lists, including lists with empty strings", "anchors": ["src/utils/TextUtils.cpp: join"]}
{"id": "C14", "title": "Shortening and sentence ends", "statement": "shorten never returns more than maxLength characters plus the three dots, returns short texts unchanged and otherwise a prefix plus three dots; endsWithSentenceDelimiter answers true exactly for texts whose last character is one of ? ! . ) ;.", "quantifier": "all texts and lengths", "why_tests_cant": "all strings", "anchors": ["src/utils/TextUtils.cpp: shorten, endsWithSentenceDelimiter, startsWithUpper"]}
{"id": "C15", "title": "Stripping whitespace", "statement": "strip removes exactly the leading and trailing whitespace of a text and is idempotent; it never touches memory outside the text.", "quantifier": "all texts, including empty and all-whitespace ones", "why_tests_cant": "memory safety on the degenerate inputs is not observable by a passing test", "anchors": ["src/utils/TextUtils.cpp: strip"]}
{"id": "C16", "title": "Random identifiers", "statement": "createRandomString returns the prefix followed by exactly the requested number of alphanumeric characters for every state of the random generator, and every alphanumeric character can occur.", "quantifier": "all lengths, prefixes and random generator outcomes", "why_tests_cant": "all outcomes of the random generator", "anchors": ["src/utils/TextUtils.cpp: createRandomString"]}
{"id": "C17", "title": "A cut partitions the elements", "statement": "xCut and yCut return groups that contain every given element exactly once, no group is empty, each group is a contiguous run of the elements sorted by the cut direction, and the call reports success exactly when at least two groups were produced - whatever the cut choosing strategy does.", "quantifier": "all lists of elements, gap thresholds, overlap limits and cut choosing strategies", "why_tests_cant": "the strategy is an arbitrary callback and the element list is unbounded", "anchors": ["src/utils/XYCut.cpp: xCut, yCut"]}
{"id": "C18", "title": "XY-cut terminates and partitions", "statement": "xyCut terminates for every input and every pair of cut choosing strategies; the groups it returns contain every given element exactly once, and no group is empty.", "quantifier": "all element lists, thresholds and strategies", "why_tests_cant": "termination of a callback-driven recursion cannot be established by running it", "anchors": ["src/utils/XYCut.cpp: xyCut"]}
{"id": "C19", "title": "A chosen cut separates the page", "statement": "At every chosen cut with no overlapping elements, every element placed before the cut ends at least the minimum gap (minus the tolerance) before every element placed after it starts, and the cut line itself crosses none of the elements.", "quantifier": "all lists of upright elements with rounded coordinates, all thresholds, all strategies", "why_tests_cant": "geometric fact about all pairs of elements on both sides of each cut", "anchors": ["src/utils/XYCut.cpp: xCut, yCut", "src/utils/PdfElementsUtils.cpp: computeHorizontalGap"]}
{"id": "C20", "title": "Number of elements a vertical cut may cross", "statement": "A vertical cut candidate lists at most the allowed number of overlapping elements, every element that lies left of the cut in the sorted order and is not listed ends left of the cut, and an x-cut candidate is found whenever one with at most that many crossings exists.", "quantifier": "all element lists and overlap limits", "why_tests_cant": "needs all element configurations; the code keeps only a bounded queue of candidates", "anchors": ["src/utils/XYCut.cpp: xCut", "src/utils/XYCut.h"]}
{"id": "C21", "title": "Page segmentation covers the page", "statement": "Every word, figure, graphic and shape of a page ends up in exactly one page segment, every segment is non-empty and the bounding box of a segment is the smallest box that contains all of its elements.", "quantifier": "all pages", "why_tests_cant": "all page layouts", "anchors": ["src/PageSegmentation.cpp: processPage", "src/utils/PageSegmentationUtils.cpp: createPageSegment"]}
{"id": "C22", "title": "Words partition the characters", "statement": "Word detection assigns every character that is not a merged diacritical mark to exactly one word, preserves the extraction order of the characters across and inside the words, creates no empty word, and numbers the words of a page 0,1,2,... in order.", "quantifier": "all sequences of characters on a page", "why_tests_cant": "all character sequences", "anchors": ["src/WordsDetection.cpp: detectWords, startsWord", "src/utils/WordsDetectionUtils.cpp: createWord"]}
{"id": "C23", "title": "Words are homogeneous", "statement": "All characters of a word have the same rotation and writing mode, and two consecutive characters of a page are put into the same word only if they overlap the line's vertical extent and the horizontal gap does not exceed the font-size dependent limit.", "quantifier": "all sequences of characters on a page", "why_tests_cant": "property over all adjacent pairs for all inputs", "anchors": ["src/WordsDetection.cpp: startsWord"]}
{"id": "C24", "title": "Word boxes and texts", "statement": "The bounding box of a word is the smallest box containing the boxes of its characters, its text is the concatenation of the character texts (with diacritical marks), its rotation, writing mode and page are those of its first character, and its font name and font size are most frequent among its characters.", "quantifier": "all non-empty character lists", "why_tests_cant": "all character lists, including negative coordinates", "anchors": ["src/utils/WordsDetectionUtils.cpp: createWord"]}
{"id": "C25", "title": "Stacked mathematical symbols", "statement": "A word that is stacked above or below a mathematical operator is attached to exactly one operator, so that it is printed exactly once and as part of that operator.", "quantifier": "all word sequences on a page", "why_tests_cant": "needs all configurations of neighbouring operators", "anchors": ["src/WordsDetection.cpp: mergeStackedMathSymbols", "src/TextLinesDetection.cpp: process"]}
{"id": "C26", "title": "Text lines contain every word once", "statement": "Text line detection puts every word of a segment into exactly one text line of that segment (words attached to a mathematical operator together with it); no line is empty.", "quantifier": "all segments and words", "why_tests_cant": "all word configurations and hash orders of the clusters", "anchors": ["src/TextLinesDetection.cpp: process, computeTextLineProperties"]}
{"id": "C27", "title": "Line merging terminates without losing words", "statement": "The repeated merging of vertically overlapping lines terminates, every round but the last reduces the number of lines, and the multiset of words is unchanged; afterwards no line would be merged into its predecessor again.", "quantifier": "all line configurations", "why_tests_cant": "fixed-point iteration over arbitrary geometry", "anchors": ["src/TextLinesDetection.cpp: process"]}
{"id": "C28", "title": "Text line hierarchy is a forest", "statement": "The parent of a text line is an earlier line of the same page that is less indented, previous and next siblings are inverse to each other and have the same parent, so following parent links always terminates.", "quantifier": "all sequences of text lines of a page", "why_tests_cant": "acyclicity over all line sequences; a cycle would hang the program", "anchors": ["src/utils/TextLinesDetectionUtils.cpp: computeTextLineHierarchy", "src/utils/TextBlocksDetectionUtils.cpp: computeIsContinuationOfItem"]}
{"id": "C29", "title": "Segment trim box", "statement": "The trim box of a segment is its bounding box, except that its right edge is the most frequent (rounded) right end of the text lines when at least half of the lines end there.", "quantifier": "all segments and text lines", "why_tests_cant": "all line multisets; ties depend on the hash order", "anchors": ["src/utils/TextLinesDetectionUtils.cpp: computeTrimBox"]}
{"id": "C30", "title": "Text blocks partition the text lines", "statement": "Text block detection puts every text line of a page into exactly one block, keeps the order of the lines, creates no empty block, starts a new block at the first line of every segment, numbers the blocks consecutively and links each block with its predecessor and successor and each line with its neighbours inside the block.", "quantifier": "all pages, for every outcome of the block-start rules", "why_tests_cant": "all line sequences and all rule outcomes", "anchors": ["src/TextBlocksDetection.cpp: process, startsPreliminaryBlock, startsBlock", "src/utils/TextBlocksDetectionUtils.cpp: createTextBlock"]}
{"id": "C31", "title": "Block start rules", "statement": "A line starts a new block exactly when the first rule of the documented rule chain that gives an answer says so, and continues the block if no rule gives an answer; in particular a line of different rotation, writing mode or font size (beyond the tolerance) than its predecessor always starts a new block and two lines in the same figure never do.", "quantifier": "all line pairs and rule outcomes", "why_tests_cant": "interaction of many rules over real-valued layout parameters", "anchors": ["src/TextBlocksDetection.cpp: startsPreliminaryBlock, startsBlock, startsBlock_existsPrevLine, startsBlock_sameFigure, startsBlock_rotation, startsBlock_wMode, startsBlock_fontSize"]}
{"id": "C32", "title": "Block text and box", "statement": "The text of a block is the text of its words in line order joined by single spaces, and the bounding box is the smallest box around its lines.", "quantifier": "all non-empty line lists", "why_tests_cant": "all line lists", "anchors": ["src/utils/TextBlocksDetectionUtils.cpp: createTextBlock"]}
{"id": "C33", "title": "Reading order keeps every block", "statement": "Reading order detection only permutes the text blocks of a page: no block is lost, duplicated or moved to another page, whatever cuts are chosen.", "quantifier": "all pages and all cut decisions", "why_tests_cant": "all layouts", "anchors": ["src/ReadingOrderDetection.cpp: detectReadingOrder"]}
{"id": "C34", "title": "Plain text output", "statement": "The plain text output is the output of the selected blocks in document order, separated by one blank line and terminated by one newline; a block's output is its words separated by single spaces; a block is printed exactly when its role is selected or no roles are given.", "quantifier": "all documents and role selections", "why_tests_cant": "all documents", "anchors": ["src/serializers/PlainTextSerializer.cpp: serializeToStream"]}
{"id": "C35", "title": "Extended plain text output", "statement": "The extended plain text output marks the end of every page with exactly one form feed, prefixes every printed block with its upper-cased role name in brackets and marks emphasised blocks, and otherwise contains the same words in the same order as the plain text output.", "quantifier": "all documents, role selections and emphasis flags", "why_tests_cant": "all documents", "anchors": ["src/serializers/PlainTextExtendedSerializer.cpp: serializeToStream"]}
{"id": "C36", "title": "JSONL output is line-wise valid JSON", "statement": "Every line of the JSONL output is one well-formed JSON object whose text fields decode to the extracted text, one line is written per selected page, character, word, block, figure and shape, and every accepted unit type produces output.", "quantifier": "all documents, unit selections and role selections", "why_tests_cant": "all texts and font names; escaping must hold for every byte", "anchors": ["src/serializers/JsonlSerializer.cpp: serializeToStream", "src/utils/TextUtils.cpp: escapeJson"]}
{"id": "C37", "title": "De-hyphenation loses no text", "statement": "When a word is split by a hyphen at a line end, the two parts are printed once as one word without the hyphen; every other word is printed unchanged; every character of the document apart from the removed hyphens is still printed.", "quantifier": "all documents", "why_tests_cant": "all sequences of lines, including consecutive hyphenated lines", "anchors": ["src/WordsDehyphenation.cpp: process", "src/serializers/PlainTextSerializer.cpp: serializeToStream"]}
{"id": "C38", "title": "Diacritical marks are attached, not lost", "statement": "A stand-alone diacritical mark is merged only with the directly preceding or following character that it overlaps more, a merged mark is printed as part of its base character, and a mark that overlaps neither neighbour is left alone; no character is lost.", "quantifier": "all character sequences", "why_tests_cant": "all character sequences and geometries, including several marks in a row", "anchors": ["src/DiacriticalMarksMerging.cpp: process"]}
{"id": "C39", "title": "Sub- and superscripts", "statement": "A character of a line is flagged as superscript (subscript) exactly when its font is smaller than the document's dominant font and its base line lies above (below) the base line of the text line; no character is flagged as both.", "quantifier": "all lines and characters", "why_tests_cant": "all real-valued base lines and font sizes at the tolerance boundary", "anchors": ["src/SubSuperScriptsDetection.cpp: process"]}
{"id": "C40", "title": "Byte pair encoding has fixed length and is deterministic", "statement": "encode appends exactly targetLength ids when a target length is given; the encoding of a word terminates, the tokens concatenate to the word, unknown tokens are mapped to the unknown id, and a cached answer equals the freshly computed one.", "quantifier": "all vocabularies, texts, target lengths and call histories", "why_tests_cant": "cache transparency quantifies over call histories; termination over all vocabularies", "anchors": ["src/utils/BytePairEncoder.cpp: encode, encodeWord, computeTokenPairPositions"]}
{"id": "C41", "title": "Role prediction takes the most probable role", "statement": "Every text block gets the semantic role with the highest predicted probability (the first one among equals), always a valid role.", "quantifier": "all probability tensors", "why_tests_cant": "all real-valued model outputs", "anchors": ["src/SemanticRolesPrediction.cpp: predict"]}
{"id": "C42", "title": "Option values round-trip", "statement": "A semantic role, unit type or output format named on the command line is accepted exactly when it is one of the documented names and selects exactly the enumerator of that name; listing the names and parsing them again is the identity.", "quantifier": "all strings given as option value", "why_tests_cant": "all strings", "anchors": ["src/Validators.cpp: validate", "src/utils/PdfElementsUtils.cpp: getPdfElementTypeNames, getSemanticRoleNames", "src/Types.h: PDF_ELEMENT_TYPE_NAMES, SEMANTIC_ROLE_NAMES"]}
{"id": "C43", "title": "Log filtering", "statement": "A log message is printed exactly when its severity is at least the configured level and, if both a page filter and a page number are set, the pages agree; raising the level never prints more.", "quantifier": "all levels, page filters and page numbers", "why_tests_cant": "all page numbers and filters (including non-positive ones)", "anchors": ["src/utils/Log.cpp: getostream", "src/utils/Log.h: LogLevel"]}
{"id": "C44", "title": "Pipeline stages run in order and only when enabled", "statement": "process runs the enabled stages exactly once, in the documented order, records one timing per executed stage in that order, runs nothing after a failed load, and reports the load status to the caller.", "quantifier": "all combinations of disabled stages and all load results", "why_tests_cant": "2^n stage combinations and arbitrary stage behaviour", "anchors": ["src/PdfToTextPlusPlus.cpp: process"]}
{"id": "C45", "title": "Command line options take effect", "statement": "Every documented command line option influences the run as documented; in particular switching off de-hyphenation by its documented option yields output without merged words.", "quantifier": "all option combinations", "why_tests_cant": "all option combinations", "anchors": ["src/pdftotext++.cpp: main", "src/Config.h"]}
{"id": "C46", "title": "Type 1 font decryption inverts the Adobe cipher", "statement": "Decrypting what the Adobe Type 1 cipher produced with the same key and the same number of leading random bytes gives back the plain text.", "quantifier": "all plain texts, keys and leading bytes", "why_tests_cant": "all byte strings and keys", "anchors": ["src/utils/PdfFontInfoParser.cpp: Type1FontFileParser::decrypt"]}
{"id": "C47", "title": "Type 1 charstring numbers", "statement": "Every integer encoded by the Type 1 charstring number format is pushed with exactly its value.", "quantifier": "all 32-bit integers and all surrounding charstrings", "why_tests_cant": "2^32 values times arbitrary contexts", "anchors": ["src/utils/PdfFontInfoParser.cpp: Type1FontFileParser::parseCharString"]}
{"id": "C48", "title": "Glyph boxes contain the outline", "statement": "The glyph box computed from a charstring contains every point the pen visits and is never larger than needed, for every charstring whose interpretation ends normally.", "quantifier": "all charstrings and subroutine tables", "why_tests_cant": "arbitrary programs in the charstring language", "anchors": ["src/utils/PdfFontInfoParser.cpp: Type1FontFileParser::parseCharString"]}
{"id": "C49", "title": "Malformed fonts cannot hang or corrupt the program", "statement": "Interpreting any charstring of any embedded font terminates without undefined behaviour (no division by zero, no access outside the argument stack or buffer, no endless recursion).", "quantifier": "all charstrings and subroutine tables, all embedded font streams", "why_tests_cant": "adversarial inputs; memory safety and termination", "anchors": ["src/utils/PdfFontInfoParser.cpp: Type1FontFileParser::parseCharString, parseEncryptedPart, parseAsciiPart"]}
{"id": "C50", "title": "Parsed elements are routed to exactly one place", "statement": "During parsing every drawn character, path and image that is not skipped is appended to exactly one place - the page if the clip box equals the page's clip box, else the figure of that clip box; a page never has two figures with the same clip box, a figure is never empty, its box contains all of its elements and the extraction ranks are strictly increasing over the document.", "quantifier": "all sequences of drawing events", "why_tests_cant": "arbitrary event histories", "anchors": ["src/PdfParsing.cpp: startPage, drawChar, stroke, drawGraphic"]}
{"id": "C51", "title": "Font information exists for every character", "statement": "For every character produced by the parser the document has a font information entry under the character's font name, so later stages never fail to look it up; a word or line inherits the name of one of its characters.", "quantifier": "all sequences of font and draw events", "why_tests_cant": "arbitrary event histories", "anchors": ["src/PdfParsing.cpp: updateFont, drawChar", "src/serializers/JsonlSerializer.cpp", "src/SemanticRolesPrediction.cpp"]}
{"id": "C52", "title": "Shapes have well-formed boxes", "statement": "Every shape added by the parser has a box with leftX <= rightX and upperY <= lowerY that lies inside the clip box.", "quantifier": "all paths and clip boxes", "why_tests_cant": "all paths, including those entirely outside the clip box", "anchors": ["src/PdfParsing.cpp: stroke"]}
{"id": "C53", "title": "Document statistics", "statement": "The average glyph width and height are the arithmetic means over all characters, the most frequent font size and name maximise the number of characters, and documents without characters leave the statistics unchanged.", "quantifier": "all documents", "why_tests_cant": "all documents and hash orders", "anchors": ["src/GlyphsStatisticsCalculation.cpp: process", "src/WordsStatisticsCalculation.cpp: process", "src/TextLinesStatisticsCalculation.cpp: process"]}
{"id": "C54", "title": "Font name normalisation", "statement": "The font name is the one the PDF gives (or, without one, the font's address); the normalised font name is that name in lower case without the subset prefix up to the first plus sign; the base name is the normalised name cut at the first hyphen with all digits removed. Different subsets of one font therefore get the same normalised name and base name, and normalising the normalised form of a name with at most one plus sign changes nothing.", "quantifier": "all font names", "why_tests_cant": "all strings", "anchors": ["src/utils/PdfFontInfoParser.cpp: PdfFontInfoParser::parse"]}
{"id": "C55", "title": "Which vertical cuts page segmentation takes", "statement": "A vertical cut candidate is taken exactly when none of the four documented reasons against it applies: it crosses elements (and there are fewer than 500 elements or a crossed element is near the top or bottom of the cut), its gap is both narrow and low, it separates two words that directly follow each other in a line, or it would leave a slim group on its left or right.", "quantifier": "all pages, candidate lists and document statistics", "why_tests_cant": "real-valued thresholds and arbitrary candidate histories (the left group depends on the previously taken cut)", "anchors": ["src/PageSegmentation.cpp: chooseXCuts, chooseXCut_overlappingElements, chooseXCut_smallGapWidthHeight, chooseXCut_contiguousWords, chooseXCut_slimGroups"]}
{"id": "C56", "title": "Horizontal cuts delimit multi-column regions", "statement": "Page segmentation takes a horizontal cut only if it is the upper or lower boundary of a region of the page that can be divided by a vertical cut.", "quantifier": "all pages and candidate lists", "why_tests_cant": "nested lookahead over all pairs of candidates", "anchors": ["src/PageSegmentation.cpp: chooseYCuts"]}
{"id": "C57", "title": "Reading order follows the layout", "statement": "The blocks of a page are printed in a reading order of its layout: wherever the page elements are divided by a vertical line everything on its left is printed before everything on its right, wherever they are divided by a horizontal line everything above before everything below, and columns that no vertical line divides from top to bottom. The page is first divided at gaps next to rotated or vertically written text and next to high separators, then at gaps between a title, author information or marginal and something else and next to wide separators; any other horizontal division is made only where a vertical line then divides one of the parts. (Pages on which a line without thickness begins exactly at the edge of another element are excepted.)", "quantifier": "all pages with any number of blocks, figures and shapes at any (rounded) positions and any roles, all document statistics, and all sort implementations meeting the C++ contract", "why_tests_cant": "the division is recursive and depends on the relative position of all elements; a test covers single layouts only", "anchors": ["src/ReadingOrderDetection.cpp:detectReadingOrder", "src/ReadingOrderDetection.cpp:choosePrimaryXCuts", "src/ReadingOrderDetection.cpp:choosePrimaryYCuts", "src/ReadingOrderDetection.cpp:chooseYCuts", "src/utils/XYCut.cpp:xyCut"]}
{"id": "C58", "title": "Statistics of words and lines describe the document", "statement": "The document statistics used by the later steps are exact: the most frequent height and the most frequent horizontal gap of consecutive words of one line, and the most frequent indent and the most frequent vertical distance of consecutive text lines, each computed over all pages (values rounded to one decimal, any of the most frequent values if several are equally frequent, the documented default if there is none).", "quantifier": "all documents, any number of pages, words and lines, all iteration orders of hash maps", "why_tests_cant": "values are aggregated over all pages with ties broken by hash order", "anchors": ["src/WordsStatisticsCalculation.cpp: process", "src/TextLinesStatisticsCalculation.cpp: process"]}
{"id": "C59", "title": "Input of the role prediction", "statement": "The input of the network that predicts the semantic roles has one row of 15 values per text block, in the order of the blocks; every value is between 0 and 1 and means what it is documented to mean (relative page number, relative position measured from the lower left corner of the page, relative font size, bold, italic, contains an @, starts with a digit, and the shares of digits, non-ASCII, punctuation, upper-case words and characters).", "quantifier": "all documents with any number of pages, blocks and words, all texts, all locales (character classes)", "why_tests_cant": "the texts and geometry are unbounded; undefined behaviour depends on single characters", "anchors": ["src/SemanticRolesPrediction.cpp: createLayoutInputTensor"]}
{"id": "C60", "title": "The text arrives where the user asked for it", "statement": "The serialized text is written exactly to the requested place: to standard output for \"-\" (the default), otherwise to the given file, whose parent directory is created before; if that is not possible, an error message is printed and the program does not report success.", "quantifier": "all output paths, texts and behaviours of the file system", "why_tests_cant": "paths are arbitrary strings and the file system may fail in any way", "anchors": ["src/serializers/Serializer.cpp: serialize", "src/pdftotext++.cpp: main"]}
{"id": "C61", "title": "The encrypted part of an embedded Type 1 font is read as it was written", "statement": "The encrypted part of a Type 1 font file is handed to the decryption byte for byte as the font contains it, for both forms the Type 1 specification allows, binary and hexadecimal, and reading it never touches memory outside the font stream or the buffer.", "quantifier": "all font streams", "why_tests_cant": "all byte strings, both encodings, adversarial fonts", "anchors": ["src/utils/PdfFontInfoParser.cpp: Type1FontFileParser::parseEncryptedPart"]}
{"id": "C62", "title": "Weight, slant and font matrix come from the documented sources", "statement": "The weight of a font is that of the first /Weight entry of its embedded font file (Regular 400, Medium 500, Bold 700), else 800 if the name mentions 'black', else 700 if the name mentions 'bold' or the bold flag is set, else the reported weight if positive, else 400; a font is italic exactly if its flag, its name or an italic angle other than 0 in the embedded font file says so; the font matrix is the one of the embedded font file if it has one; a malformed font file causes no undefined behaviour.", "quantifier": "all fonts Poppler may report and all clear-text parts of embedded font files", "why_tests_cant": "all names, flags and font files", "anchors": ["src/utils/PdfFontInfoParser.cpp: PdfFontInfoParser::parse, Type1FontFileParser::parseAsciiPart", "src/Types.h: PdfFontInfo"]}
{"id": "C63", "title": "Characters are placed where the page shows them", "statement": "The box of a character starts at the pen position given by the text matrix, the text rise and the current transformation matrix and ends at the next pen position; across the line it reaches from the font's ascent to its descent, unless the outline from the embedded font file reaches further, in which case the box of the outline is taken; the rotation is the direction in which the text runs; all coordinates are rounded to one decimal and the box is well-formed (left <= right, upper <= lower).", "quantifier": "all graphics states (matrices, font sizes, widths, rises, writing modes) and glyph boxes", "why_tests_cant": "real-valued matrices of all shapes", "anchors": ["src/PdfParsing.cpp: drawChar, concat"]}
{"id": "C64", "title": "Visible images are recorded with their visible rectangle", "statement": "Every image of which a part lies inside the clip box is recorded, with the part of its rectangle inside the clip box; an image outside the clip box is not recorded.", "quantifier": "all transformation matrices and clip boxes", "why_tests_cant": "real-valued matrices of all shapes, arbitrary clip boxes", "anchors": ["src/PdfParsing.cpp: drawGraphic"]}
{"id": "C65", "title": "No text gets lost between the PDF and the output", "statement": "For every document that could be parsed and every choice of skipped stages the run ends with exit code 0, unless the role prediction fails. If none of word detection, page segmentation, line detection and block detection is skipped, the words in the blocks of each page are the words detected on this page, and the plain text with all roles consists, apart from blanks, line breaks and removed hyphens, of exactly the characters of the pages, each as often as in the PDF.", "quantifier": "all parsed documents (any number of pages, characters, figures and shapes), all configurations, all behaviours of the sorting routines, hash tables and neural network", "why_tests_cant": "the claim ranges over all documents and all combinations of skipped stages, and over eleven stages whose intermediate results feed each other", "anchors": ["src/PdfToTextPlusPlus.cpp: process", "src/WordsDetection.cpp: process", "src/PageSegmentation.cpp: process", "src/TextLinesDetection.cpp: process", "src/TextBlocksDetection.cpp: process", "src/ReadingOrderDetection.cpp: process", "src/serializers/PlainTextSerializer.cpp: serialize"]}
{"id": "C66", "title": "Blocks know their shape: centering, margins, hanging indent, emphasis and footnote labels", "statement": "Every detected block is marked as centered exactly if all pairs of consecutive lines are centered and some (all but at most five) pairs are visibly indented; as emphasised exactly if its font is larger, bolder or italic compared with the document's dominant font or its text is in upper case; the margins of its lines are their distances to the trim box (right margins of blocks of two lines to the wider one of this and the previous block); its hanging indent is the majority margin of its indented lines exactly if the lines hang; and the footnote labels known to the detection are exactly the runs of label characters behind the base of a word.", "quantifier": "all documents, segments and lines, with any fonts, positions, texts and hash orders", "why_tests_cant": "the conditions are combinations of tolerances, counts and majority votes over lists of any length", "anchors": ["src/utils/TextBlocksDetectionUtils.cpp: computeIsTextLinesCentered, computeIsEmphasized, computeTrimBox, computeTextLineMargins, computeHangingIndent, computePotentialFootnoteLabels", "src/utils/TextBlocksDetectionUtils.cpp: createTextBlock"]}
{"id": "C67", "title": "Every recorded character carries what the PDF says", "statement": "Every character in the parsed document stems from a drawing event; it carries the glyph name, the text (from the character map for known names of single code points, otherwise from the Unicode mapping), the font name, the rounded font size, the writing mode, the rotation and the rounded rectangle and base line that the graphics state and the font's information determine, the number of the page it was drawn on, and as extraction rank the number of elements drawn before it.", "quantifier": "all sequences of events Poppler may send (any number of pages, fonts, glyphs, matrices)", "why_tests_cant": "unbounded event sequences with arbitrary real-valued graphics states, all rotations, writing modes and font files", "anchors": ["src/PdfParsing.cpp: drawChar, startPage, updateFont"]}
{"id": "C68", "title": "The glyph table of an embedded font is complete", "statement": "From the decrypted private part of an embedded Type 1 font exactly the subroutines and glyphs it contains are read, each with its own name (number) and its decrypted program, and under the name of every glyph the box of its outline is recorded; reading never leaves the text.", "quantifier": "all private parts: any number, names and lengths of entries, any data bytes, any lenIV", "why_tests_cant": "arbitrary binary data between textual markers, arbitrary numbers of entries", "anchors": ["src/utils/PdfFontInfoParser.cpp: Type1FontFileParser::parseEncryptedPart"]}
{"id": "C69", "title": "The finished document is consistent", "statement": "After a run of all stages, everything in the document fits together: text lines are numbered consecutively and refer to their neighbours within their segment; parents and siblings of lines are on the same page and obey the indentation rules; the statistics are those of the document's own characters, words and lines; segments, blocks, roles and reading order are the result of the documented algorithms on exactly the elements, figures, fonts and statistics found in the document; page numbers agree; neighbouring lines of a block look alike; the text lines of a page are those of its blocks; and the printed text is that of the document's blocks.", "quantifier": "all parsed documents (any number of pages, any characters, figures, shapes), all outputs of the network and all permitted behaviours of the library's sorting and hashing", "why_tests_cant": "the stages communicate by side effects on one document; a wrong field, a stale statistic or a shifted reference on one page shows only in combination with particular documents", "anchors": ["src/PdfToTextPlusPlus.cpp: process", "src/TextLinesDetection.cpp: process, computeTextLineHierarchy", "src/TextBlocksDetection.cpp: process", "src/SemanticRolesPrediction.cpp: predict", "src/ReadingOrderDetection.cpp: detect"]}
{"id": "C70", "title": "The vocabularies of the prediction model are read completely, and every block gets a row of the words tensor", "statement": "Loading a model reads every line <token>TAB<id> of the vocabulary files (a token keeps the id of its first line, a role number the role of its last line), once per object; a missing or malformed file is reported by an exception, and loading ends. The words tensor has one row of exactly 100 ids per text block in document order: the byte pair encoding of its words, cut off or padded, independent of the other blocks.", "quantifier": "all vocabulary files (any number of lines, any tokens, any numbers), all documents", "why_tests_cant": "arbitrary file contents and arbitrary texts; non-termination cannot be observed by a test", "anchors": ["src/SemanticRolesPrediction.cpp: readModel, predict, createWordsInputTensor", "src/utils/BytePairEncoder.cpp"]}
{"id": "C71", "title": "Page segments are divided from each other by straight white strips", "statement": "The segments of a page arise from its words, figures, graphics and shapes by a sequence of straight cuts. A horizontal cut leaves a white strip of height 2 (minus the comparison tolerance) between the part above and the part below; a vertical cut leaves a white strip twice as wide as the usual distance between words, which at most one element on the left crosses. Hence of any two segments the one listed first lies above the other or left of it.", "quantifier": "all pages with upright elements with rounded coordinates, all document statistics with a positive usual word distance, all standard-conforming sorts", "why_tests_cant": "arbitrary page layouts and arbitrary depth of the recursion", "anchors": ["src/PageSegmentation.cpp: processPage, chooseXCuts, chooseYCuts", "src/utils/XYCut.cpp: xyCut, xCut, yCut", "src/Config.h: getXCutMinGapWidth, getYCutMinGapHeight"]}
{"id": "C72", "title": "The visualization shows exactly what was detected, where it was detected", "statement": "With the options --visualize-..., the output PDF contains exactly one frame around each detected character, figure, shape, graphic, word, text line, block or segment, on its page and at its place (thin elements are widened so that they are visible); each block carries its role; lines join the centers of consecutive blocks in reading order and each block carries its position; each cut is drawn as a line through the elements it divides, the chosen ones colored and numbered in their order; options do not influence each other and every processed document can be visualized.", "quantifier": "all documents processed by all stages, all combinations of options, all PDF files with these pages", "why_tests_cant": "all documents and all combinations of options", "anchors": ["src/PdfDocumentVisualization.cpp: visualize..., drawBoundingBox, drawReadingOrder, drawCuts, convertToUtf16", "src/pdftotext++.cpp: main (lines 720-758)", "src/PdfDocumentVisualization.h: color_schemes", "src/utils/XYCut.cpp: xCut, yCut"]}
{"id": "C73", "title": "Which lines start an item: the item labels", "statement": "A line of the text is taken for the beginning of an item iff it begins with a superscripted character of the item alphabet or its first word is an item label and is followed by another word. Item labels are the bullets, roman numerals up to 19 and numbers with a dot or in brackets, single letters, and short citation marks like [Bu2], with brackets, letters and digits exactly as listed.", "quantifier": "all texts, all lines of all processed documents", "why_tests_cant": "the labels are an infinite set given by regular expressions, the texts are arbitrary", "anchors": ["src/Config.h: superItemLabelAlphabet, itemLabelRegexes (lines 685-718)", "src/utils/TextBlocksDetectionUtils.cpp: computeIsPrefixedByItemLabel"]}
{"id": "C74", "title": "Named characters get the text the character map says", "statement": "If the name of a character is in the character map, its text is the character with the code point given there and its code points are exactly this one; entries for the same name agree.", "quantifier": "all names in the map, all characters of all parsed documents", "why_tests_cant": "the map has more than a hundred entries and every document may use any of them; a test would have to repeat the map", "anchors": ["src/utils/CharMap.h: charMap", "src/PdfParsing.cpp: drawChar (lines 204-227)"]}
{"id": "C75", "title": "From the drawing operations of the PDF to the printed text", "statement": "If Poppler sends the drawing operations in their order and the characters lie within the pages, the program parses them and runs to the end (only the role prediction can fail); the pages of the document are the pages that were started, in order, numbered from 1; and without dehyphenation and merging of diacritical marks the printed text consists of exactly the visible characters that were drawn on the pages, each as often as it was drawn, encoded in UTF-8.", "quantifier": "all sequences of drawing operations, all options, all outputs of the neural network, all orders in which the sorts put equal elements", "why_tests_cant": "must hold for every PDF", "anchors": ["src/PdfToTextPlusPlus.cpp: process", "src/PdfParsing.cpp", "src/serializers/PlainTextSerializer.cpp: serializeToStream"]}
{"id": "C76", "title": "No font look-up fails; the only reasons for which a run fails", "statement": "If Poppler sends the drawing operations in their order and the characters lie within the pages, then, whatever stages are skipped, the run fails only if reading order detection is enabled and the role prediction fails, and that fails only if a word of a block begins with a character above U+00FF (isupper), a counter wraps around at 2^32, or the neural network does not return a row of at most 14 probabilities for each block. The look-ups of font information by name never fail: neither in the role prediction nor when the characters are written as JSON lines, whatever units and roles are chosen.", "quantifier": "all sequences of drawing operations, all options, all networks, all orders in which the sorts put equal elements", "why_tests_cant": "must hold for every PDF and every combination of skipped stages", "anchors": ["src/PdfToTextPlusPlus.cpp: process", "src/SemanticRolesPrediction.cpp: createLayoutInputTensor, predict", "src/serializers/JsonlSerializer.cpp: serializeCharacters", "src/PdfParsing.cpp: updateFont, drawChar"]}
{"id": "C77", "title": "The whole program, from the command line to the output and the exit code", "statement": "A call of pdftotext++ that names one PDF file: if Poppler can't load the file, nothing is written and the exit code is Poppler's error code; otherwise, if its characters lie within the pages, the exit code is 0 and the text is written once, to the given place - unless the semantic roles can't be predicted, then nothing is written, and the exit code is 3 if the model can't be loaded. If the exit code is 0 and no stage that is needed for text is skipped, the text written consists of exactly the visible characters drawn on the pages, in UTF-8, each as often as it was drawn - with the default options after merging diacritical marks and without the hyphens of hyphenated words.", "quantifier": "all command lines, all PDF files (sequences of drawing operations), all networks, all file systems", "why_tests_cant": "must hold for every PDF file and every combination of options", "anchors": ["src/pdftotext++.cpp: main", "src/PdfToTextPlusPlus.cpp: process", "src/serializers/Serializer.cpp: serialize"]}
{"id": "C78", "title": "Rounding errors of double arithmetic do not change comparisons and sorting of parsed elements", "statement": "With the arithmetic of IEEE 754 doubles (every operation rounded to nearest, any tie-breaking): the coordinates the parser stores are the doubles closest to decimal numbers near the true coordinates; comparing stored coordinates (equal, smaller, larger, or equal) with the default tolerance has the result of comparing the decimal numbers exactly, and with any other tolerance unless the difference is within a millionth of it; all comparators used for sorting agree with the exact ones; bounding boxes are exact; overlap ratios lie between 0 and 1, are exactly 1 for contained intervals and are accurate to a millionth; gaps are accurate to a billionth.", "quantifier": "all roundings to nearest, all coordinates up to 10^9 (ratios and gaps: 10^6) rounded to at most three decimals", "why_tests_cant": "rounding errors depend on every bit of the operands; a failing pair of doubles is practically never hit by a test", "anchors": ["src/utils/MathUtils.cpp: equal, larger, smaller, equalOrLarger, equalOrSmaller, round", "src/utils/Comparators.h", "src/utils/PdfElementsUtils.cpp: computeOverlapRatios, computeHorizontalGap, computeVerticalGap"]}
{"id": "C79", "title": "The reading order depends on the layout, not on the order in which the page elements were found", "statement": "The order in which the text blocks of a page are printed is determined by the positions, roles and kinds of the page elements: if the blocks, figures and shapes of a page come in another order (a PDF file may draw them in any order), or the sorting routines of the C++ library treat ties differently, the blocks are printed in the same order, except that neighbouring blocks with the same upper edge may be exchanged. This requires that page elements sharing an edge agree on what forces a primary cut (turned text, high or wide separators, title, author information, marginal); otherwise the order may depend on the drawing order.", "quantifier": "all pages of parsed elements, all permutations of their blocks, figures and shapes, all sorting routines and heaps meeting the C++ contract", "why_tests_cant": "it compares the results for all permutations of the input and for all permitted implementations of std::sort; a test runs one of each", "anchors": ["src/ReadingOrderDetection.cpp: detectReadingOrder, choosePrimaryXCuts, choosePrimaryYCuts, chooseYCuts", "src/utils/XYCut.cpp: xyCut, xCut, yCut"]}
{"id": "C80", "title": "The outlines in an embedded font file decide how high its characters are", "statement": "If a font comes with an embedded Type 1 font file, then the box of every character drawn with it takes the outline into account that the file stores under the name of the drawn glyph, scaled by the font matrix of the file and placed by the text rendering matrix: if the outline reaches above the ascent or below the descent of the font, the box of the character is the smallest rectangle around the outline, otherwise it reaches from ascent to descent and from pen to pen; no part of the drawn outline lies outside of the box.", "quantifier": "all font files (bytes, with and without segment headers, any glyphs, subroutines and encodings of their programs), all graphics states, all states of the parser", "why_tests_cant": "it composes decryption, the search for the programs, their interpretation, the font matrix and the text rendering matrix, for arbitrary bytes and matrices", "anchors": ["src/utils/PdfFontInfoParser.cpp: PdfFontInfoParser::parse, Type1FontFileParser::parse, parseAsciiPart, parseEncryptedPart, parseCharString", "src/PdfParsing.cpp: updateFont, drawChar"]}
{"id": "C81", "title": "Moving the contents of the pages does not change the text", "statement": "If two PDF files differ only in that everything on the pages (characters, figures, graphics, shapes) is moved by the same distance to the right and downwards, then the program detects the same words, segments, lines, blocks and reading order in both, at positions that differ by exactly this distance, prints the same text, and fails for one file if and only if it fails in the same way for the other.", "quantifier": "all documents (pages, characters, figures, graphics, shapes), all distances, all settings of the stages, all sorting routines and hash tables that only look at comparisons", "why_tests_cant": "it relates two runs of all stages, for every document and every distance; only a proof can show that no stage compares an absolute position", "anchors": ["src/WordsDetection.cpp: process", "src/PageSegmentation.cpp: process", "src/TextLinesDetection.cpp: process", "src/TextBlocksDetection.cpp: process", "src/ReadingOrderDetection.cpp: process", "src/PdfToTextPlusPlus.cpp: process", "src/utils/TextLinesDetectionUtils.cpp: computeTrimBox"]}
{"id": "C82", "title": "Every object of a document is released exactly once", "statement": "Whatever a PDF file draws and whatever the stages detect, and whether they end normally or with an exception, destroying the document releases no object twice, follows no pointer to a released object, and leaves no object of the document allocated.", "quantifier": "all sequences of drawing events, detected words, cuts, segments, lines and blocks, all reading orders, all points at which an exception can leave a stage", "why_tests_cant": "a double release shows only for particular sequences of creations and hand-overs, often without a crash, and exceptions can leave the stages at any point", "anchors": ["src/Types.cpp: PdfDocument::~PdfDocument, PdfPage::~PdfPage, PdfFigure::~PdfFigure, PdfPageSegment::~PdfPageSegment", "src/PdfParsing.cpp: drawChar, stroke, drawImage, startPage, updateFont", "src/utils/XYCut.cpp: xCut, yCut", "src/TextLinesDetection.cpp: process", "src/WordsDehyphenation.cpp: process", "src/ReadingOrderDetection.cpp: process"]}
{"id": "C83", "title": "Further pages at the end do not change the pages before them", "statement": "If a document is extended by pages at its end and the statistics of the whole document (average character size, most frequent font, font size and distances), the fonts in use and the predicted roles stay the same, then the pages before have the same characters, words, lines, blocks, roles and order as without the further pages; and unless the last word of the shorter document ends with a hyphen, the plain text of the extended document begins with the text of the shorter one.", "quantifier": "all documents, all lists of further pages, all configurations, all selections of roles, all library behaviours within their contract", "why_tests_cant": "the stages share state over the pages (footnote labels, statistics, line numbers, hyphenated words); an influence from later pages shows only for particular pairs of documents", "anchors": ["src/PdfToTextPlusPlus.cpp: process", "src/TextBlocksDetection.cpp: process", "src/TextLinesDetection.cpp: process", "src/WordsDehyphenation.cpp: process", "src/serializers/PlainTextSerializer.cpp: serializeToStream"]}
{"id": "C84", "title": "The output formats tell the same text", "statement": "For every finished run and every selection of roles, the paragraphs of the plain text are the texts of the blocks in the JSONL output, in the same order; the text of each block is the texts of its words in the JSONL output joined by single spaces, and the text of each word is the texts of its characters in the JSONL output one after the other.", "quantifier": "all parsed documents, all configurations, all selections of roles, all number printers", "why_tests_cant": "the texts are computed in different stages from different data (blocks from words, words from characters, the plain text from characters and hyphenation marks); a disagreement shows only for particular documents", "anchors": ["src/serializers/JsonlSerializer.cpp: serializeTextBlocks, serializeWords, serializeCharacters", "src/serializers/PlainTextSerializer.cpp: serializeToStream", "src/utils/TextBlocksDetectionUtils.cpp: createTextBlock", "src/utils/WordsDetectionUtils.cpp: createWord", "src/WordsDehyphenation.cpp: process"]}
{"id": "C85", "title": "The help describes every option the program understands, and only those", "statement": "--help prints the name, version, description and usage of the program and then, in the order of the option table, each public option on a line of its own followed by the indented words of its description; --full-help additionally the non-public ones. Every switch the program reads is listed, every listed switch is read, and the values listed for --format, --role and --type are exactly the accepted ones. Printing fails only for blank texts.", "quantifier": "all program texts and option tables, all command lines, all iteration orders of the serializers", "why_tests_cant": "the texts are build-time parameters of arbitrary length that are cut into lines; that a switch outside the help has no effect is a statement about all command lines", "anchors": ["src/pdftotext++.cpp: printHelpMessage, printVersionMessage, main", "src/utils/TextUtils.cpp: strip, wrap", "src/PdfDocumentSerialization.cpp: getSerializationFormatChoicesStr", "src/utils/PdfElementsUtils.cpp: getSemanticRolesStr, getPdfElementTypesStr", "src/Validators.cpp: validate"]}
{"id": "C86", "title": "Switching off dehyphenation or reading order detection changes nothing else", "statement": "Whether words are dehyphenated has no influence on the success of a run, on the JSONL output (for any roles and units) or on the visualization; without it the text output consists of the words as they stand on the page. Whether the reading order is detected changes, on each page, only the order and the roles of the blocks: the words, blocks, figures and shapes with their texts, positions and fonts are the same, and the run still succeeds unless the prediction of the roles fails.", "quantifier": "all documents, all configurations that differ only in these switches, all behaviours of the external libraries and of the model", "why_tests_cant": "it compares two runs of the program on every document; a leak from one stage into another may show only on some of them", "anchors": ["src/PdfToTextPlusPlus.cpp: process", "src/WordsDehyphenation.cpp: process", "src/ReadingOrderDetection.cpp: process", "src/serializers/JsonlSerializer.cpp: serializeToStream", "src/serializers/PlainTextSerializer.cpp: serializeToStream", "src/PdfDocumentVisualization.cpp: visualize"]}
{"id": "C87", "title": "The ids link the records of the JSONL output", "statement": "In the JSONL output of a run with characters, words and blocks (and possibly further units, in any order), if no two blocks and no two words got the same random id, every word record refers by its member block to exactly one block record, every character record by its member word to exactly one word record, both refer to the same block, and the text of each block (word) is that of the words (characters) that refer to it. Ids of objects of different types are never the same. The ids have no influence on the text format.", "quantifier": "all documents, configurations, selections of roles, orders of units and all ids", "why_tests_cant": "the ids are random; that a join on them rebuilds the hierarchy must hold for every document and every draw", "anchors": ["src/serializers/JsonlSerializer.cpp: serializeCharacters, serializeWords, serializeTextBlocks", "src/utils/TextUtils.cpp: createRandomString", "src/utils/WordsDetectionUtils.cpp: createWord", "src/utils/TextBlocksDetectionUtils.cpp: createTextBlock", "src/PdfParsing.cpp: drawChar"]}
{"id": "C88", "title": "The report of the running times adds up", "statement": "With --print-running-times, a successful run prints, after everything it prints without the switch, a report with one line for loading, parsing, each enabled stage, writing the output and the visualization (if any), in this order; the total is the sum of the durations, each percentage is the share of the step rounded to one decimal, lies between 0 and 100, and the percentages add up to 100 up to rounding. The switch changes neither the exit code nor anything else that is printed or written, and without it there is no report.", "quantifier": "all command lines, files, durations and number formats", "why_tests_cant": "the durations differ in every run; the statement ranges over all of them and over all combinations of switches", "anchors": ["src/pdftotext++.cpp: main", "src/PdfToTextPlusPlus.cpp: process", "src/utils/MathUtils.cpp: round"]}
{"id": "C89", "title": "The output is valid UTF-8", "statement": "Whatever the command line and the PDF file, what the program writes to standard output or into the output file is the UTF-8 encoding of some text: neither joining hyphenated words nor merging diacritical marks nor escaping breaks a character apart. The same holds for the JSONL serializer, if the names of fonts are UTF-8.", "quantifier": "all command lines, drawn PDF files, subsets of skipped stages, formats, roles and units", "why_tests_cant": "the hyphen is cut off by bytes and the escaping works on bytes; that no multi-byte character is ever affected is a statement about all texts", "anchors": ["src/WordsDehyphenation.cpp: process", "src/utils/TextUtils.cpp: escapeJson, shorten", "src/serializers/PlainTextSerializer.cpp", "src/serializers/PlainTextExtendedSerializer.cpp", "src/serializers/JsonlSerializer.cpp", "src/PdfParsing.cpp: drawChar"]}
{"id": "C90", "title": "What the neural network can change", "statement": "Whatever roles the neural network predicts, the run finds the same pages, figures, shapes, words and text blocks, with the same texts, positions and fonts: the prediction can only change the roles and the order of the blocks. If two predictions agree on which blocks are titles, author information and marginals, the order is the same, too: then the plain text of all roles (or of any roles on which the predictions agree) and the JSONL records of pages, figures, shapes, words and characters are equal byte for byte, including the joined words. If reading order detection is switched off, the network has no influence at all.", "quantifier": "all networks (any function, also one that fails), parsed documents, subsets of skipped stages, selections of roles and units", "why_tests_cant": "ranges over all networks and documents; the shipped model file is one network out of infinitely many, and a new model file must not change the texts", "anchors": ["src/SemanticRolesPrediction.cpp: predict", "src/ReadingOrderDetection.cpp: detectReadingOrder, choosePrimaryYCuts", "src/WordsDehyphenation.cpp: process", "src/serializers/PlainTextSerializer.cpp", "src/serializers/JsonlSerializer.cpp"]}
{"id": "C91", "title": "Boxes lie inside each other", "statement": "In the result of every complete run the box of a word is the smallest one around its characters, the box of a text line the smallest one around its words, and the box of a text block the smallest one around its lines, all of the same page. So a block contains its lines and words, every region that contains the characters drawn on a page (such as the page itself) contains all words, lines and blocks reported for it, and a word contains its characters (and a segment its words and lines).", "quantifier": "all parsed documents (any positions, rotations and fonts), all libraries that meet the contract of std::sort and of the hash tables, all regions", "why_tests_cant": "a test sees the boxes of a few documents; lines are created, merged repeatedly and split into blocks depending on the input, and a single missed update of a box would only show on some of them", "anchors": ["src/utils/WordsDetectionUtils.cpp: createWord", "src/TextLinesDetection.cpp: createTextLine, mergeTextLines, computeTextLineProperties", "src/utils/TextBlocksDetectionUtils.cpp: createTextBlock", "src/utils/PageSegmentationUtils.cpp: createPageSegment"]}
{"id": "C92", "title": "Blocks are read from top to bottom and from left to right", "statement": "In the result of every complete run the lines of a text block are consecutive lines of one segment. On a page of upright text a block is read, and printed, line by line in the order of the lower edges of the lines, and every line word by word in the order of the left edges of the words, whatever the order in which the PDF file draws the characters; neighbouring lines overlap by less than the documented part of their heights. Text that stands on its head is read from the bottom to the top and from right to left; text that is turned by 90 degrees is read line by line in the direction in which it is turned.", "quantifier": "all parsed documents, all pages with characters of one rotation, all libraries that meet the contract of std::sort and of the hash tables", "why_tests_cant": "lines are collected in hash tables, sorted, merged in rounds and split into blocks; that the order survives all of this for every arrangement of words cannot be seen from examples", "anchors": ["src/TextLinesDetection.cpp: process, createTextLine, mergeTextLines, computeTextLineProperties", "src/utils/Comparators.h: RotLeftXAscComparator, RotLowerYAscComparator", "src/TextBlocksDetection.cpp", "src/serializers/PlainTextSerializer.cpp"]}
{"id": "C93", "title": "The result does not depend on uninitialised memory", "statement": "The finished document, and everything printed of it, depends only on the contents of the PDF file and the options, not on what happens to be in memory: two runs whose memory contains different values where text blocks are created end in the same way with the same document.", "quantifier": "all documents, all settings of the stages, all contents of uninitialised memory, all libraries and networks", "why_tests_cant": "a test sees one content of the memory; in most test runs the memory is zero, and the difference does not show", "anchors": ["src/Types.h: PdfTextBlock::role", "src/TextBlocksDetection.cpp: process, createTextBlock", "src/SemanticRolesPrediction.cpp: predict", "src/ReadingOrderDetection.cpp: process", "src/PdfToTextPlusPlus.cpp: process"]}
{"id": "C94", "title": "Pages without text at the end do not change the output", "statement": "If pages without characters (blank pages, or pages with figures and graphics only) are appended to a document and the predicted roles stay the same, then the statistics, the words, lines, paragraphs, roles, their order and the hyphenated words stay the same, the further pages have no words and no paragraphs, the plain text is exactly the same, the plain text with control characters has one more page break per page, and the JSONL records of words, characters and paragraphs are the same.", "quantifier": "all documents, all lists of further pages without characters, all configurations, all selections of roles and units, all library behaviours within their contract", "why_tests_cant": "the statistics are taken over all pages, and hyphenated words, footnote labels and line numbers are passed on from page to page; an influence of a page without text would show only for particular documents", "anchors": ["src/GlyphsStatisticsCalculation.cpp: process", "src/WordsStatisticsCalculation.cpp: process", "src/TextLinesStatisticsCalculation.cpp: process", "src/WordsDehyphenation.cpp: process", "src/serializers/PlainTextSerializer.cpp: serializeToStream", "src/serializers/JsonlSerializer.cpp: serializeToStream"]}
{"id": "C95", "title": "The descriptions of elements identify them", "statement": "If two elements (characters, words, text lines, text blocks, figures, shapes, graphics, page segments) have the same short description, they are of the same kind, on the same page, at the same place to the printed precision and, if they have text, have the same font, font size and text; if they have the same long description, they also agree in rotation, writing mode, colors, code points, margins, role and flags as far as these belong to the kind. A description stays on one line if font name and text do. The parenthesis opened by a long description is closed at its end, except for page segments.", "quantifier": "all pairs of elements of all kinds with font names without semicolon, all ways to print numbers as numbers that are exact for integers", "why_tests_cant": "whether two different elements can produce the same text depends on arbitrary texts that may contain the separators themselves; tests compare a few descriptions", "anchors": ["src/Types.cpp: PdfPosition::toString, toShortString", "src/Types.cpp: PdfCharacter::toString, PdfWord::toString, PdfTextLine::toString, PdfTextBlock::toString, PdfFigure::toString, PdfShape::toString, PdfGraphic::toString, PdfPageSegment::toString", "src/Types.cpp: toShortString of the element classes"]}
{"id": "C96", "title": "Ranks tell the extraction order", "statement": "The field rank of the JSONL output can be used to restore the order in which the PDF draws the text: the characters of a file get increasing ranks, page after page, and no stage changes them; sorting the printed words by page and rank lists them in the order in which they were drawn, a word on an earlier page or of smaller rank consisting of characters drawn before all those of the other, and the rank identifies the word on its page; the characters of a word are in their order. The blocks of a page are numbered 0, 1, 2, ... in the order of detection, whatever the reading order, and in this order contain the text lines of the document in the order of their ranks, each once; without reading order detection this is the order in which they are printed.", "quantifier": "all sequences of drawing operations, all configurations of the stages, all networks, all sorting functions of the library", "why_tests_cant": "the relation between the ranks of any two printed words must survive the merging of marks, word detection, segmentation, line and block detection and reordering, for every document and every combination of stages", "anchors": ["src/Types.h: PdfElement::rank", "src/PdfParsing.cpp: _numElements", "src/WordsDetection.cpp: process", "src/TextLinesDetection.cpp: process", "src/utils/TextBlocksDetectionUtils.cpp: createTextBlock", "src/serializers/JsonlSerializer.cpp"]}
{"id": "C97", "title": "The output options only select", "statement": "The options for roles, units, format, output file, verbosity and visualization do not change what is detected: for every file and every choice of skipped stages there is one list of paragraphs per page, with roles, and every call of the program that succeeds writes exactly the paragraphs with the roles asked for, in that order, in the format and to the place asked for; likewise there is one list of JSONL records per unit from which the records of every choice of roles and units are picked. Choosing more roles adds paragraphs or records and removes none. The exit code does not depend on these options.", "quantifier": "all files, all parsed documents, all pairs of calls, all sets of roles, all lists of units", "why_tests_cant": "it compares the outputs of all pairs of choices for every document", "anchors": ["src/serializers/PlainTextSerializer.cpp: serializeToStream", "src/serializers/PlainTextExtendedSerializer.cpp: serializeToStream", "src/serializers/JsonlSerializer.cpp: serializeToStream", "src/PdfDocumentSerialization.cpp", "src/pdftotext++.cpp: main"]}
{"id": "C98", "title": "The order of the entries of hash tables matters only for ties", "statement": "The result does not depend on the order in which the standard library goes through hash tables, except for ties: for every document and every choice of stages, two libraries that go through the entries of a counter in different orders, but agree on counters where several values occur most often or where two values cannot be told apart by the tolerant comparisons, compute the same result, failures included. The same holds for the tables of words by direction and height and of counters by font size on pages whose words are all written in one direction, if no word of a stacked formula ends at the same height as a word of another line. On pages with words of several directions, each segment has the same lines in the same order within each direction.", "quantifier": "all documents, all configurations, all pairs of iteration orders", "why_tests_cant": "one standard library shows only one order; the property compares all orders", "anchors": ["src/utils/Counter.h", "src/utils/Counter.cpp", "src/TextLinesDetection.cpp: process", "src/TextLinesStatisticsCalculation.cpp", "src/GlyphsStatisticsCalculation.cpp", "src/WordsStatisticsCalculation.cpp"]}
{"id": "C99", "title": "A column set in fixed-width type is extracted exactly, with its paragraphs", "statement": "A page of running text set in one column of fixed-width type (font size 10, characters 5 wide and 10 high that touch each other, words 5 apart, rows 1 apart, flush left) is extracted exactly, whatever the words are and however many rows and words there are: the detected words are the words of the page in order, the text lines are its rows, the text blocks are its paragraphs in order, each of them has exactly the box of its characters on the page, the JSONL output has one record for every paragraph, word and character in order, with its text, its corners, its font, its font size and its page, and the program prints each paragraph on one line (its words in order, separated by single spaces), with an empty line between the paragraphs. A row begins a paragraph exactly if its first word would have fit into the row before with two characters to spare. The first row fills the column, no row is longer, and full rows are more frequent than rows of any other length; the rows do not begin with an item label; the font is not italic and every row contains a small letter. A hyphenated word at the end of a row is printed joined with the first word of the next row (also across the end of a paragraph), unless dehyphenation is switched off; the words and blocks keep both parts. In particular a paragraph flush on both sides, with a last row that may be shorter, is one block, whatever the font and the letters.", "quantifier": "all lists of rows of words (non-empty rows, non-empty words, at least one row of two words), all contents of the words, all column widths and numbers of paragraphs, all hash orders, all third-party sorting routines and all predicted roles", "why_tests_cant": "a test reads one text; the property speaks about every text of every length set in this way, through all stages of the program", "anchors": ["src/PdfToTextPlusPlus.cpp: process", "src/WordsDetection.cpp", "src/PageSegmentation.cpp", "src/TextLinesDetection.cpp", "src/TextBlocksDetection.cpp", "src/serializers/PlainTextSerializer.cpp"]}
