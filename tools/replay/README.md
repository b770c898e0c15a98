# Replay: the PDF files of the repository through the model

The repository's unit and end-to-end tests run the program on PDF files.  Neither the program nor Poppler can run in this sandbox, but the
model can: it is executable.

* `pdf.py` reads a PDF file (objects, streams, content operators); `events.py FILE.pdf > FILE.ev` plays the role of Poppler and writes the
  calls of the output device (fonts with their embedded font files, characters, strokes, images, pages), with exact rationals.
* `Replay.lean.txt` (copy it to a `.lean` file outside /verif; run it in /verif/lean with
  `lake env lean --run Replay.lean FILE.ev > FILE.out`) feeds these events to the definitions of the model - `EmbeddedFont.embeddedN`,
  `Parsing.step`, and the stages of `Pipeline` - and prints characters, words, segments, lines with their hierarchy, blocks, the values of
  the functions of `TextBlocksDetectionUtils`, and writes the plain text output to `FILE.ev.txt`.
* `check_blocks.py FILE.out` reads the assertions out of /repo/test/utils/TextBlocksDetectionUtilsTest.cpp and compares.

The drivers are not part of any proof.  They are evidence that the model computes what the program computes.

| file | compared with | result |
|---|---|---|
| test/pdfs/WordsDetectionUtilsTest.pdf | WordsDetectionUtilsTest.cpp: boxes, texts of the words, also of the text turned by 90, 180 and 270 degrees | all equal (the box of the upside-down word has its vertical edges the wrong way round in the test, and in the model) |
| test/pdfs/TextLinesDetectionUtilsTest.pdf | TextLinesDetectionUtilsTest.cpp: parents and siblings of the 14 lines, trim box | all equal |
| test/pdfs/TextBlocksDetectionUtilsTest.pdf | TextBlocksDetectionUtilsTest.cpp | 333 of 333 assertions read by `check_blocks.py` hold; the assertions of `createTextBlock` (boxes, trim boxes, fonts, flags, ranks) compared by hand: all equal; `ASSERT_DEATH` on null pointers not applicable |
| e2e/pdfs/test.pdf | e2e/ground_truth/no-options/test.eo | equal up to the ligatures U+FB01 and U+FB02, which `events.py` (the stand-in for Poppler) delivers as one code point |
| test/pdfs/1-article-two-columns.pdf | the rectangles that the program itself drew into test/pdfs/1-article-two-columns.vis-blocks.pdf | all 53 text blocks equal (to 0.1) |

The unit tests that need no PDF file are transcribed as kernel-checked examples in lean/Verif/Conformance.
