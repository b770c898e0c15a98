import Verif.Model.EndToEnd

/-!
# The whole program: from the command line and the PDF file to the output and the exit code
-/

namespace Verif.EndToEnd

open Verif.Text (Str)
open Verif.Pipeline (Document env toSDoc)

/-- What the program finds when it is started: the libraries, the PDF files as Poppler loads and draws them, the operating system and the clock. -/
structure World where
  lib : Pipeline.Lib
  /-- The numbers of a line of a font file. -/
  numbers : Str → List ℚ
  /-- The error code, if Poppler can't load the file, `/repo/src/PdfToTextPlusPlus.cpp:80-89`. -/
  loadError : Str → Option ℤ
  /-- The drawing operations of a file, `/repo/src/PdfToTextPlusPlus.cpp:92-104`. -/
  events : Str → List Parsing.Event
  os : Cli.Os
  /-- Measured running times. -/
  duration : ℕ → ℕ
  clock : ℕ → ℕ
  serializers : Cli.SerializersOrder
  /-- Which of the help switches boost has stored when an error occurs. -/
  seen : Bool × Bool × Bool

/-- The program: `main` (`/repo/src/pdftotext++.cpp:162-787`) with the stages of `/repo/src/PdfToTextPlusPlus.cpp:72-267` on a new document
(`/repo/src/pdftotext++.cpp:674`). -/
def program (w : World) (g : Cli.Given) : Cli.Run :=
  Cli.main w.os (Cli.engineOf (fun path => env w.lib (w.loadError path) (parse w.numbers (w.events path)) w.duration) toSDoc {}) w.clock
    w.serializers w.seen g

end Verif.EndToEnd
