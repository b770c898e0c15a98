import Verif.Model.Cli

/-!
# Model of the report of the running times: `/repo/src/pdftotext++.cpp:763-784`
-/

namespace Verif.Cli

open Verif.Text Verif.Math

/-- How `cout` prints numbers after `imbue(locale(""))`, `fixed` and `setprecision(1)`: integers (with the thousands
separators of the user's locale), numbers with one decimal, and NaN; `/repo/src/pdftotext++.cpp:765-769`.  Any functions. -/
structure NumberFormat where
  int : ℕ → Str
  tenths : ℚ → Str
  nan : Str

/-- `timeTotal`, `/repo/src/pdftotext++.cpp:771-772` (an overflow of `int64_t` is not modelled). -/
def timeTotal : List (Str × ℕ) → ℕ
  | [] => 0
  | t :: ts => t.2 + timeTotal ts

/-- `round(timing.time / static_cast<double>(timeTotal) * 100, 1)`, `/repo/src/pdftotext++.cpp:779`; `none` is NaN, the
value of 0 / 0 (no other time occurs if the total is 0). -/
def percentOf (total ms : ℕ) : Option ℚ :=
  if total = 0 then none else some (roundTo ((ms : ℚ) / total * 100) 1)

/-- `cout << std::left << setw(n) << s`, `/repo/src/pdftotext++.cpp:777`. -/
def padLeftAligned (n : ℕ) (s : Str) : Str := s ++ List.replicate (n - s.length) ' '

/-- `cout << std::right << setw(n) << s`, `/repo/src/pdftotext++.cpp:778`. -/
def padRightAligned (n : ℕ) (s : Str) : Str := List.replicate (n - s.length) ' ' ++ s

/-- The line of one timing, `/repo/src/pdftotext++.cpp:775-782`. -/
def timingLine (F : NumberFormat) (total : ℕ) (t : Str × ℕ) : Str :=
  padLeftAligned 25 ([' ', '*', ' '] ++ t.1 ++ [':']) ++ padRightAligned 4 (F.int t.2) ++ " ms ".toList ++ ['('] ++
    (match percentOf total t.2 with
      | some p => F.tenths p
      | none => F.nan) ++ ['%', ')'] ++ ['\n']

/-- The report, `/repo/src/pdftotext++.cpp:763-784` (`BOLD` and `OFF`: `/repo/src/utils/Log.h:26,34`). -/
def timesReport (F : NumberFormat) (ts : List (Str × ℕ)) : Str :=
  "\x1b[1m".toList ++ "Finished in ".toList ++ F.int (timeTotal ts) ++ " ms.".toList ++ "\x1b[0m".toList ++ ['\n'] ++
    ts.flatMap (timingLine F (timeTotal ts))

/-- What an action writes to standard output: the extracted text (if it goes there) and the report,
`/repo/src/serializers/Serializer.cpp:39-42`, `/repo/src/pdftotext++.cpp:763-784`.  (Help and version are not looked at here, see
`Verif.Model.Help`.) -/
def stdoutOfAction (F : NumberFormat) : Action → Str
  | .write (.stdout text) => text
  | .times ts => timesReport F ts
  | _ => []

/-- What a run writes to standard output (see `stdoutOfAction`), `/repo/src/pdftotext++.cpp:699-784`. -/
def stdoutOfRun (F : NumberFormat) (r : Run) : Str := r.actions.flatMap (stdoutOfAction F)

end Verif.Cli
