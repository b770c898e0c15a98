import Verif.Model.Math
import Verif.Model.Text

/-!
# Model of `/repo/src/utils/Log.h` and `Log.cpp`

A stream is a list of characters; the time stamp is a parameter.
-/

namespace Verif.Log

open Verif.Text

/-- `LogLevel`, `/repo/src/utils/Log.h:41` (an unscoped enumeration, compared by its numbers). -/
inductive Level where
  | trace | debug | info | warn | error
deriving DecidableEq, Repr

/-- The numbers of the enumerators, `/repo/src/utils/Log.h:41`. -/
def Level.num : Level → ℕ
  | .trace => 0
  | .debug => 1
  | .info => 2
  | .warn => 3
  | .error => 4

/-- `Logger`, `/repo/src/utils/Log.h:65`; constructor `/repo/src/utils/Log.cpp:31-34`. -/
structure Logger where
  logLevel : Level
  pageFilter : ℤ := -1
deriving DecidableEq

/-- `setLogLevel`, `/repo/src/utils/Log.cpp:37-39`. -/
def setLogLevel (l : Logger) (level : Level) : Logger := { l with logLevel := level }

/-- `setPageFilter`, `/repo/src/utils/Log.cpp:42-44`. -/
def setPageFilter (l : Logger) (page : ℤ) : Logger := { l with pageFilter := page }

/-- `getostream`, `/repo/src/utils/Log.cpp:72-87`: `true` for `cout`, `false` for the null stream. -/
def getostream (l : Logger) (level : Level) (pageNum : ℤ) : Bool :=
  if l.logLevel.num > level.num then false
  else if l.pageFilter > 0 ∧ pageNum > 0 ∧ l.pageFilter ≠ pageNum then false
  else true

/-- The coloured name of a level, `/repo/src/utils/Log.cpp:93-111` and `Log.h:26-34`. -/
def levelStr : Level → Str
  | .trace => "\x1b[1m\x1b[35mTRACE:\x1b[0m".toList
  | .debug => "\x1b[1m\x1b[32mDEBUG:\x1b[0m".toList
  | .info => "\x1b[1m\x1b[34mINFO: \x1b[0m".toList
  | .warn => "\x1b[1m\x1b[33mWARN: \x1b[0m".toList
  | .error => "\x1b[1m\x1b[31mERROR:\x1b[0m".toList

/-- `createLogMessagePrefix`, `/repo/src/utils/Log.cpp:90-114`. -/
def messagePrefix (stamp : Str) (level : Level) : Str :=
  stamp ++ ['\t', '-', ' '] ++ levelStr level ++ [' ']

/-- A call `log->trace(page) << text`, ..., `/repo/src/utils/Log.cpp:47-69`: what is appended to the
console.  (A message written to the null stream is discarded, `Log.h:54-60`.) -/
def log (l : Logger) (console : Str) (level : Level) (pageNum : ℤ) (stamp text : Str) : Str :=
  if getostream l level pageNum then console ++ (messagePrefix stamp level ++ text) else console

/-- A step in the life of a logger: a message or a change of its settings. Model glue for histories,
`/repo/src/utils/Log.cpp:37-69`. -/
inductive Step where
  | message (level : Level) (pageNum : ℤ) (stamp text : Str)
  | level (level : Level)
  | page (filter : ℤ)

/-- The effect of a history on logger and console. Model glue for histories,
`/repo/src/utils/Log.cpp:37-69`. -/
def run (l : Logger) (console : Str) : List Step → Logger × Str
  | [] => (l, console)
  | .message lv p st t :: ss => run l (log l console lv p st t) ss
  | .level lv :: ss => run (setLogLevel l lv) console ss
  | .page p :: ss => run (setPageFilter l p) console ss

end Verif.Log
