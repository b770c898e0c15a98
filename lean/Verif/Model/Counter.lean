import Verif.Model.Outcome
import Verif.Model.Math

/-!
# Model of `/repo/src/utils/Counter.cpp`

A `DoubleCounter` / `StringCounter` is a `std::unordered_map` from keys to `unsigned int` counts.
The model of a counter is the list of its entries *in the iteration order of the hash table*; the
order is unspecified in C++, hence every theorem quantifies over it.
-/

namespace Verif.Counter

open Verif.Math

/-- Entries of the hash table in iteration order, `/repo/src/utils/Counter.h` (classes
`DoubleCounter`, `StringCounter` deriving from `unordered_map`). -/
abbrev Entries (κ : Type) := List (κ × ℕ)

/-- One step of the loop `/repo/src/utils/Counter.cpp:43-48` (and `105-110` for strings). -/
def mostFreqStep {κ : Type} (best : κ × ℕ) (entry : κ × ℕ) : κ × ℕ :=
  if entry.2 > best.2 then entry else best

/-- `DoubleCounter::mostFreqAndCount`, `/repo/src/utils/Counter.cpp:39-55`, and
`StringCounter::mostFreqAndCount`, `101-117` (whose message says `<= 0` instead of `== 0`).  `dflt` is the initial value `0.0` (`""`). -/
def mostFreqAndCount {κ : Type} (dflt : κ) (entries : Entries κ) : Outcome (κ × ℕ) :=
  let best := entries.foldl mostFreqStep (dflt, 0)
  if best.2 = 0 then .throw "The counter is empty or all counts are == 0." else .ok best

/-- `mostFreq`, `/repo/src/utils/Counter.cpp:29-31, 91-93`. -/
def mostFreq {κ : Type} (dflt : κ) (entries : Entries κ) : Outcome κ :=
  (mostFreqAndCount dflt entries).bind fun p => .ok p.1

/-- `mostFreqCount`, `/repo/src/utils/Counter.cpp:34-36, 96-98`. -/
def mostFreqCount {κ : Type} (dflt : κ) (entries : Entries κ) : Outcome ℕ :=
  (mostFreqAndCount dflt entries).bind fun p => .ok p.2

/-- One step of the loop `/repo/src/utils/Counter.cpp:62-67`; the state is `(max, entryFound)`. -/
def maxStep (st : ℚ × Bool) (entry : ℚ × ℕ) : ℚ × Bool :=
  if entry.2 > 0 ∧ larger entry.1 st.1 tol = true then (entry.1, true) else st

/-- `DoubleCounter::max`, `/repo/src/utils/Counter.cpp:58-74`. -/
def max (entries : Entries ℚ) : Outcome ℚ :=
  let st := entries.foldl maxStep (dblMin, false)
  if st.2 then .ok st.1 else .throw "The counter is empty or all counts are == 0."

/-- `sumCounts`, `/repo/src/utils/Counter.cpp:77-85, 120-128` (`unsigned int` arithmetic). -/
def sumCounts {κ : Type} (entries : Entries κ) : ℕ :=
  entries.foldl (fun sum e => (sum + e.2) % 2 ^ 32) 0

/-- `counter[key]++` on an `unordered_map<K, unsigned int>`: the way all callers fill a counter, e.g.
`/repo/src/GlyphsStatisticsCalculation.cpp:68-69`.  (A new entry may go anywhere in the iteration
order; theorems about `mostFreq` hold for every order. Wrap-around of a count at 2^32 occurrences
of one key is not modelled.) -/
def increment {κ : Type} [DecidableEq κ] (entries : Entries κ) (key : κ) : Entries κ :=
  match entries with
  | [] => [(key, 1)]
  | e :: es => if e.1 = key then (e.1, e.2 + 1) :: es else e :: increment es key

/-- A counter filled by counting the elements of a list one after the other. -/
def countAll {κ : Type} [DecidableEq κ] (xs : List κ) : Entries κ := xs.foldl increment []

/-- The iteration order of the hash tables in one run of the program: unspecified in C++ (any
rearrangement of the entries), so every theorem quantifies over it.  Model glue for
`std::unordered_map` as base class of the counters, `/repo/src/utils/Counter.h:34,104`. -/
structure HashOrder where
  order : (κ : Type) → Entries κ → Entries κ
  perm : ∀ κ entries, (order κ entries).Perm entries

/-- The idiom `if (counter.sumCounts() > 0) { x = counter.mostFreq(); }` with `dflt` the value of `x`
before, e.g. `/repo/src/utils/WordsDetectionUtils.cpp:87-92`. -/
def mostFreqOr {κ : Type} [DecidableEq κ] (h : HashOrder) (zero dflt : κ) (xs : List κ) :
    Outcome κ :=
  let entries := h.order κ (countAll xs)
  if sumCounts entries > 0 then mostFreq zero entries else .ok dflt

end Verif.Counter
