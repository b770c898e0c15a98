import Mathlib.Data.Nat.Notation
import Verif.Model.Text

/-!
# Model of the item label regexes, `/repo/src/Config.h:696-718`, and of `regex_search`

The patterns are kept as they are written in the program and are parsed by a model of the ECMAScript grammar of `std::regex`
(C++ library), restricted to the constructs that occur: `^` at the start, groups, alternatives, character classes, escapes and the
quantifiers `?`, `+`, `*` and `{m,n}`.  Texts are byte strings (`Char` is a byte); the classic locale is used, because the
program never changes the global locale.  Back references, look-ahead and negated classes are not modelled: a pattern that uses
them is rejected.
-/

namespace Verif.ItemLabel

open Verif.Text

/-- A compiled pattern; `set` is one character out of some ranges, with the flag `icase` of `/repo/src/Config.h:26`. -/
inductive Re where
  | eps
  | set (icase : Bool) (ranges : List (ℕ × ℕ))
  | seq (a b : Re)
  | alt (a b : Re)
  | star (a : Re)
deriving DecidableEq

/-- `std::tolower` in the classic locale (C++ library), used by `regex_traits::translate_nocase`. -/
def lowerCode (n : ℕ) : ℕ := if 65 ≤ n ∧ n ≤ 90 then n + 32 else n

/-- `std::toupper` in the classic locale (C++ library). -/
def upperCode (n : ℕ) : ℕ := if 97 ≤ n ∧ n ≤ 122 then n - 32 else n

/-- A character out of the ranges. -/
def inRanges (ranges : List (ℕ × ℕ)) (n : ℕ) : Bool := ranges.any fun r => decide (r.1 ≤ n ∧ n ≤ r.2)

/-- One character against a class; with `icase` either case may be in the class. -/
def setMatches (icase : Bool) (ranges : List (ℕ × ℕ)) (c : Char) : Bool :=
  inRanges ranges c.toNat ||
    (icase && (inRanges ranges (lowerCode c.toNat) || inRanges ranges (upperCode c.toNat)))

/-- The loop of `a*`: what may be left of the text; a round that consumes nothing ends the loop. -/
def starLoop (f : List Char → List (List Char)) : ℕ → List Char → List (List Char)
  | 0, s => [s]
  | n + 1, s => s :: ((f s).filter fun t => t.length < s.length).flatMap (starLoop f n)

/-- The possible ends of a match that starts at the beginning of the text: what is left of the text behind it. -/
def rests : Re → List Char → List (List Char)
  | .eps, s => [s]
  | .set _ _, [] => []
  | .set ic rs, c :: s => if setMatches ic rs c then [s] else []
  | .seq a b, s => (rests a s).flatMap (rests b)
  | .alt a b, s => rests a s ++ rests b s
  | .star a, s => starLoop (rests a) s.length s

/-- `regex_search` with a pattern that starts with `^` (C++ library), called at
`/repo/src/utils/TextBlocksDetectionUtils.cpp:614`. -/
def search (r : Re) (text : Str) : Bool := !(rests r text).isEmpty

/-! ### Parsing a pattern (the constructor of `std::regex`) -/

/-- `a?`. -/
def opt (a : Re) : Re := .alt a .eps

/-- `a{0,n}`. -/
def upTo (a : Re) : ℕ → Re
  | 0 => .eps
  | n + 1 => opt (.seq a (upTo a n))

/-- `a{m,n}`. -/
def between (a : Re) (n : ℕ) : ℕ → Re
  | 0 => upTo a n
  | m + 1 => .seq a (between a (n - 1) m)

/-- A decimal number at the start of the pattern. -/
def number (acc : ℕ) : List Char → ℕ × List Char
  | [] => (acc, [])
  | c :: s => if '0' ≤ c ∧ c ≤ '9' then number (10 * acc + (c.toNat - 48)) s else (acc, c :: s)

/-- A quantifier, if there is one. -/
def quantify (a : Re) : List Char → Option (Re × List Char)
  | '?' :: s => some (opt a, s)
  | '+' :: s => some (.seq a (.star a), s)
  | '*' :: s => some (.star a, s)
  | '{' :: s =>
    match number 0 s with
    | (m, ',' :: s') =>
      match number 0 s' with
      | (n, '}' :: s'') => some (between a n m, s'')
      | _ => none
    | _ => none
  | s => some (a, s)

/-- The content of a character class up to `]`. -/
def classItems : ℕ → List Char → Option (List (ℕ × ℕ) × List Char)
  | 0, _ => none
  | _ + 1, [] => none
  | _ + 1, ']' :: s => some ([], s)
  | fuel + 1, c :: '-' :: d :: s =>
    if d = ']' then none else (classItems fuel s).map fun r => ((c.toNat, d.toNat) :: r.1, r.2)
  | fuel + 1, c :: s => (classItems fuel s).map fun r => ((c.toNat, c.toNat) :: r.1, r.2)

/-- The characters with a meaning of their own. -/
def special (c : Char) : Bool := "^$\\.*+?()[]{}|".toList.contains c

/-- `\s`, `\S` and so on are not literal characters; `\s` is white space in the classic locale. -/
def escape (icase : Bool) (c : Char) : Option Re :=
  if c = 's' then some (.set false [(9, 13), (32, 32)])
  else if special c then some (.set icase [(c.toNat, c.toNat)])
  else none

mutual

/-- Alternatives separated by `|`. -/
def parseAlts (icase : Bool) : ℕ → List Char → Option (Re × List Char)
  | 0, _ => none
  | fuel + 1, s =>
    match parseSeq icase fuel s with
    | none => none
    | some (a, '|' :: s') =>
      match parseAlts icase fuel s' with
      | none => none
      | some (b, s'') => some (.alt a b, s'')
    | some (a, s') => some (a, s')

/-- A sequence of quantified atoms. -/
def parseSeq (icase : Bool) : ℕ → List Char → Option (Re × List Char)
  | 0, _ => none
  | _ + 1, [] => some (.eps, [])
  | fuel + 1, c :: s =>
    if c = '|' ∨ c = ')' then some (.eps, c :: s)
    else
      match parseAtom icase fuel (c :: s) with
      | none => none
      | some (a, s') =>
        match quantify a s' with
        | none => none
        | some (q, s'') =>
          match parseSeq icase fuel s'' with
          | none => none
          | some (b, s''') => some (.seq q b, s''')

/-- A group, a class, an escaped or a plain character. -/
def parseAtom (icase : Bool) : ℕ → List Char → Option (Re × List Char)
  | 0, _ => none
  | _ + 1, [] => none
  | fuel + 1, c :: s =>
    if c = '(' then
      match parseAlts icase fuel s with
      | some (a, ')' :: s') => some (a, s')
      | _ => none
    else if c = '[' then (classItems fuel s).map fun r => (.set icase r.1, r.2)
    else if c = '\\' then
      match s with
      | [] => none
      | e :: s' => (escape icase e).map fun a => (a, s')
    else if special c then none
    else some (.set icase [(c.toNat, c.toNat)], s)

end

/-- A pattern that starts with `^`; alternatives only in groups. -/
def parse (icase : Bool) : List Char → Option Re
  | '^' :: s =>
    match parseSeq icase (3 * s.length + 3) s with
    | some (a, []) => some a
    | _ => none
  | _ => none

/-! ### The patterns of the program -/

/-- `•` in UTF-8, `/repo/src/Config.h:701`. -/
def bullet : Str := [0xE2, 0x80, 0xA2].map Char.ofNat

/-- `–` in UTF-8, `/repo/src/Config.h:701`. -/
def enDash : Str := [0xE2, 0x80, 0x93].map Char.ofNat

/-- `itemLabelRegexes`, `/repo/src/Config.h:699-718`: the patterns with the flag `icase`. -/
def patterns : List (Bool × List Char) := [
  (false, "^(".toList ++ bullet ++ "|-|".toList ++ enDash ++ "|\\+)\\s+".toList),
  (true, "^(X{0,1}(IX|IV|V?I{0,3}))\\.\\s+".toList),
  (true, "^\\((X{0,1}(IX|IV|V?I{0,3}))\\)\\s+".toList),
  (false, "^([a-z])\\.\\s+".toList),
  (false, "^([0-9]+)\\.\\s+".toList),
  (true, "^(\\(|\\[)([a-z0-9][0-9]{0,2})(\\)|\\])\\s+".toList),
  (false, "^(\\[)([A-Z][a-zA-Z0-9]{0,5})(\\])\\s+".toList),
  (true, "^([a-z0-9][0-9]{0,1})\\)\\s+".toList),
  (true, "^PACS\\s+".toList)]

/-- The compiled patterns, `/repo/src/Config.h:699-718`. -/
def itemLabelRegexes : List (Option Re) := patterns.map fun p => parse p.1 p.2

/-- The loop over the regexes, `/repo/src/utils/TextBlocksDetectionUtils.cpp:610-618` (all patterns compile, see
`c73_patterns_compile`; the constructor throws otherwise). -/
def matchesItemRegex (text : Str) : Bool :=
  itemLabelRegexes.any fun r =>
    match r with
    | some r => search r text
    | none => false

end Verif.ItemLabel
