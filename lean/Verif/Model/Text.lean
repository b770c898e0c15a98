import Verif.Model.Outcome

/-!
# Model of `/repo/src/utils/TextUtils.cpp`

A `std::string` is a list of bytes; a byte is modelled by the `Char` with the same code (code below
256), a `wchar_t` by a `Char`.  Lengths are assumed to be below `2^32 - 1` where the code truncates
`size_t` to `unsigned int` (`npos` then still differs from every valid index).
-/

namespace Verif.Text

/-- A byte string (`std::string`). Model glue. -/
abbrev Str := List Char

/-- `std::string::find_first_of(set, pos)` (C++ library), used at
`/repo/src/utils/TextUtils.cpp:43,60`. -/
def findFirstOf {α : Type} (p : α → Bool) (text : List α) (pos : Nat) : Option Nat :=
  ((text.drop pos).findIdx? p).map (· + pos)

theorem findFirstOf_bounds {α : Type} {p : α → Bool} {text : List α} {pos i : Nat}
    (h : findFirstOf p text pos = some i) : pos ≤ i ∧ i < text.length := by
  unfold findFirstOf at h
  cases hf : (text.drop pos).findIdx? p with
  | none => rw [hf] at h; cases h
  | some j =>
    rw [hf] at h
    have hj : j + pos = i := by simpa using h
    have := List.findIdx?_eq_some_iff_findIdx_eq.mp hf
    simp at this
    omega

/-- The loop of `splitIntoWords`, `/repo/src/utils/TextUtils.cpp:41-47, 58-64`; `start` is the
start of the next word. -/
def splitLoop {α : Type} (isDelim : α → Bool) (text : List α) (start : Option Nat) :
    List (List α) :=
  match hs : start with
  | none => []
  | some s =>
    if hlt : s < text.length then
      let stop := (findFirstOf isDelim text s).getD text.length
      let word := (text.drop s).take (stop - s)
      let next := findFirstOf (fun c => !isDelim c) text (stop + 1)
      word :: splitLoop isDelim text next
    else []
termination_by match start with | none => 0 | some s => text.length + 1 - s
decreasing_by
  cases hn : findFirstOf (fun c => !isDelim c) text
      ((findFirstOf isDelim text s).getD text.length + 1) with
  | none => simp; omega
  | some n =>
    obtain ⟨h1, h2⟩ := findFirstOf_bounds hn
    have hs' : s ≤ (findFirstOf isDelim text s).getD text.length := by
      cases hf : findFirstOf isDelim text s with
      | none => simp; omega
      | some st => simp; exact (findFirstOf_bounds hf).1
    simp; omega

/-- `splitIntoWords`, `/repo/src/utils/TextUtils.cpp:33-48` (`wstring`) and `51-65` (`string`).  The
delimiters are given by a membership test (`find_first_of` tests membership in the delimiter
string). -/
def splitIntoWords {α : Type} (isDelim : α → Bool) (text : List α) : List (List α) :=
  splitLoop isDelim text (findFirstOf (fun c => !isDelim c) text 0)

/-- `SENTENCE_DELIMITERS_ALPHABET`, `/repo/src/Config.h:52`. -/
def sentenceDelimiters : Str := ['?', '!', '.', ')', ';']

/-- `WORD_DELIMITERS_ALPHABET`, `/repo/src/Config.h:49`: `" \t\r\n\f\v"`. -/
def wordDelimiters : Str := [' ', '\t', '\r', '\n', Char.ofNat 12, Char.ofNat 11]

/-- `endsWithSentenceDelimiter`, `/repo/src/utils/TextUtils.cpp:68-78`. -/
def endsWithSentenceDelimiter (text : Str) (delims : Str := sentenceDelimiters) : Bool :=
  match text.getLast? with
  | none => false
  | some c => delims.contains c

/-- `isupper` of `<cctype>` in the C locale. -/
def isUpperC (c : Char) : Bool := 65 ≤ c.toNat && c.toNat ≤ 90

/-- `startsWithUpper`, `/repo/src/utils/TextUtils.cpp:81-83`. -/
def startsWithUpper (s : Str) : Bool :=
  match s with
  | [] => false
  | c :: _ => isUpperC c

/-- `createRandomString`, `/repo/src/utils/TextUtils.cpp:87-99`.  `rand i` is the result of the
`i`-th call of `rand()`.  For a one-letter alphabet `rand() % 0` is undefined behaviour; for the
empty alphabet (`rand() % -1 = 0`) the terminating NUL is read. -/
def createRandomString (rand : Nat → Nat) (len : Nat) (pre : Str) (alphabet : Str) :
    Outcome Str :=
  if alphabet.length = 1 ∧ 0 < len then .ub "rand() % 0"
  else
    .ok (pre ++ (List.range len).map fun i =>
      alphabet.getD (rand i % (alphabet.length - 1)) (Char.ofNat 0))

/-- `ALPHA_NUM`, `/repo/src/Config.h:46`. -/
def alphaNum : Str :=
  ['0','1','2','3','4','5','6','7','8','9',
   'A','B','C','D','E','F','G','H','I','J','K','L','M','N','O','P','Q','R','S','T','U','V','W','X',
   'Y','Z','a','b','c','d','e','f','g','h','i','j','k','l','m','n','o','p','q','r','s','t','u','v',
   'w','x','y','z']

/-- A lower-case hexadecimal digit, as printed by `std::hex`. -/
def hexDigit (n : Nat) : Char :=
  if n < 10 then Char.ofNat (48 + n) else Char.ofNat (87 + n)

/-- The body of the loop of `escapeJson`, `/repo/src/utils/TextUtils.cpp:105-134`, for one
character. `hex << setw(4) << setfill('0')` prints four digits for a code below 32. -/
def escapeChar (c : Char) : Str :=
  if c = '"' then ['\\', '"']
  else if c = '\\' then ['\\', '\\']
  else if c = Char.ofNat 8 then ['\\', 'b']
  else if c = Char.ofNat 12 then ['\\', 'f']
  else if c = '\n' then ['\\', 'n']
  else if c = '\r' then ['\\', 'r']
  else if c = '\t' then ['\\', 't']
  else if c.toNat ≤ 31 then
    ['\\', 'u', '0', '0', hexDigit (c.toNat / 16), hexDigit (c.toNat % 16)]
  else [c]

/-- `escapeJson`, `/repo/src/utils/TextUtils.cpp:102-137`. -/
def escapeJson (s : Str) : Str := s.flatMap escapeChar

/-- `shorten`, `/repo/src/utils/TextUtils.cpp:140-146`. -/
def shorten (s : Str) (len : Nat := 40) : Str :=
  if s.length ≤ len then s else s.take len ++ ['.', '.', '.']

/-- `isspace` of `<cctype>` in the C locale.  (The code passes a possibly negative `char`, which is
undefined for bytes above 127 by the C standard; the common libraries return false.) -/
def isSpaceC (c : Char) : Bool := c.toNat == 32 || (9 ≤ c.toNat && c.toNat ≤ 13)

/-- `strip`, `/repo/src/utils/TextUtils.cpp:149-157`: both iterators walk over whitespace without
checking for the end of the string; dereferencing the end iterator is undefined behaviour. -/
def strip (s : Str) : Outcome Str :=
  match s.findIdx? (fun c => !isSpaceC c) with
  | none => .ub "dereference of end()"
  | some i =>
    match s.reverse.findIdx? (fun c => !isSpaceC c) with
    | none => .ub "dereference of rend()"
    | some j => .ok ((s.take (s.length - j)).drop i)

/-- `std::string::rfind(c, pos)` (C++ library), used at `/repo/src/utils/TextUtils.cpp:168,178`: the
last index at most `pos` holding `c`. -/
def rfind (c : Char) (s : Str) (pos : Nat) : Option Nat :=
  (List.range (min (pos + 1) s.length)).reverse.find? fun i => s[i]? == some c

theorem rfind_lt {c : Char} {s : Str} {pos i : Nat} (h : rfind c s pos = some i) :
    i < s.length ∧ i ≤ pos ∧ s[i]? = some c := by
  unfold rfind at h
  have h1 := List.mem_of_find?_eq_some h
  have h2 := List.find?_some h
  simp at h1 h2
  exact ⟨by omega, by omega, h2⟩

/-- `lineStart + width - indent` in `unsigned int` arithmetic,
`/repo/src/utils/TextUtils.cpp:168,178`. -/
def wrapLimit (lineStart width indent : Nat) : Nat := (lineStart + width + (2 ^ 32 - indent)) % 2 ^ 32

/-- The indent, `/repo/src/utils/TextUtils.cpp:170,187,193`. -/
def spaces (indent : Nat) : Str := List.replicate indent ' '

/-- The loop of `wrap`, `/repo/src/utils/TextUtils.cpp:166-196`, from `lineStart` on.  The first test
looks for an explicit newline (168-175), the second for a blank (178-190); `break` leads to
lines 193-194, which append the rest of the string. -/
def wrapLoop (s : Str) (width indent lineStart : Nat) : Str :=
  match _hn : (rfind '\n' s (wrapLimit lineStart width indent)).filter (lineStart ≤ ·) with
  | some lineEnd =>
    spaces indent ++ (s.drop lineStart).take (lineEnd - lineStart) ++ ['\n'] ++
      wrapLoop s width indent (lineEnd + 1)
  | none =>
    match _hb : (rfind ' ' s (wrapLimit lineStart width indent)).filter (lineStart ≤ ·) with
    | some lineEnd =>
      if (lineEnd - lineStart) + (s.length - lineEnd) ≤ width then
        spaces indent ++ s.drop lineStart
      else
        spaces indent ++ (s.drop lineStart).take (lineEnd - lineStart) ++ ['\n'] ++
          wrapLoop s width indent (lineEnd + 1)
    | none => spaces indent ++ s.drop lineStart
termination_by s.length - lineStart
decreasing_by
  all_goals
    first
    | (obtain ⟨h1, h2⟩ := Option.filter_eq_some_iff.mp _hn
       have := rfind_lt h1
       simp at h2
       omega)
    | (obtain ⟨h1, h2⟩ := Option.filter_eq_some_iff.mp _hb
       have := rfind_lt h1
       simp at h2
       omega)

/-- `wrap`, `/repo/src/utils/TextUtils.cpp:160-197`. -/
def wrap (s : Str) (width indent : Nat) : Str := wrapLoop s width indent 0

/-- The loop of `join`, `/repo/src/utils/TextUtils.cpp:202-207`; `acc` is `resultStr`. -/
def joinLoop (sep : Str) (acc : Str) : List Str → Str
  | [] => acc
  | s :: ss => joinLoop sep ((if 0 < acc.length then acc ++ sep else acc) ++ s) ss

/-- `join`, `/repo/src/utils/TextUtils.cpp:200-209`. -/
def join (strings : List Str) (sep : Str) : Str := joinLoop sep [] strings

end Verif.Text
