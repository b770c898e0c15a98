import Verif.Model.Outcome
import Verif.Model.Math

/-!
# Type 1 font files: `/repo/src/utils/PdfFontInfoParser.cpp`

Bytes are natural numbers below 256, C++ `int`s are mathematical integers whose every arithmetic
operation is checked to stay within 32 bits (leaving the range is undefined behaviour).  The text
search with `find` and `std::regex` that cuts a decrypted font into charstrings
(`PdfFontInfoParser.cpp:385-469`) is modelled in `Verif.Model.GlyphTable`; here are the decryption, the reading of the encrypted
part and the charstring interpreter.
-/

namespace Verif.Type1

open Verif

/-- `numeric_limits<int>::max()`.  Used in `/repo/src/utils/PdfFontInfoParser.cpp:458-459`. -/
def intMax : ℤ := 2147483647

/-- `numeric_limits<int>::min()`.  Used in `/repo/src/utils/PdfFontInfoParser.cpp:460-461`. -/
def intMin : ℤ := -2147483648

/-- The integer is representable as a 32-bit `int`. Model glue for every `int` of
`/repo/src/utils/PdfFontInfoParser.cpp`. -/
def inInt (v : ℤ) : Bool := decide (intMin ≤ v) && decide (v ≤ intMax)

/-- The `int` result of an arithmetic operation: undefined behaviour if it does not fit.
Model glue for every `+` and `*` on `int` in `/repo/src/utils/PdfFontInfoParser.cpp`. -/
def chk (v : ℤ) : Outcome ℤ := if inInt v then .ok v else .ub "signed integer overflow"

/-! ## Decryption -/

/-- `c1` of `/repo/src/utils/PdfFontInfoParser.cpp:853`. -/
def c1 : ℕ := 52845

/-- `c2` of `/repo/src/utils/PdfFontInfoParser.cpp:854`. -/
def c2 : ℕ := 22719

/-- How the machine treats `int` overflow in `decrypt`: `wrap` is what common compilers produce
(two's complement), `strict` is the C++ standard (undefined behaviour).
Model parameter for `/repo/src/utils/PdfFontInfoParser.cpp:864`. -/
inductive IntMode where
  | wrap
  | strict
deriving Repr, DecidableEq

/-- The new key `((cipher + r) * c1 + c2) & 0xffff`.  In `wrap` mode the masking makes two's
complement wrap-around invisible, so the exact natural number is reduced.
Models `/repo/src/utils/PdfFontInfoParser.cpp:864`. -/
def nextKey (mode : IntMode) (r cipher : ℕ) : Outcome ℕ :=
  match mode with
  | .wrap => .ok (((cipher + r) * c1 + c2) % 65536)
  | .strict =>
    if ((cipher + r) * c1 + c2 : ℕ) ≤ 2147483647 then .ok (((cipher + r) * c1 + c2) % 65536)
    else .ub "signed integer overflow"

/-- `bytes[i]` for a pointer to `bytes.length` characters followed by a terminating zero, as
`c_str()` returns it: index `length` reads the terminator, a larger index is out of bounds.
Models `/repo/src/utils/PdfFontInfoParser.cpp:424,456,857`. -/
def rd (bytes : List ℕ) (i : ℕ) : Outcome ℕ :=
  if i < bytes.length then .ok (bytes.getD i 0)
  else if i = bytes.length then .ok 0
  else .ub "read outside of the string"

/-- The loop of `Type1FontFileParser::decrypt` from index `i` on, with `fuel` iterations left; the
result is the text appended to `resultStr`.
Models `/repo/src/utils/PdfFontInfoParser.cpp:856-865`. -/
def decryptFrom (mode : IntMode) (bytes : List ℕ) (n : ℕ) : ℕ → ℕ → ℕ → Outcome (List ℕ)
  | 0, _, _ => .ok []
  | fuel + 1, i, r =>
    (rd bytes i).bind fun b =>
      let cipher := b % 256
      let plain := cipher ^^^ (r / 256)
      (nextKey mode r cipher).bind fun r' =>
        (decryptFrom mode bytes n fuel (i + 1) r').bind fun rest =>
          .ok (if n ≤ i then plain % 256 :: rest else rest)

/-- `Type1FontFileParser::decrypt`.  Models `/repo/src/utils/PdfFontInfoParser.cpp:851-866`. -/
def decrypt (mode : IntMode) (bytes : List ℕ) (numBytes r n : ℕ) : Outcome (List ℕ) :=
  decryptFrom mode bytes n numBytes 0 r

/-! ## Reading the encrypted part -/

/-- `_charToHex[c]`: `operator[]` inserts 0 for a missing key; only lower-case digits are there.
Models `/repo/src/utils/PdfFontInfoParser.h:123-125`. -/
def charToHex (c : ℕ) : ℕ :=
  if 48 ≤ c ∧ c ≤ 57 then c - 48 else if 97 ≤ c ∧ c ≤ 102 then c - 87 else 0

/-- `_hexToChar[v]` for `0 ≤ v ≤ 15`.  Models `/repo/src/utils/PdfFontInfoParser.h:128-130`. -/
def hexToChar (v : ℕ) : ℕ := if v < 10 then 48 + v else 87 + v

/-- `16 * _charToHex[_hexToChar[(c >> 4) & 0x0f]] + _charToHex[_hexToChar[c & 0x0f]]`.
Models `/repo/src/utils/PdfFontInfoParser.cpp:346-348,357-359`. -/
def viaHex (c : ℕ) : ℕ :=
  16 * charToHex (hexToChar (c / 16 % 16)) + charToHex (hexToChar (c % 16))

/-- The test whether a character is a hexadecimal digit.
Models `/repo/src/utils/PdfFontInfoParser.cpp:328-330`. -/
def isHexDigit (c : ℕ) : Bool :=
  (decide (48 ≤ c) && decide (c ≤ 57)) || (decide (65 ≤ c) && decide (c ≤ 70)) ||
    (decide (97 ≤ c) && decide (c ≤ 102))

/-- What `bytes[b] = v` does to a buffer of `cap` bytes: writing outside is undefined behaviour.
The buffer is kept as the list of the written (index, value) pairs, latest first.
Models `/repo/src/utils/PdfFontInfoParser.cpp:348,359,364,376`. -/
def put (cap : ℤ) (buf : List (ℕ × ℕ)) (i v : ℕ) : Outcome (List (ℕ × ℕ)) :=
  if (i : ℤ) < cap then .ok ((i, v) :: buf) else .ub "write outside of the buffer"

/-- The value of `bytes[i]`; a never written cell of `new char[]` is indeterminate (reading it is
undefined behaviour).  Models `/repo/src/utils/PdfFontInfoParser.cpp:336,857`. -/
def cell (buf : List (ℕ × ℕ)) (i : ℕ) : Option ℕ := (buf.find? (fun p => p.1 == i)).map (·.2)

/-- The loop `for (i = b; i < length; i++)` of the binary branch over the stream `s`; `i` and `b`
coincide and `k` iterations remain.  Returns the buffer and the final `b`.
Models `/repo/src/utils/PdfFontInfoParser.cpp:353-361`. -/
def binaryLoop (cap : ℤ) : ℕ → ℕ → List ℕ → List (ℕ × ℕ) → Outcome (List (ℕ × ℕ) × ℕ)
  | 0, b, _, buf => .ok (buf, b)
  | _ + 1, b, [], buf => .ok (buf, b)
  | k + 1, b, c :: s, buf => (put cap buf b (viaHex c)).bind fun buf' => binaryLoop cap k (b + 1) s buf'

/-- The loop `for (i = 4; i < length; i += 2)` of the hexadecimal branch: note that it writes to
`bytes[i]`, not `bytes[b]`.  `char c1 = streamGetChar()` compares equal to `EOF` also for the byte
0xff (signed `char`).  Models `/repo/src/utils/PdfFontInfoParser.cpp:367-378`. -/
def hexLoop (cap length : ℤ) : ℕ → ℕ → ℕ → List ℕ → List (ℕ × ℕ) → Outcome (List (ℕ × ℕ) × ℕ)
  | 0, _, b, _, buf => .ok (buf, b)
  | k + 1, i, b, s, buf =>
    if (i : ℤ) < length then
      match s with
      | x :: y :: s' =>
        if x = 255 ∨ y = 255 then .ok (buf, b)
        else (put cap buf i ((16 * charToHex x + charToHex y) % 256)).bind fun buf' =>
          hexLoop cap length k (i + 2) (b + 1) s' buf'
      | _ => .ok (buf, b)
    else .ok (buf, b)

/-- `parseEncryptedPart` up to the call of `decrypt`: the buffer and the number `b` of bytes handed
to `decrypt`; `none` is the early return for a stream of fewer than four bytes.
`new char[numBytes]` with a negative size throws.
Models `/repo/src/utils/PdfFontInfoParser.cpp:314-382`. -/
def readEncrypted (length : ℤ) (s : List ℕ) : Outcome (Option (List (ℕ × ℕ) × ℕ)) :=
  match s with
  | a :: b :: c :: d :: s' =>
    let isPfb := !([a, b, c, d].all isHexDigit)
    let cap := if isPfb then length else length / 2
    if cap < 0 then .throw "bad_array_new_length"
    else if isPfb then
      if a = 128 ∧ b = 2 then
        -- `EOF` is -1: a missing byte sets all higher bits, the length is then negative
        match s' with
        | e :: f :: s'' =>
          let len : ℤ := Int.bmod (c + 256 * d + 65536 * e + 16777216 * f) 4294967296
          (binaryLoop cap len.toNat 0 s'' []).bind fun r => .ok (some r)
        | _ => .ok (some ([], 0))
      else
        (put cap [] 0 (viaHex a)).bind fun b1 =>
        (put cap b1 1 (viaHex b)).bind fun b2 =>
        (put cap b2 2 (viaHex c)).bind fun b3 =>
        (put cap b3 3 (viaHex d)).bind fun b4 =>
        (binaryLoop cap (length.toNat - 4) 4 s' b4).bind fun r => .ok (some r)
    else
      (put cap [] 0 ((16 * charToHex a + charToHex b) % 256)).bind fun b1 =>
      (put cap b1 2 ((16 * charToHex c + charToHex d) % 256)).bind fun b2 =>
      (hexLoop cap length s'.length 4 2 s' b2).bind fun r => .ok (some r)
  | _ => .ok none

/-! ## The charstring interpreter -/

/-- The variables `parseCharString` works on by pointer: the pen `curX`, `curY`, the glyph box, the
argument stack `args` and the `interpreterStack` (the head of a list is `back()` of the vector).
Models `/repo/src/utils/PdfFontInfoParser.cpp:458-465`. -/
structure St where
  curX : ℤ
  curY : ℤ
  leftX : ℤ
  upperY : ℤ
  rightX : ℤ
  lowerY : ℤ
  args : List ℤ
  interp : List ℤ
deriving Repr, DecidableEq

/-- The initial values of the variables.
Models `/repo/src/utils/PdfFontInfoParser.cpp:458-465`. -/
def St.init : St where
  curX := 0
  curY := 0
  leftX := intMax
  upperY := intMax
  rightX := intMin
  lowerY := intMin
  args := []
  interp := []

/-- A table of subroutines (`unordered_map<int, string>`), the first entry of an index counts (the
map is built with `subrsMap[index] = …`, so a list built by consing has the same meaning).
Models `/repo/src/utils/PdfFontInfoParser.cpp:415-427`. -/
abbrev Subrs := List (ℤ × List ℕ)

/-- `subrs.count(index)` / `subrs.at(index)`.
Models `/repo/src/utils/PdfFontInfoParser.cpp:589-594`. -/
def Subrs.at? (subrs : Subrs) (i : ℤ) : Option (List ℕ) :=
  (subrs.find? (fun p => p.1 == i)).map (·.2)

/-- `*leftX = minimum(*leftX, *curX); *rightX = maximum(*rightX, *curX);` for the coordinate `x`.
`minimum` and `maximum` work on `double`, which represents every `int` exactly.
Models `/repo/src/utils/PdfFontInfoParser.cpp:528-529` and its repetitions. -/
def St.growX (s : St) (x : ℤ) : St :=
  { s with leftX := min s.leftX x, rightX := max s.rightX x }

/-- `*upperY = minimum(*upperY, *curY); *lowerY = maximum(*lowerY, *curY);`.
Models `/repo/src/utils/PdfFontInfoParser.cpp:530-531` and its repetitions. -/
def St.growY (s : St) (y : ℤ) : St :=
  { s with upperY := min s.upperY y, lowerY := max s.lowerY y }

/-- Setting the pen to an absolute position and extending the box by it.
Models `/repo/src/utils/PdfFontInfoParser.cpp:642-647,720-725,738-743`. -/
def St.jump (s : St) (x y : ℤ) : St :=
  ({ s with curX := x, curY := y }.growX x).growY y

/-- A relative move or line by `(dx, dy)`.
Models `/repo/src/utils/PdfFontInfoParser.cpp:526-531,753-758`. -/
def St.moveBy (s : St) (dx dy : ℤ) : Outcome St :=
  (chk (s.curX + dx)).bind fun x =>
  (chk (s.curY + dy)).bind fun y => .ok (s.jump x y)

/-- A horizontal move or line.
Models `/repo/src/utils/PdfFontInfoParser.cpp:539-541,766-768`. -/
def St.moveX (s : St) (dx : ℤ) : Outcome St :=
  (chk (s.curX + dx)).bind fun x => .ok ({ s with curX := x }.growX x)

/-- A vertical move or line.
Models `/repo/src/utils/PdfFontInfoParser.cpp:514-516,549-551`. -/
def St.moveY (s : St) (dy : ℤ) : Outcome St :=
  (chk (s.curY + dy)).bind fun y => .ok ({ s with curY := y }.growY y)

/-- A curve with the control point differences `d1`, `d2`, `d3`; `minimum(*leftX, x1, x2, x3)`
etc.  Models `/repo/src/utils/PdfFontInfoParser.cpp:569-581,782-794,808-820`. -/
def St.curve (s : St) (dx1 dy1 dx2 dy2 dx3 dy3 : ℤ) : Outcome St :=
  (chk (s.curX + dx1)).bind fun x1 =>
  (chk (s.curY + dy1)).bind fun y1 =>
  (chk (x1 + dx2)).bind fun x2 =>
  (chk (y1 + dy2)).bind fun y2 =>
  (chk (x2 + dx3)).bind fun x3 =>
  (chk (y2 + dy3)).bind fun y3 =>
    .ok { s with
      curX := x3
      curY := y3
      leftX := min (min (min s.leftX x1) x2) x3
      rightX := max (max (max s.rightX x1) x2) x3
      upperY := min (min (min s.upperY y1) y2) y3
      lowerY := max (max (max s.lowerY y1) y2) y3 }

/-- `args->pop_back()` `k` times after `if (args->size() >= k)`.
Models `/repo/src/utils/PdfFontInfoParser.cpp:483-507,604-631`. -/
def St.drop (s : St) (k : ℕ) : St :=
  if k ≤ s.args.length then { s with args := s.args.drop k } else s

/-- The operators below 32 other than `callsubr` (10) and `escape` (12).
Models `/repo/src/utils/PdfFontInfoParser.cpp:481-583,731-827`. -/
def op (b : ℕ) (s : St) : Outcome St :=
  match b, s.args with
  | 1, _ => .ok (s.drop 2)
  | 3, _ => .ok (s.drop 2)
  | 4, dy :: as => St.moveY { s with args := as } dy
  | 5, dy :: dx :: as => St.moveBy { s with args := as } dx dy
  | 6, dx :: as => St.moveX { s with args := as } dx
  | 7, dy :: as => St.moveY { s with args := as } dy
  | 8, dy3 :: dx3 :: dy2 :: dx2 :: dy1 :: dx1 :: as =>
    St.curve { s with args := as } dx1 dy1 dx2 dy2 dx3 dy3
  | 13, _ :: sbx :: as => .ok (St.jump { s with args := as } sbx 0)
  | 21, dy :: dx :: as => St.moveBy { s with args := as } dx dy
  | 22, dx :: as => St.moveX { s with args := as } dx
  | 30, dx3 :: dy2 :: dx2 :: dy1 :: as => St.curve { s with args := as } 0 dy1 dx2 dy2 dx3 0
  | 31, dy3 :: dy2 :: dx2 :: dx1 :: as => St.curve { s with args := as } dx1 0 dx2 dy2 0 dy3
  | _, _ => .ok s

/-- `for (i = 0; i < numArgs; i++)`: move an argument to the interpreter stack, without a check
that there is one.  Models `/repo/src/utils/PdfFontInfoParser.cpp:695-699`. -/
def moveArgs : ℕ → List ℤ → List ℤ → Outcome (List ℤ × List ℤ)
  | 0, args, interp => .ok (args, interp)
  | _ + 1, [], _ => .ub "back() of an empty vector"
  | k + 1, a :: args, interp => moveArgs k args (a :: interp)

/-- `callothersubr` with the arguments `othersubr` and `numArgs` already popped.
Models `/repo/src/utils/PdfFontInfoParser.cpp:662-703` (case 0 falls through into the `break` of
case 1). -/
def otherSubr (othersubr numArgs : ℤ) (s : St) : Outcome St :=
  if othersubr = 0 then
    match s.args with
    | n1 :: n2 :: _ :: as => .ok { s with args := as, interp := [n2, n1] }
    | _ => .ub "back() of an empty vector"
  else if othersubr = 1 then .ok { s with interp := [] }
  else if othersubr = 3 then
    match s.args with
    | n1 :: as => .ok { s with args := as, interp := [n1] }
    | _ => .ub "back() of an empty vector"
  else
    (moveArgs numArgs.toNat s.args []).bind fun r => .ok { s with args := r.1, interp := r.2 }

/-- The two-byte operators `12 b`.
Models `/repo/src/utils/PdfFontInfoParser.cpp:597-730`. -/
def escape (b : ℕ) (s : St) : Outcome St :=
  match b, s.args with
  | 1, _ => .ok (s.drop 6)
  | 2, _ => .ok (s.drop 6)
  | 6, _ => .ok (s.drop 5)
  | 7, _ :: _ :: sby :: sbx :: as => .ok (St.jump { s with args := as } sbx sby)
  | 12, num2 :: num1 :: as =>
    if num2 = 0 then .ub "division by zero"
    else (chk (Int.tdiv num1 num2)).bind fun r => .ok { s with args := r :: as }
  | 16, othersubr :: numArgs :: as => otherSubr othersubr numArgs { s with args := as }
  | 17, as =>
    match s.interp with
    | [] => .ok s
    | v :: is => .ok { s with args := v :: as, interp := is }
  | 33, y :: x :: as => .ok (St.jump { s with args := as } x y)
  | _, _ => .ok s

/-- A configuration of the interpreter: the activation records (charstring and index `t`) of the
nested calls of `parseCharString`, innermost first, and the shared variables.
Models the recursion of `/repo/src/utils/PdfFontInfoParser.cpp:473-596`. -/
structure Cfg where
  frames : List (List ℕ × ℕ)
  st : St
deriving Repr, DecidableEq

/-- Pushing a number.  Models `args->push_back(…)` of
`/repo/src/utils/PdfFontInfoParser.cpp:829-844`. -/
def St.push (s : St) (v : ℤ) : St := { s with args := v :: s.args }

/-- One iteration of the `for` loop of the innermost call (or its return).  A configuration without
activation records is final and stays as it is.  `b1 << 24 | b2 << 16 | b3 << 8 | b4` is the 32-bit
two's complement value (C++20).
Models `/repo/src/utils/PdfFontInfoParser.cpp:473-847`. -/
def step (subrs : Subrs) (c : Cfg) : Outcome Cfg :=
  match c.frames with
  | [] => .ok c
  | (cs, t) :: rest =>
    if cs.length ≤ t then .ok { c with frames := rest }
    else
      let b := cs.getD t 0
      if b < 32 then
        if b = 10 then
          match c.st.args with
          | [] => .ok { c with frames := (cs, t + 1) :: rest }
          | i :: as =>
            match subrs.at? i with
            | none => .ok ⟨(cs, t + 1) :: rest, { c.st with args := as }⟩
            | some sub => .ok ⟨(sub, 0) :: (cs, t + 1) :: rest, { c.st with args := as }⟩
        else if b = 12 then
          (rd cs (t + 1)).bind fun b2 =>
          (escape b2 c.st).bind fun s => .ok ⟨(cs, t + 2) :: rest, s⟩
        else (op b c.st).bind fun s => .ok ⟨(cs, t + 1) :: rest, s⟩
      else if b ≤ 246 then .ok ⟨(cs, t + 1) :: rest, c.st.push ((b : ℤ) - 139)⟩
      else if b ≤ 250 then
        (rd cs (t + 1)).bind fun w =>
          .ok ⟨(cs, t + 2) :: rest, c.st.push (((b : ℤ) - 247) * 256 + w + 108)⟩
      else if b ≤ 254 then
        (rd cs (t + 1)).bind fun w =>
          .ok ⟨(cs, t + 2) :: rest, c.st.push (-((b : ℤ) - 251) * 256 - w - 108)⟩
      else
        (rd cs (t + 1)).bind fun b1 =>
        (rd cs (t + 2)).bind fun b2 =>
        (rd cs (t + 3)).bind fun b3 =>
        (rd cs (t + 4)).bind fun b4 =>
          .ok ⟨(cs, t + 5) :: rest, c.st.push
            (Int.bmod (16777216 * b1 + 65536 * b2 + 256 * b3 + b4) 4294967296)⟩

/-- `n` iterations. Models the execution of `/repo/src/utils/PdfFontInfoParser.cpp:473-847`. -/
def runN (subrs : Subrs) : ℕ → Cfg → Outcome Cfg
  | 0, c => .ok c
  | n + 1, c => (step subrs c).bind (runN subrs n)

/-- The call of `parseCharString` for a glyph.
Models `/repo/src/utils/PdfFontInfoParser.cpp:458-467`. -/
def start (cs : List ℕ) : Cfg := ⟨[(cs, 0)], St.init⟩

end Verif.Type1
