import Verif.Model.Math

/-!
# Specification of the Type 1 font format

Written from the "Adobe Type 1 Font Format" book (chapters 6 and 7), independently of the model.
-/

namespace Verif.Spec.Type1

/-- The Adobe Type 1 cipher: each plain byte is xor-ed with the high byte of the 16-bit key, the
key is updated from the *cipher* byte. -/
def encrypt : ℕ → List ℕ → List ℕ
  | _, [] => []
  | r, p :: ps =>
    let c := p ^^^ (r / 256)
    c :: encrypt (((c + r) * 52845 + 22719) % 65536) ps

/-- The codes of the hexadecimal digits. -/
def hexDigits : List ℕ := "0123456789ABCDEFabcdef".toList.map Char.toNat

/-- A 32-bit integer. -/
def IsInt32 (v : ℤ) : Prop := -2147483648 ≤ v ∧ v ≤ 2147483647

/-- `NumEnc v bs`: `bs` is one of the encodings of the integer `v` in a charstring: one byte for
`-107..107`, two bytes up to `±1131`, five bytes for any 32-bit integer. -/
inductive NumEnc : ℤ → List ℕ → Prop where
  /-- one byte `v + 139` -/
  | one (v : ℤ) (h1 : -107 ≤ v) (h2 : v ≤ 107) : NumEnc v [(v + 139).toNat]
  /-- two bytes for a positive number -/
  | pos (v : ℤ) (h1 : 108 ≤ v) (h2 : v ≤ 1131) :
      NumEnc v [(247 + (v - 108) / 256).toNat, ((v - 108) % 256).toNat]
  /-- two bytes for a negative number -/
  | neg (v : ℤ) (h1 : -1131 ≤ v) (h2 : v ≤ -108) :
      NumEnc v [(251 + (-v - 108) / 256).toNat, ((-v - 108) % 256).toNat]
  /-- 255 and the four bytes of the two's complement, most significant byte first -/
  | long (v : ℤ) (h : IsInt32 v) :
      NumEnc v [255, (v / 16777216 % 256).toNat, (v / 65536 % 256).toNat,
        (v / 256 % 256).toNat, (v % 256).toNat]

/-- The tokens of a charstring. -/
inductive Tok where
  | num (v : ℤ)
  | hstem | vstem | vmoveto | rlineto | hlineto | vlineto | rrcurveto | closepath
  | callsubr | ret | hsbw | endchar | rmoveto | hmoveto | vhcurveto | hvcurveto
  | dotsection | vstem3 | hstem3 | seac | sbw | div | callothersubr | pop | setcurrentpoint
deriving Repr, DecidableEq

/-- The command codes of the Type 1 book (appendix 2). -/
def code : Tok → List ℕ
  | .num _ => []
  | .hstem => [1] | .vstem => [3] | .vmoveto => [4] | .rlineto => [5] | .hlineto => [6]
  | .vlineto => [7] | .rrcurveto => [8] | .closepath => [9] | .callsubr => [10] | .ret => [11]
  | .hsbw => [13] | .endchar => [14] | .rmoveto => [21] | .hmoveto => [22]
  | .vhcurveto => [30] | .hvcurveto => [31]
  | .dotsection => [12, 0] | .vstem3 => [12, 1] | .hstem3 => [12, 2] | .seac => [12, 6]
  | .sbw => [12, 7] | .div => [12, 12] | .callothersubr => [12, 16] | .pop => [12, 17]
  | .setcurrentpoint => [12, 33]

/-- `Encodes toks bs`: the bytes `bs` are an encoding of the token sequence. -/
inductive Encodes : List Tok → List ℕ → Prop where
  | nil : Encodes [] []
  | num (v : ℤ) (bs : List ℕ) (toks : List Tok) (rest : List ℕ) :
      NumEnc v bs → Encodes toks rest → Encodes (.num v :: toks) (bs ++ rest)
  | cmd (t : Tok) (toks : List Tok) (rest : List ℕ) :
      (∀ v, t ≠ .num v) → Encodes toks rest → Encodes (t :: toks) (code t ++ rest)

/-- A piece of the outline. `set` is an absolute pen position (the side bearing point). -/
inductive Seg where
  | set (x y : ℤ)
  | move (x y : ℤ)
  | line (x0 y0 x1 y1 : ℤ)
  | curve (x0 y0 x1 y1 x2 y2 x3 y3 : ℤ)
deriving Repr, DecidableEq

/-- The points defining a piece of the outline. -/
def Seg.pts : Seg → List (ℤ × ℤ)
  | .set x y => [(x, y)]
  | .move x y => [(x, y)]
  | .line x0 y0 x1 y1 => [(x0, y0), (x1, y1)]
  | .curve x0 y0 x1 y1 x2 y2 x3 y3 => [(x0, y0), (x1, y1), (x2, y2), (x3, y3)]

/-- All points of an outline. -/
def points (segs : List Seg) : List (ℤ × ℤ) := segs.flatMap Seg.pts

/-- The point `(x, y)` of the plane lies on the piece: an end point, a point of the straight line,
or a point of the cubic Bézier curve, at some parameter `0 ≤ t ≤ 1`. -/
def Seg.On : Seg → ℚ → ℚ → Prop
  | .set x0 y0, x, y => x = x0 ∧ y = y0
  | .move x0 y0, x, y => x = x0 ∧ y = y0
  | .line x0 y0 x1 y1, x, y => ∃ t : ℚ, 0 ≤ t ∧ t ≤ 1 ∧
      x = (1 - t) * x0 + t * x1 ∧ y = (1 - t) * y0 + t * y1
  | .curve x0 y0 x1 y1 x2 y2 x3 y3, x, y => ∃ t : ℚ, 0 ≤ t ∧ t ≤ 1 ∧
      x = (1 - t) ^ 3 * x0 + 3 * (1 - t) ^ 2 * t * x1 + 3 * (1 - t) * t ^ 2 * x2 + t ^ 3 * x3 ∧
      y = (1 - t) ^ 3 * y0 + 3 * (1 - t) ^ 2 * t * y1 + 3 * (1 - t) * t ^ 2 * y2 + t ^ 3 * y3

/-- The state of a Type 1 interpreter: the current point, the operand stack and the PostScript
stack (top first). -/
structure S where
  x : ℤ
  y : ℤ
  stack : List ℤ
  ps : List ℤ
deriving Repr, DecidableEq

/-- What a single command does (other than the calls and ends of charstrings), following chapter 6
of the book.  The path and hint commands take the whole operand stack and clear it.  `div` is
described only when the quotient is an integer.  OtherSubrs 0 to 3 are flex and hint replacement;
the seven `rmoveto` of a flex count as moves.  `seac` has no rule. -/
inductive Effect : Tok → S → List Seg → S → Prop where
  | num (v x y : ℤ) (st ps : List ℤ) : Effect (.num v) ⟨x, y, st, ps⟩ [] ⟨x, y, v :: st, ps⟩
  | hsbw (x y sbx wx : ℤ) (ps : List ℤ) :
      Effect .hsbw ⟨x, y, [wx, sbx], ps⟩ [.set sbx 0] ⟨sbx, 0, [], ps⟩
  | sbw (x y sbx sby wx wy : ℤ) (ps : List ℤ) :
      Effect .sbw ⟨x, y, [wy, wx, sby, sbx], ps⟩ [.set sbx sby] ⟨sbx, sby, [], ps⟩
  | setcurrentpoint (x y px py : ℤ) (ps : List ℤ) :
      Effect .setcurrentpoint ⟨x, y, [py, px], ps⟩ [.set px py] ⟨px, py, [], ps⟩
  | rmoveto (x y dx dy : ℤ) (ps : List ℤ) :
      Effect .rmoveto ⟨x, y, [dy, dx], ps⟩ [.move (x + dx) (y + dy)] ⟨x + dx, y + dy, [], ps⟩
  | hmoveto (x y dx : ℤ) (ps : List ℤ) :
      Effect .hmoveto ⟨x, y, [dx], ps⟩ [.move (x + dx) y] ⟨x + dx, y, [], ps⟩
  | vmoveto (x y dy : ℤ) (ps : List ℤ) :
      Effect .vmoveto ⟨x, y, [dy], ps⟩ [.move x (y + dy)] ⟨x, y + dy, [], ps⟩
  | rlineto (x y dx dy : ℤ) (ps : List ℤ) :
      Effect .rlineto ⟨x, y, [dy, dx], ps⟩ [.line x y (x + dx) (y + dy)] ⟨x + dx, y + dy, [], ps⟩
  | hlineto (x y dx : ℤ) (ps : List ℤ) :
      Effect .hlineto ⟨x, y, [dx], ps⟩ [.line x y (x + dx) y] ⟨x + dx, y, [], ps⟩
  | vlineto (x y dy : ℤ) (ps : List ℤ) :
      Effect .vlineto ⟨x, y, [dy], ps⟩ [.line x y x (y + dy)] ⟨x, y + dy, [], ps⟩
  | rrcurveto (x y dx1 dy1 dx2 dy2 dx3 dy3 : ℤ) (ps : List ℤ) :
      Effect .rrcurveto ⟨x, y, [dy3, dx3, dy2, dx2, dy1, dx1], ps⟩
        [.curve x y (x + dx1) (y + dy1) (x + dx1 + dx2) (y + dy1 + dy2)
          (x + dx1 + dx2 + dx3) (y + dy1 + dy2 + dy3)]
        ⟨x + dx1 + dx2 + dx3, y + dy1 + dy2 + dy3, [], ps⟩
  | vhcurveto (x y dy1 dx2 dy2 dx3 : ℤ) (ps : List ℤ) :
      Effect .vhcurveto ⟨x, y, [dx3, dy2, dx2, dy1], ps⟩
        [.curve x y x (y + dy1) (x + dx2) (y + dy1 + dy2) (x + dx2 + dx3) (y + dy1 + dy2)]
        ⟨x + dx2 + dx3, y + dy1 + dy2, [], ps⟩
  | hvcurveto (x y dx1 dx2 dy2 dy3 : ℤ) (ps : List ℤ) :
      Effect .hvcurveto ⟨x, y, [dy3, dy2, dx2, dx1], ps⟩
        [.curve x y (x + dx1) y (x + dx1 + dx2) (y + dy2) (x + dx1 + dx2) (y + dy2 + dy3)]
        ⟨x + dx1 + dx2, y + dy2 + dy3, [], ps⟩
  | closepath (s : S) : Effect .closepath s [] s
  | dotsection (s : S) : Effect .dotsection s [] s
  | hstem (x y a b : ℤ) (ps : List ℤ) : Effect .hstem ⟨x, y, [b, a], ps⟩ [] ⟨x, y, [], ps⟩
  | vstem (x y a b : ℤ) (ps : List ℤ) : Effect .vstem ⟨x, y, [b, a], ps⟩ [] ⟨x, y, [], ps⟩
  | hstem3 (x y a b c d e f : ℤ) (ps : List ℤ) :
      Effect .hstem3 ⟨x, y, [f, e, d, c, b, a], ps⟩ [] ⟨x, y, [], ps⟩
  | vstem3 (x y a b c d e f : ℤ) (ps : List ℤ) :
      Effect .vstem3 ⟨x, y, [f, e, d, c, b, a], ps⟩ [] ⟨x, y, [], ps⟩
  | div (x y q b : ℤ) (st ps : List ℤ) (hb : b ≠ 0) (hq : IsInt32 q) :
      Effect .div ⟨x, y, b :: (q * b) :: st, ps⟩ [] ⟨x, y, q :: st, ps⟩
  | flexEnd (x y h px py : ℤ) (st ps : List ℤ) :
      Effect .callothersubr ⟨x, y, 0 :: 3 :: py :: px :: h :: st, ps⟩ [] ⟨x, y, st, [px, py]⟩
  | flexStart (x y : ℤ) (st ps : List ℤ) :
      Effect .callothersubr ⟨x, y, 1 :: 0 :: st, ps⟩ [] ⟨x, y, st, []⟩
  | flexPoint (x y : ℤ) (st ps : List ℤ) :
      Effect .callothersubr ⟨x, y, 2 :: 0 :: st, ps⟩ [] ⟨x, y, st, []⟩
  | hints (x y n : ℤ) (st ps : List ℤ) :
      Effect .callothersubr ⟨x, y, 3 :: 1 :: n :: st, ps⟩ [] ⟨x, y, st, [n]⟩
  | pop (x y v : ℤ) (st ps : List ℤ) :
      Effect .pop ⟨x, y, st, v :: ps⟩ [] ⟨x, y, v :: st, ps⟩

/-- `Draws sub toks s segs s'`: interpreting the tokens from state `s` with the subroutines `sub`
draws the pieces `segs` and ends in `s'`.  A subroutine ends with `return`. -/
inductive Draws (sub : ℤ → Option (List Tok)) : List Tok → S → List Seg → S → Prop where
  | nil (s : S) : Draws sub [] s [] s
  | cmd (t : Tok) (toks : List Tok) (s s1 s2 : S) (g1 g2 : List Seg) :
      Effect t s g1 s1 → Draws sub toks s1 g2 s2 → Draws sub (t :: toks) s (g1 ++ g2) s2
  | call (i x y : ℤ) (st ps : List ℤ) (body toks : List Tok) (s1 s2 : S) (g1 g2 : List Seg) :
      sub i = some (body ++ [.ret]) → Draws sub body ⟨x, y, st, ps⟩ g1 s1 →
      Draws sub toks s1 g2 s2 →
      Draws sub (.callsubr :: toks) ⟨x, y, i :: st, ps⟩ (g1 ++ g2) s2

/-- `IsGlyph sub toks segs`: the tokens are a complete glyph (ending with `endchar`) with the
outline `segs`, which starts by setting the side bearing point. -/
def IsGlyph (sub : ℤ → Option (List Tok)) (toks : List Tok) (segs : List Seg) : Prop :=
  ∃ body s', toks = body ++ [.endchar] ∧ Draws sub body ⟨0, 0, [], []⟩ segs s' ∧
    ∃ x y rest, segs = .set x y :: rest

/-- `IsGlyphBox l u r w pts`: the box with left edge `l`, smallest `y` value `u`, right edge `r`
and largest `y` value `w` contains the points and every edge is attained. -/
def IsGlyphBox (l u r w : ℤ) (pts : List (ℤ × ℤ)) : Prop :=
  (∀ p ∈ pts, l ≤ p.1 ∧ p.1 ≤ r ∧ u ≤ p.2 ∧ p.2 ≤ w) ∧
    (∃ p ∈ pts, p.1 = l) ∧ (∃ p ∈ pts, p.1 = r) ∧ (∃ p ∈ pts, p.2 = u) ∧ (∃ p ∈ pts, p.2 = w)

end Verif.Spec.Type1
