import Mathlib.Data.Nat.Notation
import Verif.Model.Text

/-!
# Model of the character map, `/repo/src/utils/CharMap.h`
-/

namespace Verif.CharMap

open Verif.Text

/-- The entries as they are written in `/repo/src/utils/CharMap.h:33-166`: name, code point and the string literal (as code points: an
escape sequence `\\u` has exactly four digits, what follows are characters of their own). -/
def literals : List (String × ℕ × List ℕ) := [
  ("summationdisplay", 0x2211, [0x2211]),
  ("summationssdisplay", 0x2211, [0x2211]),
  ("angbracketleft", 0x3008, [0x3008]),
  ("angbracketright", 0x3009, [0x3009]),
  ("circlecopyrt", 0x00A9, [0x00A9]),
  ("controlNULL", 0x0000, [0x0000]),
  ("angbracketleftbig", 0x2329, [0x2329]),
  ("angbracketleftBig", 0x2329, [0x2329]),
  ("angbracketleftbigg", 0x2329, [0x2329]),
  ("angbracketleftBigg", 0x2329, [0x2329]),
  ("angbracketrightBig", 0x232A, [0x232A]),
  ("angbracketrightbig", 0x232A, [0x232A]),
  ("angbracketrightBigg", 0x232A, [0x232A]),
  ("angbracketrightbigg", 0x232A, [0x232A]),
  ("arrowhookleft", 0x21AA, [0x21AA]),
  ("arrowhookright", 0x21A9, [0x21A9]),
  ("arrowlefttophalf", 0x21BC, [0x21BC]),
  ("arrowleftbothalf", 0x21BD, [0x21BD]),
  ("arrownortheast", 0x2197, [0x2197]),
  ("arrownorthwest", 0x2196, [0x2196]),
  ("arrowrighttophalf", 0x21C0, [0x21C0]),
  ("arrowrightbothalf", 0x21C1, [0x21C1]),
  ("arrowsoutheast", 0x2198, [0x2198]),
  ("arrowsouthwest", 0x2199, [0x2199]),
  ("backslashbig", 0x2216, [0x2216]),
  ("backslashBig", 0x2216, [0x2216]),
  ("backslashBigg", 0x2216, [0x2216]),
  ("backslashbigg", 0x2216, [0x2216]),
  ("bardbl", 0x2016, [0x2016]),
  ("bracehtipdownleft", 0xFE37, [0xFE37]),
  ("bracehtipdownright", 0xFE37, [0xFE37]),
  ("bracehtipupleft", 0xFE38, [0xFE38]),
  ("bracehtipupright", 0xFE38, [0xFE38]),
  ("braceleftBig", 0x007B, [0x007B]),
  ("braceleftbig", 0x007B, [0x007B]),
  ("braceleftbigg", 0x007B, [0x007B]),
  ("braceleftBigg", 0x007B, [0x007B]),
  ("bracerightBig", 0x007D, [0x007D]),
  ("bracerightbig", 0x007D, [0x007D]),
  ("bracerightbigg", 0x007D, [0x007D]),
  ("bracerightBigg", 0x007D, [0x007D]),
  ("bracketleftbig", 0x005B, [0x005B]),
  ("bracketleftBig", 0x005B, [0x005B]),
  ("bracketleftbigg", 0x005B, [0x005B]),
  ("bracketleftBigg", 0x005B, [0x005B]),
  ("bracketleftmath", 0x005B, [0x005B]),
  ("bracketrightBig", 0x005D, [0x005D]),
  ("bracketrightbig", 0x005D, [0x005D]),
  ("bracketrightbigg", 0x005D, [0x005D]),
  ("bracketrightBigg", 0x005D, [0x005D]),
  ("bracketrightmath", 0x005D, [0x005D]),
  ("ceilingleftbig", 0x2308, [0x2308]),
  ("ceilingleftBig", 0x2308, [0x2308]),
  ("ceilingleftBigg", 0x2308, [0x2308]),
  ("ceilingleftbigg", 0x2308, [0x2308]),
  ("ceilingrightbig", 0x2309, [0x2309]),
  ("ceilingrightBig", 0x2309, [0x2309]),
  ("ceilingrightbigg", 0x2309, [0x2309]),
  ("ceilingrightBigg", 0x2309, [0x2309]),
  ("circledotdisplay", 0x2299, [0x2299]),
  ("circledottext", 0x2299, [0x2299]),
  ("circlemultiplydisplay", 0x2297, [0x2297]),
  ("circlemultiplytext", 0x2297, [0x2297]),
  ("circleplusdisplay", 0x2295, [0x2295]),
  ("circleplustext", 0x2295, [0x2295]),
  ("contintegraldisplay", 0x222E, [0x222E]),
  ("contintegraltext", 0x222E, [0x222E]),
  ("coproductdisplay", 0x2210, [0x2210]),
  ("coproducttext", 0x2210, [0x2210]),
  ("epsilon1", 0x03B5, [0x03B5]),
  ("equalmath", 0x003D, [0x003D]),
  ("floorleftBig", 0x230A, [0x230A]),
  ("floorleftbig", 0x230A, [0x230A]),
  ("floorleftbigg", 0x230A, [0x230A]),
  ("floorleftBigg", 0x230A, [0x230A]),
  ("floorrightbig", 0x230B, [0x230B]),
  ("floorrightBig", 0x230B, [0x230B]),
  ("floorrightBigg", 0x230B, [0x230B]),
  ("floorrightbigg", 0x230B, [0x230B]),
  ("hatwide", 0x005E, [0x005E]),
  ("hatwider", 0x005E, [0x005E]),
  ("hatwidest", 0x005E, [0x005E]),
  ("intercal", 0x1D40, [0x1D40]),
  ("integraldisplay", 0x222B, [0x222B]),
  ("integraltext", 0x222B, [0x222B]),
  ("intersectiondisplay", 0x22C2, [0x22C2]),
  ("intersectiontext", 0x22C2, [0x22C2]),
  ("logicalanddisplay", 0x2227, [0x2227]),
  ("logicalandtext", 0x2227, [0x2227]),
  ("logicalordisplay", 0x2228, [0x2228]),
  ("logicalortext", 0x2228, [0x2228]),
  ("parenleftBig", 0x0028, [0x0028]),
  ("parenleftbig", 0x0028, [0x0028]),
  ("parenleftBigg", 0x0028, [0x0028]),
  ("parenleftbigg", 0x0028, [0x0028]),
  ("parenleftmath", 0x0028, [0x0028]),
  ("parenrightBig", 0x0029, [0x0029]),
  ("parenrightbig", 0x0029, [0x0029]),
  ("parenrightBigg", 0x0029, [0x0029]),
  ("parenrightbigg", 0x0029, [0x0029]),
  ("parenrightmath", 0x0029, [0x0029]),
  ("plusmath", 0x002B, [0x002B]),
  ("prime", 0x2032, [0x2032]),
  ("productdisplay", 0x220F, [0x220F]),
  ("producttext", 0x220F, [0x220F]),
  ("question_sign", 0x003F, [0x003F]),
  ("radicalbig", 0x221A, [0x221A]),
  ("radicalBig", 0x221A, [0x221A]),
  ("radicalBigg", 0x221A, [0x221A]),
  ("radicalbigg", 0x221A, [0x221A]),
  ("radicalbt", 0x221A, [0x221A]),
  ("radicaltp", 0x221A, [0x221A]),
  ("radicalvertex", 0x221A, [0x221A]),
  ("slashbig", 0x002F, [0x002F]),
  ("slashBig", 0x002F, [0x002F]),
  ("slashBigg", 0x002F, [0x002F]),
  ("slashbigg", 0x002F, [0x002F]),
  ("summationdisplay", 0x2211, [0x2211]),
  ("summationtext", 0x2211, [0x2211]),
  ("thumbs_down", 0x1F44E, [0x1F44, 0x0045]),
  ("thumbs_down_alt", 0x1F44E, [0x1F44, 0x0045]),
  ("thumbs_up", 0x1F44D, [0x1F44, 0x0044]),
  ("thumbs_up_alt", 0x1F44D, [0x1F44, 0x0044]),
  ("tildewide", 0x02DC, [0x02DC]),
  ("tildewider", 0x02DC, [0x02DC]),
  ("tildewidest", 0x02DC, [0x02DC]),
  ("uniondisplay", 0x22C3, [0x22C3]),
  ("unionmultidisplay", 0x228E, [0x228E]),
  ("unionmultitext", 0x228E, [0x228E]),
  ("unionsqdisplay", 0x2294, [0x2294]),
  ("unionsqtext", 0x2294, [0x2294]),
  ("uniontext", 0x22C3, [0x22C3]),
  ("vextenddouble", 0x2225, [0x2225]),
  ("vextendsingle", 0x2223, [0x2223])]

/-- The value of a string literal as a `std::string`: `make_pair` turns it into a `const char*`, so it ends before the first NUL.
`/repo/src/utils/CharMap.h:33`. -/
def literalText (cs : List ℕ) : Str := (cs.takeWhile (· ≠ 0)).map Char.ofNat

/-- `charMap`, `/repo/src/utils/CharMap.h:33-167`: of several entries with the same key the first one is kept (C++ library,
`unordered_map`). -/
def charMap (name : Str) : Option (ℕ × Str) :=
  (literals.find? fun e => e.1.toList = name).map fun e => (e.2.1, literalText e.2.2)

end Verif.CharMap
