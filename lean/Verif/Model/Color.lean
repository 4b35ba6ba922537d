import Verif.Model.Flt
import Verif.Model.Lexer
import Verif.Model.Decimal

/-!
Model of csspp/color.cpp (without the HSL functions). A color_component_t is a 32 bit float.
-/

namespace Csspp.Color
open Csspp.Flt

/-- color.h:31-38 `color_table_t`. -/
structure Entry where
  red : Nat
  green : Nat
  blue : Nat
  alpha : Nat
  name : Str
  deriving DecidableEq, Repr

/-- color.cpp:56-206 `color_names` (generated from the source). -/
def table : List Entry := [
  ⟨240, 248, 255, 255, b!"aliceblue"⟩,
  ⟨250, 235, 215, 255, b!"antiquewhite"⟩,
  ⟨0, 255, 255, 255, b!"aqua"⟩,
  ⟨127, 255, 212, 255, b!"aquamarine"⟩,
  ⟨240, 255, 255, 255, b!"azure"⟩,
  ⟨245, 245, 220, 255, b!"beige"⟩,
  ⟨255, 228, 196, 255, b!"bisque"⟩,
  ⟨0, 0, 0, 255, b!"black"⟩,
  ⟨255, 235, 205, 255, b!"blanchedalmond"⟩,
  ⟨0, 0, 255, 255, b!"blue"⟩,
  ⟨138, 43, 226, 255, b!"blueviolet"⟩,
  ⟨165, 42, 42, 255, b!"brown"⟩,
  ⟨222, 184, 135, 255, b!"burlywood"⟩,
  ⟨95, 158, 160, 255, b!"cadetblue"⟩,
  ⟨127, 255, 0, 255, b!"chartreuse"⟩,
  ⟨210, 105, 30, 255, b!"chocolate"⟩,
  ⟨255, 127, 80, 255, b!"coral"⟩,
  ⟨100, 149, 237, 255, b!"cornflowerblue"⟩,
  ⟨255, 248, 220, 255, b!"cornsilk"⟩,
  ⟨220, 20, 60, 255, b!"crimson"⟩,
  ⟨0, 255, 255, 255, b!"cyan"⟩,
  ⟨0, 0, 139, 255, b!"darkblue"⟩,
  ⟨0, 139, 139, 255, b!"darkcyan"⟩,
  ⟨184, 134, 11, 255, b!"darkgoldenrod"⟩,
  ⟨169, 169, 169, 255, b!"darkgray"⟩,
  ⟨0, 100, 0, 255, b!"darkgreen"⟩,
  ⟨169, 169, 169, 255, b!"darkgrey"⟩,
  ⟨189, 183, 107, 255, b!"darkkhaki"⟩,
  ⟨139, 0, 139, 255, b!"darkmagenta"⟩,
  ⟨85, 107, 47, 255, b!"darkolivegreen"⟩,
  ⟨255, 140, 0, 255, b!"darkorange"⟩,
  ⟨153, 50, 204, 255, b!"darkorchid"⟩,
  ⟨139, 0, 0, 255, b!"darkred"⟩,
  ⟨233, 150, 122, 255, b!"darksalmon"⟩,
  ⟨143, 188, 143, 255, b!"darkseagreen"⟩,
  ⟨72, 61, 139, 255, b!"darkslateblue"⟩,
  ⟨47, 79, 79, 255, b!"darkslategray"⟩,
  ⟨47, 79, 79, 255, b!"darkslategrey"⟩,
  ⟨0, 206, 209, 255, b!"darkturquoise"⟩,
  ⟨148, 0, 211, 255, b!"darkviolet"⟩,
  ⟨255, 20, 147, 255, b!"deeppink"⟩,
  ⟨0, 191, 255, 255, b!"deepskyblue"⟩,
  ⟨105, 105, 105, 255, b!"dimgray"⟩,
  ⟨105, 105, 105, 255, b!"dimgrey"⟩,
  ⟨30, 144, 255, 255, b!"dodgerblue"⟩,
  ⟨178, 34, 34, 255, b!"firebrick"⟩,
  ⟨255, 250, 240, 255, b!"floralwhite"⟩,
  ⟨34, 139, 34, 255, b!"forestgreen"⟩,
  ⟨255, 0, 255, 255, b!"fuchsia"⟩,
  ⟨220, 220, 220, 255, b!"gainsboro"⟩,
  ⟨248, 248, 255, 255, b!"ghostwhite"⟩,
  ⟨255, 215, 0, 255, b!"gold"⟩,
  ⟨218, 165, 32, 255, b!"goldenrod"⟩,
  ⟨128, 128, 128, 255, b!"gray"⟩,
  ⟨0, 128, 0, 255, b!"green"⟩,
  ⟨173, 255, 47, 255, b!"greenyellow"⟩,
  ⟨128, 128, 128, 255, b!"grey"⟩,
  ⟨240, 255, 240, 255, b!"honeydew"⟩,
  ⟨255, 105, 180, 255, b!"hotpink"⟩,
  ⟨205, 92, 92, 255, b!"indianred"⟩,
  ⟨75, 0, 130, 255, b!"indigo"⟩,
  ⟨255, 255, 240, 255, b!"ivory"⟩,
  ⟨240, 230, 140, 255, b!"khaki"⟩,
  ⟨230, 230, 250, 255, b!"lavender"⟩,
  ⟨255, 240, 245, 255, b!"lavenderblush"⟩,
  ⟨124, 252, 0, 255, b!"lawngreen"⟩,
  ⟨255, 250, 205, 255, b!"lemonchiffon"⟩,
  ⟨173, 216, 230, 255, b!"lightblue"⟩,
  ⟨240, 128, 128, 255, b!"lightcoral"⟩,
  ⟨224, 255, 255, 255, b!"lightcyan"⟩,
  ⟨250, 250, 210, 255, b!"lightgoldenrodyellow"⟩,
  ⟨211, 211, 211, 255, b!"lightgray"⟩,
  ⟨144, 238, 144, 255, b!"lightgreen"⟩,
  ⟨211, 211, 211, 255, b!"lightgrey"⟩,
  ⟨255, 182, 193, 255, b!"lightpink"⟩,
  ⟨255, 160, 122, 255, b!"lightsalmon"⟩,
  ⟨32, 178, 170, 255, b!"lightseagreen"⟩,
  ⟨135, 206, 250, 255, b!"lightskyblue"⟩,
  ⟨119, 136, 153, 255, b!"lightslategray"⟩,
  ⟨119, 136, 153, 255, b!"lightslategrey"⟩,
  ⟨176, 196, 222, 255, b!"lightsteelblue"⟩,
  ⟨255, 255, 224, 255, b!"lightyellow"⟩,
  ⟨0, 255, 0, 255, b!"lime"⟩,
  ⟨50, 205, 50, 255, b!"limegreen"⟩,
  ⟨250, 240, 230, 255, b!"linen"⟩,
  ⟨255, 0, 255, 255, b!"magenta"⟩,
  ⟨128, 0, 0, 255, b!"maroon"⟩,
  ⟨102, 205, 170, 255, b!"mediumaquamarine"⟩,
  ⟨0, 0, 205, 255, b!"mediumblue"⟩,
  ⟨186, 85, 211, 255, b!"mediumorchid"⟩,
  ⟨147, 112, 219, 255, b!"mediumpurple"⟩,
  ⟨60, 179, 113, 255, b!"mediumseagreen"⟩,
  ⟨123, 104, 238, 255, b!"mediumslateblue"⟩,
  ⟨0, 250, 154, 255, b!"mediumspringgreen"⟩,
  ⟨72, 209, 204, 255, b!"mediumturquoise"⟩,
  ⟨199, 21, 133, 255, b!"mediumvioletred"⟩,
  ⟨25, 25, 112, 255, b!"midnightblue"⟩,
  ⟨245, 255, 250, 255, b!"mintcream"⟩,
  ⟨255, 228, 225, 255, b!"mistyrose"⟩,
  ⟨255, 228, 181, 255, b!"moccasin"⟩,
  ⟨255, 222, 173, 255, b!"navajowhite"⟩,
  ⟨0, 0, 128, 255, b!"navy"⟩,
  ⟨253, 245, 230, 255, b!"oldlace"⟩,
  ⟨128, 128, 0, 255, b!"olive"⟩,
  ⟨107, 142, 35, 255, b!"olivedrab"⟩,
  ⟨255, 165, 0, 255, b!"orange"⟩,
  ⟨255, 69, 0, 255, b!"orangered"⟩,
  ⟨218, 112, 214, 255, b!"orchid"⟩,
  ⟨238, 232, 170, 255, b!"palegoldenrod"⟩,
  ⟨152, 251, 152, 255, b!"palegreen"⟩,
  ⟨175, 238, 238, 255, b!"paleturquoise"⟩,
  ⟨219, 112, 147, 255, b!"palevioletred"⟩,
  ⟨255, 239, 213, 255, b!"papayawhip"⟩,
  ⟨255, 218, 185, 255, b!"peachpuff"⟩,
  ⟨205, 133, 63, 255, b!"peru"⟩,
  ⟨255, 192, 203, 255, b!"pink"⟩,
  ⟨221, 160, 221, 255, b!"plum"⟩,
  ⟨176, 224, 230, 255, b!"powderblue"⟩,
  ⟨128, 0, 128, 255, b!"purple"⟩,
  ⟨255, 0, 0, 255, b!"red"⟩,
  ⟨188, 143, 143, 255, b!"rosybrown"⟩,
  ⟨65, 105, 225, 255, b!"royalblue"⟩,
  ⟨139, 69, 19, 255, b!"saddlebrown"⟩,
  ⟨250, 128, 114, 255, b!"salmon"⟩,
  ⟨244, 164, 96, 255, b!"sandybrown"⟩,
  ⟨46, 139, 87, 255, b!"seagreen"⟩,
  ⟨255, 245, 238, 255, b!"seashell"⟩,
  ⟨160, 82, 45, 255, b!"sienna"⟩,
  ⟨192, 192, 192, 255, b!"silver"⟩,
  ⟨135, 206, 235, 255, b!"skyblue"⟩,
  ⟨106, 90, 205, 255, b!"slateblue"⟩,
  ⟨112, 128, 144, 255, b!"slategray"⟩,
  ⟨112, 128, 144, 255, b!"slategrey"⟩,
  ⟨255, 250, 250, 255, b!"snow"⟩,
  ⟨0, 255, 127, 255, b!"springgreen"⟩,
  ⟨70, 130, 180, 255, b!"steelblue"⟩,
  ⟨210, 180, 140, 255, b!"tan"⟩,
  ⟨0, 128, 128, 255, b!"teal"⟩,
  ⟨216, 191, 216, 255, b!"thistle"⟩,
  ⟨255, 99, 71, 255, b!"tomato"⟩,
  ⟨0, 0, 0, 0, b!"transparent"⟩,
  ⟨64, 224, 208, 255, b!"turquoise"⟩,
  ⟨238, 130, 238, 255, b!"violet"⟩,
  ⟨245, 222, 179, 255, b!"wheat"⟩,
  ⟨255, 255, 255, 255, b!"white"⟩,
  ⟨245, 245, 245, 255, b!"whitesmoke"⟩,
  ⟨255, 255, 0, 255, b!"yellow"⟩,
  ⟨154, 205, 50, 255, b!"yellowgreen"⟩]

/-- color.h:64-67. -/
structure Color where
  red : Fp
  green : Fp
  blue : Fp
  alpha : Fp
  deriving DecidableEq, Repr

/-- color.cpp:210-224; `none` when the conversion to uint8_t is undefined. -/
def toByte (c : Fp) : Option Int :=
  if le (ofInt f32 1) c then some 255
  else if le c (ofInt f32 0) then some 0
  else toInt f32 0 255 (add f32 (mul f32 c (ofInt f32 255)) (div f32 (ofInt f32 1) (ofInt f32 2)))

/-- `static_cast<color_component_t>(v) / static_cast<color_component_t>(255.0)`. -/
def component (v : Int) : Fp := div f32 (ofInt f32 v) (ofInt f32 255)

/-- color.cpp:236-258: the three overloads taking integers. -/
def ofInts (red green blue alpha : Int) : Color :=
  ⟨component red, component green, component blue, component alpha⟩

/-- color.cpp:228-234: red is in the low byte. -/
def ofRgba (rgba : Nat) : Color :=
  ofInts (rgba % 256 : Nat) (rgba / 256 % 256 : Nat) (rgba / 65536 % 256 : Nat)
    (rgba / 16777216 % 256 : Nat)

/-- `(r << 0) | (g << 8) | (b << 16) | (a << 24)`: the four bytes do not overlap, so `|` is `+`. -/
@[irreducible] def pack (r g b a : Nat) : Nat := 16777216 * a + 65536 * b + 256 * g + r

/-- color.cpp:467-475. -/
def getColor (c : Color) : Option Nat :=
  match toByte c.red, toByte c.green, toByte c.blue, toByte c.alpha with
  | some r, some g, some b, some a =>
    some (pack r.toNat g.toNat b.toNat a.toNat)
  | _, _, _, _ => none

/-- `std::string` comparison: lexicographic on the bytes. -/
def strLt : Str → Str → Bool
  | _, [] => false
  | [], _ :: _ => true
  | a :: s, b :: t => if a < b then true else if b < a then false else strLt s t

/-- color.cpp:292-313: the binary search. `fuel` is any number at least j - i. -/
def search (t : List Entry) (name : Str) : Nat → Nat → Nat → Option Entry
  | 0, _, _ => none
  | fuel + 1, i, j =>
    if i < j then
      match t[(j - i) / 2 + i]? with
      | none => none
      | some e =>
        if e.name = name then some e
        else if strLt e.name name then search t name fuel ((j - i) / 2 + i + 1) j
        else search t name fuel i ((j - i) / 2 + i)
    else none

/-- color.cpp:276-352 `set_color(name, name_only)`; `none` when it returns false. -/
def setName (name : Str) (nameOnly : Bool) : Option Color :=
  match search table name table.length 0 table.length with
  | some e => some (ofInts e.red e.green e.blue e.alpha)
  | none =>
    if nameOnly then none
    else
      match name with
      | [a, b, c] =>
        if Lex.isHex a && Lex.isHex b && Lex.isHex c then
          some (ofInts (Lex.hexVal a * 17 : Nat) (Lex.hexVal b * 17 : Nat) (Lex.hexVal c * 17 : Nat) 255)
        else none
      | [a, b, c, d, e, f] =>
        if Lex.isHex a && Lex.isHex b && Lex.isHex c && Lex.isHex d && Lex.isHex e && Lex.isHex f then
          some (ofInts (Lex.hexVal a * 16 + Lex.hexVal b : Nat)
            (Lex.hexVal c * 16 + Lex.hexVal d : Nat) (Lex.hexVal e * 16 + Lex.hexVal f : Nat) 255)
        else none
      | _ => none

/-- One hexadecimal digit as written by `std::hex`. -/
def hexDigit (d : Nat) : Nat := if d < 10 then 48 + d else 87 + d

/-- `std::setw(2)` with a '0' fill. -/
def hex2 (v : Nat) : Str := [hexDigit (v / 16), hexDigit (v % 16)]

/-- csspp.cpp:86-160 on a double: `d ± 0.5 / pow(10, precision)` then Model/Decimal.lean on the
exact value of the sum (m / 2^1074 is m * 5^1074 / 10^1074). `none` for NaN and the infinities,
which are not modelled. -/
def decText (p : Nat) (d : Fp) (removeLeadingZero : Bool) : Option Str :=
  let half := div f64 (div f64 (ofInt f64 1) (ofInt f64 2)) (ofInt f64 (10 ^ p : Nat))
  match (if le (ofInt f64 0) d then add f64 d half else sub f64 d half) with
  | .fin neg m => some (Dec.toStrSum p neg (m * 5 ^ 1074) 1074 removeLeadingZero)
  | _ => none

/-- color.cpp:504-569 for an opaque color: the color names used, then #RGB or #RRGGBB. -/
def opaqueText (red green blue : Nat) : Str :=
  if (red, green, blue) = (192, 192, 192) then b!"silver"
  else if (red, green, blue) = (128, 128, 128) then b!"gray"
  else if (red, green, blue) = (128, 0, 0) then b!"maroon"
  else if (red, green, blue) = (255, 0, 0) then b!"red"
  else if (red, green, blue) = (128, 0, 128) then b!"purple"
  else if (red, green, blue) = (0, 128, 0) then b!"green"
  else if (red, green, blue) = (0, 255, 0) then b!"lime"
  else if (red, green, blue) = (128, 128, 0) then b!"olive"
  else if (red, green, blue) = (0, 0, 128) then b!"navy"
  else if (red, green, blue) = (0, 0, 255) then b!"blue"
  else if (red, green, blue) = (0, 128, 128) then b!"teal"
  else if (red, green, blue) = (0, 255, 255) then b!"aqua"
  else if red / 16 = red % 16 ∧ green / 16 = green % 16 ∧ blue / 16 = blue % 16 then
    [35, hexDigit (red % 16), hexDigit (green % 16), hexDigit (blue % 16)]
  else 35 :: (hex2 red ++ hex2 green ++ hex2 blue)

/-- color.cpp:495-584 `to_string()`; `none` when get_color() is undefined. -/
def toString (c : Color) : Option Str :=
  match getColor c with
  | none => none
  | some col =>
    let red := col % 256
    let green := col / 256 % 256
    let blue := col / 65536 % 256
    let alpha := col / 16777216 % 256
    if alpha = 255 then some (opaqueText red green blue)
    else if alpha = 0 then some b!"transparent"
    else
      match decText 2 (convert f32 f64 c.alpha) true with
      | none => none
      | some a =>
        some (b!"rgba(" ++ natDigits red ++ [44] ++ natDigits green ++ [44] ++ natDigits blue ++
          [44] ++ a ++ [41])

end Csspp.Color
