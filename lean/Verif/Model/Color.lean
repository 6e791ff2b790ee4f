import Verif.Model.Basic
import Mathlib.Algebra.Order.Floor.Defs
import Mathlib.Algebra.Order.Field.Basic

/-!
# `core/src/mapcss/Color.hpp`, `ColorGradient.hpp` and the color part of `core/src/utils/GradientUtils.cpp`

Doubles are elements of an ordered field (no rounding, no NaN, no infinity); a division by zero and a conversion outside of the range of
`int` are undefined behaviour. Texts of gradients are in Model/Gradient.lean.
-/
namespace Verif.Color

/-- Color.hpp:11-15 -/
structure Color where
  r : UInt8 := 0
  g : UInt8 := 0
  b : UInt8 := 0
  a : UInt8 := 0
deriving DecidableEq, Repr, Inhabited

/-- One channel of Color.hpp:17-22; the conversion to `unsigned char` is modulo 256. -/
def channel (x : Int) : UInt8 := UInt8.ofNat (max 0 (min x 0xff) % 256).toNat

/-- Color.hpp:17-22 -/
def ofInts (r g b a : Int) : Color := ⟨channel r, channel g, channel b, channel a⟩

/-- Color.hpp:24-29; the shift of a negative `int` is arithmetic, which the mask makes unobservable, so that the bits are those of the
unsigned number. -/
def unpack (rgba : UInt32) : Color :=
  ⟨((rgba >>> 24) &&& 0xff).toUInt8, ((rgba >>> 16) &&& 0xff).toUInt8, ((rgba >>> 8) &&& 0xff).toUInt8, (rgba &&& 0xff).toUInt8⟩

/-- Color.hpp:31-33; `r << 24` with `r` of 128 or more changes the sign of an `int` and is taken modulo 2^32 as all compilers do. -/
def pack (c : Color) : UInt32 := (c.r.toUInt32 <<< 24) ||| (c.g.toUInt32 <<< 16) ||| (c.b.toUInt32 <<< 8) ||| c.a.toUInt32

/-- Color.hpp:35-37 -/
def add (c o : Color) : Color :=
  ofInts (c.r.toNat + o.r.toNat) (c.g.toNat + o.g.toNat) (c.b.toNat + o.b.toNat) (c.a.toNat + o.a.toNat)

section
variable {K : Type} [Field K] [LinearOrder K] [IsStrictOrderedRing K] [FloorRing K]

/-- `static_cast<int>`: truncation, Color.hpp:40-43 -/
def toInt (x : K) : Outcome Int :=
  let n := if 0 ≤ x then ⌊x⌋ else ⌈x⌉
  if -2147483648 ≤ n ∧ n ≤ 2147483647 then .ok n else .ub "conversion to int"

/-- Color.hpp:39-44 -/
def scale (c : Color) (f : K) : Outcome Color :=
  (toInt ((c.r.toNat : K) * f)).bind fun r =>
  (toInt ((c.g.toNat : K) * f)).bind fun g =>
  (toInt ((c.b.toNat : K) * f)).bind fun b =>
  (toInt ((c.a.toNat : K) * f)).bind fun a => .ok (ofInts r g b a)

/-- ColorGradient.hpp:61-65 -/
def interpolate (a b : Color) (r : K) : Outcome Color :=
  (scale a (1 - r)).bind fun x => (scale b r).bind fun y => .ok (add x y)

/-- ColorGradient.hpp:41-43: the loop stops at the last stop or at the first one which is not before `time`. -/
def index (time : K) : List (K × Color) → Nat
  | a :: b :: l => if a.1 < time then index time (b :: l) + 1 else 0
  | _ => 0

/-- ColorGradient.hpp:37-53 -/
def evaluate (colors : List (K × Color)) (time : K) : Outcome Color :=
  if colors.isEmpty then .ok {}
  else
    let i := index time colors
    match colors[if i ≠ 0 then i - 1 else 0]?, colors[i]? with
    | some pairA, some pairB =>
      if i = 0 then interpolate pairA.2 pairB.2 (0 : K)
      else if pairB.1 - pairA.1 = 0 then .ub "infinite factor"
      else interpolate pairA.2 pairB.2 ((time - pairA.1) / (pairB.1 - pairA.1))
    | _, _ => .ub "index out of range"

end

/-- The cases of the `switch` in GradientUtils.cpp:190-218. -/
def hexTable : List (Char × Int) :=
  [('0', 0), ('1', 1), ('2', 2), ('3', 3), ('4', 4), ('5', 5), ('6', 6), ('7', 7), ('8', 8), ('9', 9), ('A', 10), ('a', 10), ('B', 11),
   ('b', 11), ('C', 12), ('c', 12), ('D', 13), ('d', 13), ('E', 14), ('e', 14), ('F', 15), ('f', 15)]

/-- GradientUtils.cpp:189-221 -/
def hexToInt (c : Char) : Outcome Int :=
  match hexTable.lookup c with
  | some n => .ok n
  | none => .throw "invalid_argument"

/-- `std::string::operator[]` as used in GradientUtils.cpp:232-234, 288: the terminator at `size()`, undefined beyond. -/
def charAt (s : List Char) (i : Nat) : Outcome Char :=
  match s[i]? with
  | some c => .ok c
  | none => if i = s.length then .ok '\x00' else .ub "string index"

/-- One channel of GradientUtils.cpp:232-234, the operands of `+` evaluated from left to right. -/
def hexPair (s : List Char) (low high : Nat) : Outcome Int :=
  (charAt s low).bind fun l => (hexToInt l).bind fun l => (charAt s high).bind fun h => (hexToInt h).bind fun h => .ok (l + h * 16)

/-- GradientUtils.cpp:231-236 -/
def fromHex (s : List Char) : Outcome Color :=
  (hexPair s 2 1).bind fun r => (hexPair s 4 3).bind fun g => (hexPair s 6 5).bind fun b => .ok (ofInts r g b 255)

/-- GradientUtils.cpp:10-187 -/
def colorMap : List (String × Color) :=
  [("activeborder", ⟨180, 180, 180, 255⟩),
   ("activecaption", ⟨153, 180, 209, 255⟩),
   ("activecaptiontext", ⟨0, 0, 0, 255⟩),
   ("appworkspace", ⟨171, 171, 171, 255⟩),
   ("control", ⟨240, 240, 240, 255⟩),
   ("controldark", ⟨160, 160, 160, 255⟩),
   ("controldarkdark", ⟨105, 105, 105, 255⟩),
   ("controllight", ⟨227, 227, 227, 255⟩),
   ("controllightlight", ⟨255, 255, 255, 255⟩),
   ("controltext", ⟨0, 0, 0, 255⟩),
   ("desktop", ⟨0, 0, 0, 255⟩),
   ("graytext", ⟨109, 109, 109, 255⟩),
   ("highlight", ⟨51, 153, 255, 255⟩),
   ("highlighttext", ⟨255, 255, 255, 255⟩),
   ("hottrack", ⟨0, 102, 204, 255⟩),
   ("inactiveborder", ⟨244, 247, 252, 255⟩),
   ("inactivecaption", ⟨191, 205, 219, 255⟩),
   ("inactivecaptiontext", ⟨0, 0, 0, 255⟩),
   ("info", ⟨255, 255, 225, 255⟩),
   ("infotext", ⟨0, 0, 0, 255⟩),
   ("menu", ⟨240, 240, 240, 255⟩),
   ("menutext", ⟨0, 0, 0, 255⟩),
   ("scrollbar", ⟨200, 200, 200, 255⟩),
   ("window", ⟨255, 255, 255, 255⟩),
   ("windowframe", ⟨100, 100, 100, 255⟩),
   ("windowtext", ⟨0, 0, 0, 255⟩),
   ("transparent", ⟨255, 255, 255, 255⟩),
   ("aliceblue", ⟨240, 248, 255, 255⟩),
   ("antiquewhite", ⟨250, 235, 215, 255⟩),
   ("aqua", ⟨0, 255, 255, 255⟩),
   ("aquamarine", ⟨127, 255, 212, 255⟩),
   ("azure", ⟨240, 255, 255, 255⟩),
   ("beige", ⟨245, 245, 220, 255⟩),
   ("bisque", ⟨255, 228, 196, 255⟩),
   ("black", ⟨0, 0, 0, 255⟩),
   ("blanchedalmond", ⟨255, 235, 205, 255⟩),
   ("blue", ⟨0, 0, 255, 255⟩),
   ("blueviolet", ⟨138, 43, 226, 255⟩),
   ("brown", ⟨165, 42, 42, 255⟩),
   ("burlywood", ⟨222, 184, 135, 255⟩),
   ("cadetblue", ⟨95, 158, 160, 255⟩),
   ("chartreuse", ⟨127, 255, 0, 255⟩),
   ("chocolate", ⟨210, 105, 30, 255⟩),
   ("coral", ⟨255, 127, 80, 255⟩),
   ("cornflowerblue", ⟨100, 149, 237, 255⟩),
   ("cornsilk", ⟨255, 248, 220, 255⟩),
   ("crimson", ⟨220, 20, 60, 255⟩),
   ("cyan", ⟨0, 255, 255, 255⟩),
   ("darkblue", ⟨0, 0, 139, 255⟩),
   ("darkcyan", ⟨0, 139, 139, 255⟩),
   ("darkgoldenrod", ⟨184, 134, 11, 255⟩),
   ("darkgray", ⟨169, 169, 169, 255⟩),
   ("darkgreen", ⟨0, 100, 0, 255⟩),
   ("darkkhaki", ⟨189, 183, 107, 255⟩),
   ("darkmagenta", ⟨139, 0, 139, 255⟩),
   ("darkolivegreen", ⟨85, 107, 47, 255⟩),
   ("darkorange", ⟨255, 140, 0, 255⟩),
   ("darkorchid", ⟨153, 50, 204, 255⟩),
   ("darkred", ⟨139, 0, 0, 255⟩),
   ("darksalmon", ⟨233, 150, 122, 255⟩),
   ("darkseagreen", ⟨143, 188, 139, 255⟩),
   ("darkslateblue", ⟨72, 61, 139, 255⟩),
   ("darkslategray", ⟨47, 79, 79, 255⟩),
   ("darkturquoise", ⟨0, 206, 209, 255⟩),
   ("darkviolet", ⟨148, 0, 211, 255⟩),
   ("deeppink", ⟨255, 20, 147, 255⟩),
   ("deepskyblue", ⟨0, 191, 255, 255⟩),
   ("dimgray", ⟨105, 105, 105, 255⟩),
   ("dodgerblue", ⟨30, 144, 255, 255⟩),
   ("firebrick", ⟨178, 34, 34, 255⟩),
   ("floralwhite", ⟨255, 250, 240, 255⟩),
   ("forestgreen", ⟨34, 139, 34, 255⟩),
   ("fuchsia", ⟨255, 0, 255, 255⟩),
   ("gainsboro", ⟨220, 220, 220, 255⟩),
   ("ghostwhite", ⟨248, 248, 255, 255⟩),
   ("gold", ⟨255, 215, 0, 255⟩),
   ("goldenrod", ⟨218, 165, 32, 255⟩),
   ("gray", ⟨128, 128, 128, 255⟩),
   ("green", ⟨0, 128, 0, 255⟩),
   ("greenyellow", ⟨173, 255, 47, 255⟩),
   ("honeydew", ⟨240, 255, 240, 255⟩),
   ("hotpink", ⟨255, 105, 180, 255⟩),
   ("indianred", ⟨205, 92, 92, 255⟩),
   ("indigo", ⟨75, 0, 130, 255⟩),
   ("ivory", ⟨255, 255, 240, 255⟩),
   ("khaki", ⟨240, 230, 140, 255⟩),
   ("lavender", ⟨230, 230, 250, 255⟩),
   ("lavenderblush", ⟨255, 240, 245, 255⟩),
   ("lawngreen", ⟨124, 252, 0, 255⟩),
   ("lemonchiffon", ⟨255, 250, 205, 255⟩),
   ("lightblue", ⟨173, 216, 230, 255⟩),
   ("lightcoral", ⟨240, 128, 128, 255⟩),
   ("lightcyan", ⟨224, 255, 255, 255⟩),
   ("lightgoldenrodyellow", ⟨250, 250, 210, 255⟩),
   ("lightgray", ⟨211, 211, 211, 255⟩),
   ("lightgreen", ⟨144, 238, 144, 255⟩),
   ("lightpink", ⟨255, 182, 193, 255⟩),
   ("lightsalmon", ⟨255, 160, 122, 255⟩),
   ("lightseagreen", ⟨32, 178, 170, 255⟩),
   ("lightskyblue", ⟨135, 206, 250, 255⟩),
   ("lightslategray", ⟨119, 136, 153, 255⟩),
   ("lightsteelblue", ⟨176, 196, 222, 255⟩),
   ("lightyellow", ⟨255, 255, 224, 255⟩),
   ("lime", ⟨0, 255, 0, 255⟩),
   ("limegreen", ⟨50, 205, 50, 255⟩),
   ("linen", ⟨250, 240, 230, 255⟩),
   ("magenta", ⟨255, 0, 255, 255⟩),
   ("maroon", ⟨128, 0, 0, 255⟩),
   ("mediumaquamarine", ⟨102, 205, 170, 255⟩),
   ("mediumblue", ⟨0, 0, 205, 255⟩),
   ("mediumorchid", ⟨186, 85, 211, 255⟩),
   ("mediumpurple", ⟨147, 112, 219, 255⟩),
   ("mediumseagreen", ⟨60, 179, 113, 255⟩),
   ("mediumslateblue", ⟨123, 104, 238, 255⟩),
   ("mediumspringgreen", ⟨0, 250, 154, 255⟩),
   ("mediumturquoise", ⟨72, 209, 204, 255⟩),
   ("mediumvioletred", ⟨199, 21, 133, 255⟩),
   ("midnightblue", ⟨25, 25, 112, 255⟩),
   ("mintcream", ⟨245, 255, 250, 255⟩),
   ("mistyrose", ⟨255, 228, 225, 255⟩),
   ("moccasin", ⟨255, 228, 181, 255⟩),
   ("navajowhite", ⟨255, 222, 173, 255⟩),
   ("navy", ⟨0, 0, 128, 255⟩),
   ("oldlace", ⟨253, 245, 230, 255⟩),
   ("olive", ⟨128, 128, 0, 255⟩),
   ("olivedrab", ⟨107, 142, 35, 255⟩),
   ("orange", ⟨255, 165, 0, 255⟩),
   ("orangered", ⟨255, 69, 0, 255⟩),
   ("orchid", ⟨218, 112, 214, 255⟩),
   ("palegoldenrod", ⟨238, 232, 170, 255⟩),
   ("palegreen", ⟨152, 251, 152, 255⟩),
   ("paleturquoise", ⟨175, 238, 238, 255⟩),
   ("palevioletred", ⟨219, 112, 147, 255⟩),
   ("papayawhip", ⟨255, 239, 213, 255⟩),
   ("peachpuff", ⟨255, 218, 185, 255⟩),
   ("peru", ⟨205, 133, 63, 255⟩),
   ("pink", ⟨255, 192, 203, 255⟩),
   ("plum", ⟨221, 160, 221, 255⟩),
   ("powderblue", ⟨176, 224, 230, 255⟩),
   ("purple", ⟨128, 0, 128, 255⟩),
   ("red", ⟨255, 0, 0, 255⟩),
   ("rosybrown", ⟨188, 143, 143, 255⟩),
   ("royalblue", ⟨65, 105, 225, 255⟩),
   ("saddlebrown", ⟨139, 69, 19, 255⟩),
   ("salmon", ⟨250, 128, 114, 255⟩),
   ("sandybrown", ⟨244, 164, 96, 255⟩),
   ("seagreen", ⟨46, 139, 87, 255⟩),
   ("seashell", ⟨255, 245, 238, 255⟩),
   ("sienna", ⟨160, 82, 45, 255⟩),
   ("silver", ⟨192, 192, 192, 255⟩),
   ("skyblue", ⟨135, 206, 235, 255⟩),
   ("slateblue", ⟨106, 90, 205, 255⟩),
   ("slategray", ⟨112, 128, 144, 255⟩),
   ("snow", ⟨255, 250, 250, 255⟩),
   ("springgreen", ⟨0, 255, 127, 255⟩),
   ("steelblue", ⟨70, 130, 180, 255⟩),
   ("tan", ⟨210, 180, 140, 255⟩),
   ("teal", ⟨0, 128, 128, 255⟩),
   ("thistle", ⟨216, 191, 216, 255⟩),
   ("tomato", ⟨255, 99, 71, 255⟩),
   ("turquoise", ⟨64, 224, 208, 255⟩),
   ("violet", ⟨238, 130, 238, 255⟩),
   ("wheat", ⟨245, 222, 179, 255⟩),
   ("white", ⟨255, 255, 255, 255⟩),
   ("whitesmoke", ⟨245, 245, 245, 255⟩),
   ("yellow", ⟨255, 255, 0, 255⟩),
   ("yellowgreen", ⟨154, 205, 50, 255⟩),
   ("buttonface", ⟨240, 240, 240, 255⟩),
   ("buttonhighlight", ⟨255, 255, 255, 255⟩),
   ("buttonshadow", ⟨160, 160, 160, 255⟩),
   ("gradientactivecaption", ⟨185, 209, 234, 255⟩),
   ("gradientinactivecaption", ⟨215, 228, 242, 255⟩),
   ("menubar", ⟨240, 240, 240, 255⟩),
   ("menuhighlight", ⟨51, 153, 255, 255⟩),
   ("grey", ⟨190, 190, 190, 255⟩)]

/-- GradientUtils.cpp:223-228 -/
def fromName (s : List Char) : Color :=
  match colorMap.lookup (String.ofList s) with
  | some c => c
  | none => ((colorMap.lookup "grey").getD {})

/-- GradientUtils.cpp:287-289 -/
def parseColor (s : List Char) : Outcome Color :=
  (charAt s 0).bind fun c => if c = '#' then fromHex s else .ok (fromName s)

end Verif.Color
