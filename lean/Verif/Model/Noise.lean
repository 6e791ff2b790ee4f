import Mathlib.Algebra.Order.Floor.Ring
import Mathlib.Algebra.Order.Field.Basic
import Verif.Model.Basic
import Verif.Model.MeshBuilder

/-! # Noise

Models `perlin2D` of utils/NoiseUtils.cpp and its use for colors in utils/GradientUtils.hpp over an ordered field instead of `double`. The three
dimensional noise is used by tests only and not modelled. -/
namespace Verif.Noise
open Verif.MeshBuilder (Vec2)

variable {K : Type} [Field K] [LinearOrder K] [FloorRing K]

/-- NoiseUtils.cpp:10-25 -/
def hashRow : List Nat :=
  [151, 160, 137, 91, 90, 15, 131, 13, 201, 95, 96, 53, 194, 233, 7, 225, 140, 36, 103, 30, 69, 142, 8, 99, 37, 240, 21, 10, 23, 190, 6, 148,
   247, 120, 234, 75, 0, 26, 197, 62, 94, 252, 219, 203, 117, 35, 11, 32, 57, 177, 33, 88, 237, 149, 56, 87, 174, 20, 125, 136, 171, 168, 68, 175,
   74, 165, 71, 134, 139, 48, 27, 166, 77, 146, 158, 231, 83, 111, 229, 122, 60, 211, 133, 230, 220, 105, 92, 41, 55, 46, 245, 40, 244, 102, 143, 54,
   65, 25, 63, 161, 1, 216, 80, 73, 209, 76, 132, 187, 208, 89, 18, 169, 200, 196, 135, 130, 116, 188, 159, 86, 164, 100, 109, 198, 173, 186, 3, 64,
   52, 217, 226, 250, 124, 123, 5, 202, 38, 147, 118, 126, 255, 82, 85, 212, 207, 206, 59, 227, 47, 16, 58, 17, 182, 189, 28, 42, 223, 183, 170, 213,
   119, 248, 152, 2, 44, 154, 163, 70, 221, 153, 101, 155, 167, 43, 172, 9, 129, 22, 39, 253, 19, 98, 108, 110, 79, 113, 224, 232, 178, 185, 112, 104,
   218, 246, 97, 228, 251, 34, 242, 193, 238, 210, 144, 12, 191, 179, 162, 241, 81, 51, 145, 235, 249, 14, 239, 107, 49, 192, 214, 31, 181, 199, 106, 157,
   184, 84, 204, 176, 115, 121, 50, 45, 127, 4, 150, 254, 138, 236, 205, 93, 222, 114, 67, 29, 24, 72, 243, 141, 128, 195, 78, 66, 215, 61, 156, 180]

/-- NoiseUtils.cpp:8-42: the code spells the 256 numbers twice. -/
def hashTable : List Nat := hashRow ++ hashRow

/-- NoiseUtils.cpp:44-54; `sqr2` is the square root of two (6). -/
def gradients2D (sqr2 : K) : List (Vec2 K) :=
  [⟨1, 0⟩, ⟨-1, 0⟩, ⟨0, 1⟩, ⟨0, -1⟩, ⟨1 / sqr2, 1 / sqr2⟩, ⟨-1 / sqr2, 1 / sqr2⟩, ⟨1 / sqr2, -1 / sqr2⟩, ⟨-1 / sqr2, -1 / sqr2⟩]

/-- Reading an array outside of its bounds is undefined. -/
def readAt {α : Type} (l : List α) (i : Nat) : Outcome α :=
  match l[i]? with
  | some a => .ok a
  | none => .ub "index out of range"

/-- `static_cast<int>(std::floor(value))`: undefined outside of the range of `int` -/
def toInt (value : K) : Outcome Int := if -2 ^ 31 ≤ ⌊value⌋ ∧ ⌊value⌋ < 2 ^ 31 then .ok ⌊value⌋ else .ub "conversion to int"

/-- `index &= HashMask` (HashMask is 255) for a two's complement `int` -/
def mask (index : Int) : Nat := (index % 256).toNat

/-- NoiseUtils.hpp:26-28 -/
def dot (g : Vec2 K) (x y : K) : K := g.x * x + g.y * y

/-- NoiseUtils.hpp:30-32 -/
def smooth (t : K) : K := t * t * t * (t * (t * 6 - 15) + 10)

/-- NoiseUtils.cpp:94-97: `Gradients2D[Hash[h + i] & GradientsMask2D]` -/
def gradientAt (sqr2 : K) (h i : Nat) : Outcome (Vec2 K) := (readAt hashTable (h + i)).bind fun n => readAt (gradients2D sqr2) (n % 8)

/-- NoiseUtils.cpp:99-112 -/
def blend (sqr2 : K) (g00 g10 g01 g11 : Vec2 K) (tx0 ty0 : K) : K :=
  let tx1 := tx0 - 1
  let ty1 := ty0 - 1
  let v00 := dot g00 tx0 ty0
  let v10 := dot g10 tx1 ty0
  let v01 := dot g01 tx0 ty1
  let v11 := dot g11 tx1 ty1
  let tx := smooth tx0
  let ty := smooth ty0
  let a := v00
  let b := v10 - v00
  let c := v01 - v00
  let d := v11 - v01 - v10 + v00
  (a + b * tx + (c + d * tx) * ty) * sqr2

/-- NoiseUtils.cpp:76-113 -/
def perlin2D (sqr2 : K) (x y frequency : K) : Outcome K :=
  if frequency < 1 / 100000 then .ok 0
  else
    (toInt (x * frequency)).bind fun ix0 => (toInt (y * frequency)).bind fun iy0 =>
    let tx0 := x * frequency - (ix0 : K)
    let ty0 := y * frequency - (iy0 : K)
    let ix0 := mask ix0
    let iy0 := mask iy0
    let ix1 := ix0 + 1
    let iy1 := iy0 + 1
    (readAt hashTable ix0).bind fun h0 => (readAt hashTable ix1).bind fun h1 =>
    (gradientAt sqr2 h0 iy0).bind fun g00 => (gradientAt sqr2 h1 iy0).bind fun g10 =>
    (gradientAt sqr2 h0 iy1).bind fun g01 => (gradientAt sqr2 h1 iy1).bind fun g11 =>
    .ok (blend sqr2 g00 g10 g01 g11 tx0 ty0)

/-- GradientUtils.hpp:37-41 (also MeshBuilder.cpp:210-211, 241-242): the time for which the gradient is evaluated -/
def colorTime (sqr2 : K) (x y frequency : K) : Outcome K := (perlin2D sqr2 x y frequency).bind fun n => .ok ((n + 1) / 2)

end Verif.Noise
