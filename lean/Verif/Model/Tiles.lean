import Verif.Model.Basic

/-!
# Tiles: `core/src/QuadKey.hpp`, `core/src/LodRange.hpp`, file names of tiles
-/
namespace Verif

/-- QuadKey.hpp:7-38 (`int` fields; machine overflow is outside the model). -/
structure QuadKey where
  lod : Int
  x : Int
  y : Int
deriving DecidableEq, Repr

namespace QuadKey

/-- QuadKey.hpp:8-18 `Comparator` -/
def lt (l r : QuadKey) : Bool :=
  if l.lod = r.lod then
    if l.x = r.x then decide (l.y < r.y) else decide (l.x < r.x)
  else decide (l.lod < r.lod)

/-- QuadKey.hpp:34-37 `operator==` -/
def eq (l r : QuadKey) : Bool := decide (l.lod = r.lod) && decide (l.x = r.x) && decide (l.y = r.y)

end QuadKey

/-- LodRange.hpp:11-24 -/
structure LodRange where
  start : Int
  stop : Int
deriving DecidableEq, Repr

/-- GeoUtils.hpp:22-23 -/
def minLod : Int := 1
def maxLod : Int := 19

/-- LodRange.hpp:17-23, the constructor. -/
def LodRange.make (s e : Int) : Outcome LodRange :=
  if s < minLod ∨ s > maxLod ∨ e < minLod ∨ e > maxLod then .throw "domain_error" else .ok ⟨s, e⟩

/-- LodRange.hpp:15, the default constructor. -/
def LodRange.default : Outcome LodRange := LodRange.make 0 0

/-- The values taken by `for (int i = s; i <= e; ++i)`. -/
def intRange (s e : Int) : List Int :=
  (List.range (e - s + 1).toNat).map (fun i : Nat => s + (i : Int))

/-- The loop `for (int lod = range.start; lod <= range.end; ++lod)`, ElementStore.cpp:69. -/
def LodRange.lods (r : LodRange) : List Int := intRange r.start r.stop

/-- `(value & (1 << n)) != 0` on a two's complement integer. -/
def bitSet (value : Int) (n : Nat) : Bool := value / 2 ^ n % 2 ≠ 0

/-- GeoUtils.hpp:58-66: one character of the code. -/
def quadDigit (q : QuadKey) (n : Nat) : Char :=
  match bitSet q.x n, bitSet q.y n with
  | false, false => '0'
  | true, false => '1'
  | false, true => '2'
  | true, true => '3'

/-- GeoUtils.hpp:57-67: the loop from bit `n - 1` down to bit 0. -/
def quadCode (q : QuadKey) : Nat → List Char
  | 0 => []
  | n + 1 => quadDigit q n :: quadCode q n

/-- GeoUtils.hpp:54-69 `quadKeyToString`; `1 << (i - 1)` is defined for lods up to 31. -/
def quadKeyToString (q : QuadKey) : List Char := quadCode q q.lod.toNat

/-- PersistentElementStore.cpp:222-227 `getFilePath`; MeshCache.cpp:89-95 has the same form with the root
`dataPath_ + "/cache/" + tag`. -/
def tilePath (root : List Char) (q : QuadKey) (extension : List Char) : List Char :=
  root ++ '/' :: ((toString q.lod).toList ++ '/' :: (quadKeyToString q ++ extension))

/-- The file extensions, PersistentElementStore.cpp:21-23 and MeshCache.cpp (constructor argument). -/
def dataExt : List Char := ".dat".toList
def indexExt : List Char := ".idf".toList
def bitmapExt : List Char := ".bmp".toList

end Verif
