import Mathlib.Algebra.Order.Floor.Ring
import Mathlib.Algebra.Order.Field.Basic
import Mathlib.Data.Nat.Sqrt
import Verif.Model.Basic

/-! # Elevation providers

Models heightmap/GridElevationProvider.hpp and heightmap/SrtmElevationProvider.hpp. Coordinates are elements of an ordered field with floor
instead of `double`; `int` is an unbounded integer (`C40_no_overflow` shows that the differences of coordinates of a tile fit). The caches
`data_` and `cells_` are read outside of the lock (GridElevationProvider.hpp:49, SrtmElevationProvider.hpp:98); threads are not modelled here but, for
grids, in Model/LazyTable.lean. -/
namespace Verif.Elevation

variable {K : Type} [Field K] [LinearOrder K] [IsStrictOrderedRing K] [FloorRing K]

/-- `static_cast<int>` of a double: truncation towards zero. -/
def trunc (x : K) : Int := if 0 ≤ x then ⌊x⌋ else ⌈x⌉

/-- GridElevationProvider.hpp:84, SrtmElevationProvider.hpp:140 -/
def bilinear (height0 height1 height2 height3 : Int) (dx dy : K) : K :=
  height0 * dy * (1 - dx) + height1 * dy * dx + height2 * (1 - dy) * (1 - dx) + height3 * (1 - dy) * dx

/-- `v[i]`: undefined outside of the vector. -/
def at_ {α : Type} (v : List α) (i : Int) : Outcome α :=
  if i < 0 then .ub "index out of range"
  else match v[i.toNat]? with
    | some a => .ok a
    | none => .ub "index out of range"

/-! ## Grid -/

/-- GridElevationProvider.hpp:25-33 -/
structure EleData where
  xStart : Int
  yStart : Int
  xStep : Int
  yStep : Int
  resolution : Int
  heights : List Int

/-- GridElevationProvider.hpp:35 -/
def scale : K := 10000000

/-- GridElevationProvider.hpp:116-127 for the numbers read from the file and the box `(minLat, minLon)`-`(maxLat, maxLon)` of the tile.
With a single row the division by the resolution zero gives infinity, whose conversion to `int` is undefined. -/
def load (heights : List Int) (minLat minLon maxLat maxLon : K) : Outcome EleData :=
  if heights.isEmpty then .throw "domain_error"
  else
    let resolution : Int := (Nat.sqrt heights.length : Int) - 1
    if resolution = 0 then .ub "conversion of infinity"
    else .ok {
      xStart := trunc (minLon * scale)
      yStart := trunc (minLat * scale)
      xStep := trunc ((maxLon - minLon) / (resolution : K) * scale)
      yStep := trunc ((maxLat - minLat) / (resolution : K) * scale)
      resolution := resolution
      heights := heights }

/-- GridElevationProvider.hpp:89-91 -/
def clamp (n lower upper : Int) : Int := max lower (min n upper)

/-- GridElevationProvider.hpp:55-84 -/
def getElevation (d : EleData) (latitude longitude : K) : Outcome K :=
  let x := trunc (longitude * scale) - d.xStart
  let y := trunc (latitude * scale) - d.yStart
  if d.xStep = 0 ∨ d.yStep = 0 then .ub "division by zero"
  else
    let x0 := clamp (x.tdiv d.xStep) 0 d.resolution
    let y0 := clamp (y.tdiv d.yStep) 0 d.resolution
    let x1 := min (x0 + 1) d.resolution
    let y1 := min (y0 + 1) d.resolution
    let dx : K := ((x - x0 * d.xStep : Int) : K) / (d.xStep : K)
    let dy : K := ((y - y0 * d.yStep : Int) : K) / (d.yStep : K)
    let cellSize := d.resolution + 1
    (at_ d.heights (x0 + y0 * cellSize)).bind fun height2 =>
    (at_ d.heights (x0 + y1 * cellSize)).bind fun height0 =>
    (at_ d.heights (x1 + y0 * cellSize)).bind fun height3 =>
    (at_ d.heights (x1 + y1 * cellSize)).bind fun height1 =>
    .ok (bilinear height0 height1 height2 height3 dx dy)

/-! ## SRTM -/

/-- SrtmElevationProvider.hpp:24-32: the order of the keys is the lexicographic one, so keys are equal if both numbers are. -/
abbrev Key := Int × Int

/-- SrtmElevationProvider.hpp:29-31 -/
def keyLt (a b : Key) : Bool := a.1 < b.1 || (b.1 ≥ a.1 && a.2 < b.2)

/-- SrtmElevationProvider.hpp:34-44; a byte of the file is a `char`. -/
structure Cell where
  totalPx : Int
  secondsPerPx : Int
  offset : Int
  data : List UInt8

/-- A file name: letters and numbers, SrtmElevationProvider.hpp:175-185; the decimal digits are left out. -/
structure FileName where
  ns : Char
  lat : Nat
  ew : Char
  lon : Nat
deriving DecidableEq

/-- SrtmElevationProvider.hpp:175-185 -/
def fileName (k : Key) : FileName := ⟨if k.1 > 0 then 'N' else 'S', k.1.natAbs, if k.2 > 0 then 'E' else 'W', k.2.natAbs⟩

/-- SrtmElevationProvider.hpp:148-173; a missing file is created empty by the open mode and then refused. -/
def readCell (file : Option (List UInt8)) : Outcome Cell :=
  match file with
  | none => .throw "domain_error"
  | some data =>
    if data.length = 1201 * 1201 * 2 then .ok ⟨1201, 3, (1201 * 1201 - 1201) * 2, data⟩
    else if data.length = 3601 * 3601 * 2 then .ok ⟨3601, 1, (3601 * 3601 - 3601) * 2, data⟩
    else .throw "domain_error"

/-- The value of a `char`, which is signed on some platforms and unsigned on others. -/
def charValue (signed : Bool) (b : UInt8) : Int := if signed ∧ 128 ≤ b.toNat then (b.toNat : Int) - 256 else b.toNat

/-- `a << 8 | b` for `int`s `a`, `b` with `-256 ≤ b < 256`: for negative `b` all bits from the eighth on are set. The shift of a negative
number is taken as multiplication, as compilers do. -/
def shiftOr (a b : Int) : Int := if b < 0 then b else a * 256 + b

/-- SrtmElevationProvider.hpp:143-146 -/
def readPx (signed : Bool) (cell : Cell) (y x : Int) : Outcome Int :=
  let pos := cell.offset + 2 * (x - cell.totalPx * y)
  (at_ cell.data pos).bind fun b0 => (at_ cell.data (pos + 1)).bind fun b1 => .ok (shiftOr (charValue signed b0) (charValue signed b1))

/-- SrtmElevationProvider.hpp:78-87, the two loops as one list of keys. -/
def loadCells (file : FileName → Option (List UInt8)) : List Key → Assoc Key Cell → Outcome (Assoc Key Cell)
  | [], cells => .ok cells
  | k :: ks, cells =>
    match cells.find k with
    | some _ => loadCells file ks cells
    | none => (readCell (file (fileName k))).bind fun c => loadCells file ks (cells.emplace k c)

/-- The keys visited by SrtmElevationProvider.hpp:69-79 for a box. -/
def cellKeys (minLat minLon maxLat maxLon : K) : List Key :=
  (List.range (trunc maxLat - trunc minLat + 1).toNat).flatMap fun (j : Nat) =>
    (List.range (trunc maxLon - trunc minLon + 1).toNat).map fun (i : Nat) => (trunc minLat + (j : Int), trunc minLon + (i : Int))

/-- `std::fmod` -/
def fmod (a b : K) : K := a - b * (trunc (a / b) : K)

/-- SrtmElevationProvider.hpp:113-140 -/
def interpolate (signed : Bool) (cell : Cell) (secondsLat secondsLon : K) : Outcome K :=
  let y := trunc (secondsLat / (cell.secondsPerPx : K))
  let x := trunc (secondsLon / (cell.secondsPerPx : K))
  (readPx signed cell y x).bind fun height2 =>
  (readPx signed cell (y + 1) x).bind fun height0 =>
  (readPx signed cell y (x + 1)).bind fun height3 =>
  (readPx signed cell (y + 1) (x + 1)).bind fun height1 =>
  let dy := fmod secondsLat (cell.secondsPerPx : K) / (cell.secondsPerPx : K)
  let dx := fmod secondsLon (cell.secondsPerPx : K) / (cell.secondsPerPx : K)
  .ok (bilinear height0 height1 height2 height3 dx dy)

/-- SrtmElevationProvider.hpp:90-141 for a tile with the given box; a key still missing after loading makes the code use the end iterator. -/
def getSrtm (signed : Bool) (file : FileName → Option (List UInt8)) (cells : Assoc Key Cell) (minLat minLon maxLat maxLon : K)
    (latitude longitude : K) : Outcome (Assoc Key Cell × K) :=
  let key : Key := (trunc latitude, trunc longitude)
  let secondsLat := (latitude - (trunc latitude : K)) * 3600
  let secondsLon := (longitude - (trunc longitude : K)) * 3600
  match cells.find key with
  | some cell => (interpolate signed cell secondsLat secondsLon).bind fun h => .ok (cells, h)
  | none =>
    (loadCells file (cellKeys minLat minLon maxLat maxLon) cells).bind fun cells =>
      match cells.find key with
      | some cell => (interpolate signed cell secondsLat secondsLon).bind fun h => .ok (cells, h)
      | none => .ub "end iterator"

end Verif.Elevation
