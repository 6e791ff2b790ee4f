import Mathlib.Algebra.Order.Field.Basic
import Verif.Model.Polygon

/-! # Geometry helpers

Models utils/GeometryUtils.hpp and `isPointInPolygon` of utils/GeoUtils.hpp over an ordered field instead of `double`. -/
namespace Verif.Geometry
open Verif.Polygon (Vec)

variable {K : Type} [Field K] [LinearOrder K]

/-- GeometryUtils.hpp:116-137. `none` stands for the returned `numeric_limits<double>::lowest()`. -/
def getIntersection (start1 end1 start2 end2 : Vec K) : Option K :=
  let denom := (end1.x - start1.x) * (end2.y - start2.y) - (end1.y - start1.y) * (end2.x - start2.x)
  if denom = 0 then none
  else
    let numer := (start1.y - start2.y) * (end2.x - start2.x) - (start1.x - start2.x) * (end2.y - start2.y)
    let r := numer / denom
    let numer2 := (start1.y - start2.y) * (end1.x - start1.x) - (start1.x - start2.x) * (end1.y - start1.y)
    let s := numer2 / denom
    if (r < 0 ∨ r > 1) ∨ (s < 0 ∨ s > 1) then none else some r

/-- GeometryUtils.hpp:140-144 -/
def getPointAlongLine (start finish : Vec K) (r : K) : Vec K := ⟨start.x + r * (finish.x - start.x), start.y + r * (finish.y - start.y)⟩

/-- GeoUtils.hpp:95-97, one edge; the latitude is `y`, the longitude `x`. -/
def geoCrossing (point i j : Vec K) : Bool :=
  (decide (i.y > point.y) != decide (j.y > point.y)) && decide (point.x < (j.x - i.x) * (point.y - i.y) / (j.y - i.y) + i.x)

/-- GeoUtils.hpp:94-99, the loop: `j` is the previous point -/
def geoParity (point : Vec K) (j : Vec K) : List (Vec K) → Bool → Bool
  | [], c => c
  | i :: rest, c => geoParity point i rest (if geoCrossing point i j then !c else c)

/-- GeoUtils.hpp:91-101 (called for non-empty rings only; `end - 1` of an empty one would be undefined) -/
def isPointInRing (point : Vec K) (ring : List (Vec K)) : Bool :=
  match ring.getLast? with
  | none => false
  | some last => geoParity point last ring false

/-- formats/osm/MultipolygonProcessor.cpp:63-67 -/
def containsRing (ring other : List (Vec K)) : Bool := other.all fun c => isPointInRing c ring

/-- GeometryUtils.hpp:71-87 `getCentroid` for the points of a range -/
def getCentroid (points : List (Vec K)) : Vec K :=
  let sum := points.foldl (fun (s : Vec K) p => ⟨s.x + p.x, s.y + p.y⟩) ⟨0, 0⟩
  ⟨sum.x / (points.length : K), sum.y / (points.length : K)⟩

end Verif.Geometry
