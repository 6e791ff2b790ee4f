import Verif.Model.Geometry
import Verif.Model.Multipolygon

/-! # The test of rings which multipolygons use -/
namespace Verif.RingContains
open Verif.Polygon (Vec)

variable {K : Type} [Field K] [LinearOrder K]

/-- GeoUtils.hpp:91-101: the latitude is `y`, the longitude `x`. -/
def point (g : Geo K) : Vec K := ⟨g.lon, g.lat⟩

/-- MultipolygonProcessor.cpp:63-67 for coordinates, over an ordered field instead of `double`. -/
def contains (ring other : List (Geo K)) : Bool := Geometry.containsRing (ring.map point) (other.map point)

end Verif.RingContains
