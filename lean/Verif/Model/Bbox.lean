import Mathlib.Algebra.Order.Field.Basic
import Mathlib.Algebra.Order.Group.Abs
import Verif.Model.Basic

/-!
# Bounding boxes: `core/src/BoundingBox.hpp`, `core/src/GeoCoordinate.hpp`

Numbers are an arbitrary linearly ordered field: NaN, infinities and rounding of `double` are outside
the model (the comparisons and min/max used here do not round).
-/
namespace Verif

/-- GeoCoordinate.hpp:9-35 (latitude, longitude). -/
structure Geo (α : Type) where
  lat : α
  lon : α
deriving DecidableEq, Repr

/-- BoundingBox.hpp:10-15 -/
structure Bbox (α : Type) where
  lo : Geo α
  hi : Geo α
deriving DecidableEq, Repr

namespace Bbox
variable {α : Type} [Field α] [LinearOrder α]

/-- BoundingBox.hpp:17-19, the default constructor. -/
def empty : Bbox α := ⟨⟨90, 180⟩, ⟨-90, -180⟩⟩

/-- BoundingBox.hpp:30-34 -/
def isValid (b : Bbox α) : Bool := decide (b.lo.lat ≤ b.hi.lat) && decide (b.lo.lon ≤ b.hi.lon)

/-- BoundingBox.hpp:37-43 -/
def expandBox (b r : Bbox α) : Bbox α :=
  ⟨⟨min b.lo.lat r.lo.lat, min b.lo.lon r.lo.lon⟩, ⟨max b.hi.lat r.hi.lat, max b.hi.lon r.hi.lon⟩⟩

/-- BoundingBox.hpp:46-54 -/
def expand (b : Bbox α) (c : Geo α) : Bbox α :=
  ⟨⟨min b.lo.lat c.lat, min b.lo.lon c.lon⟩, ⟨max b.hi.lat c.lat, max b.hi.lon c.lon⟩⟩

/-- BoundingBox.hpp:57-61, the iterator version. -/
def expandAll (b : Bbox α) : List (Geo α) → Bbox α
  | [] => b
  | c :: cs => expandAll (expand b c) cs

/-- BoundingBox.hpp:69-72 -/
def containsPoint (b : Bbox α) (c : Geo α) : Bool :=
  decide (c.lat > b.lo.lat) && decide (c.lon > b.lo.lon) &&
  decide (c.lat < b.hi.lat) && decide (c.lon < b.hi.lon)

/-- BoundingBox.hpp:64-66 -/
def containsBox (b r : Bbox α) : Bool := containsPoint b r.lo && containsPoint b r.hi

/-- BoundingBox.hpp:75-82 -/
def intersects (b r : Bbox α) : Bool :=
  decide (max r.lo.lat b.lo.lat ≤ min r.hi.lat b.hi.lat) &&
  decide (max r.lo.lon b.lo.lon ≤ min r.hi.lon b.hi.lon)

/-- BoundingBox.hpp:85-89 -/
def center (b : Bbox α) : Geo α :=
  ⟨b.lo.lat + (b.hi.lat - b.lo.lat) / 2, b.lo.lon + (b.hi.lon - b.lo.lon) / 2⟩

/-- BoundingBox.hpp:92-94 -/
def width (b : Bbox α) : α := b.hi.lon - b.lo.lon
/-- BoundingBox.hpp:97-99 -/
def height (b : Bbox α) : α := b.hi.lat - b.lo.lat

end Bbox

/-- GeoCoordinate.hpp:31-34 `isValid` -/
def Geo.isValid {α : Type} [Field α] [LinearOrder α] (c : Geo α) : Bool :=
  decide (c.lat > -90) && decide (c.lat < 90) && decide (c.lon > -180) && decide (c.lon < 180)

/-- `std::numeric_limits<double>::epsilon()` = 2^-52. -/
def dblEpsilon {α : Type} [Field α] : α := 1 / 2 ^ 52

/-- GeoCoordinate.hpp:26-29 `operator==`: equality up to epsilon. -/
def Geo.eq {α : Type} [Field α] [LinearOrder α] (a b : Geo α) : Bool :=
  decide (|a.lat - b.lat| < dblEpsilon) && decide (|a.lon - b.lon| < dblEpsilon)

end Verif
