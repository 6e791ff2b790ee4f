import Verif.Model.Basic
import Verif.Model.Bbox
import Verif.Model.Element
import Mathlib.Algebra.Order.Group.Abs
import Mathlib.Algebra.Order.Field.Basic

/-!
# `core/src/formats/osm/OsmDataVisitor.cpp`, nodes and ways; tags of `core/src/utils/ElementUtils.hpp`

Coordinates are elements of an ordered field, `eps` is `numeric_limits<double>::epsilon()`. The string table is the function `getId`.
`std::sort` is a parameter: any function which sorts by key; it need not be stable.
-/
namespace Verif.Osm

variable {K : Type} [Field K] [LinearOrder K] [IsStrictOrderedRing K]

/-- GeoCoordinate.hpp:26-29 -/
def geoEq (eps : K) (a b : Geo K) : Bool := decide (|a.lat - b.lat| < eps) && decide (|a.lon - b.lon| < eps)

/-- One term of utils/GeometryUtils.hpp:22 -/
def cross (p q : Geo K) : K := p.lon * q.lat - q.lon * p.lat

/-- The loop of utils/GeometryUtils.hpp:21-22, `p` being the previous point. -/
def edges (p : Geo K) : List (Geo K) → K
  | [] => 0
  | q :: l => cross p q + edges q l

/-- utils/GeometryUtils.hpp:18-24; the order of the additions is not observable in a field. -/
def getArea (l : List (Geo K)) : K :=
  match l.getLast? with
  | none => 0
  | some p => edges p l

/-- utils/GeometryUtils.hpp:28-30 -/
def isClockwise (l : List (Geo K)) : Bool := decide (getArea l < 0)

/-- formats/FormatTypes.hpp:20-31 -/
structure RawTag where
  key : String
  value : String

/-- utils/ElementUtils.hpp:16-26 for a new element, and 29-39 -/
def convertTags (getId : String → UInt32) (sort : List Tag → List Tag) (tags : List RawTag) : List Tag :=
  sort (tags.map fun t => ⟨getId t.key, getId t.value⟩)

/-- `std::unique` with equality of keys: the first of each run of neighbours, MultipolygonProcessor.cpp:288-290. -/
def uniqueKeys : List Tag → List Tag
  | [] => []
  | [t] => [t]
  | t :: u :: l => if t.key = u.key then uniqueKeys (t :: l) else t :: uniqueKeys (u :: l)

/-- formats/osm/MultipolygonProcessor.cpp:280-291 -/
def mergeTags (sort : List Tag → List Tag) (dest tags : List Tag) : List Tag := uniqueKeys (sort (dest ++ tags))

/-- entities/Node.hpp -/
structure Node (K : Type) where
  id : UInt64
  tags : List Tag
  coordinate : Geo K

/-- entities/Way.hpp and Area.hpp -/
structure Path (K : Type) where
  id : UInt64
  tags : List Tag
  coordinates : List (Geo K)

/-- formats/osm/OsmDataContext.hpp:13-23 without relations, see `Verif.OsmRelations`. -/
structure Context (K : Type) where
  nodeMap : Assoc UInt64 (Node K) := []
  wayMap : Assoc UInt64 (Path K) := []
  areaMap : Assoc UInt64 (Path K) := []

/-- formats/osm/OsmDataVisitor.cpp:22-28 -/
def visitNode (getId : String → UInt32) (sort : List Tag → List Tag) (ctx : Context K) (id : UInt64) (c : Geo K) (tags : List RawTag) :
    Context K :=
  { ctx with nodeMap := ctx.nodeMap.set id ⟨id, convertTags getId sort tags, c⟩ }

/-- formats/osm/OsmDataVisitor.cpp:33-35; `operator[]` inserts a null pointer for a missing node, which is then dereferenced. -/
def nodeCoordinates (ctx : Context K) : List UInt64 → Outcome (List (Geo K))
  | [] => .ok []
  | n :: ns => match ctx.nodeMap.find n with
    | none => .ub "null node"
    | some node => (nodeCoordinates ctx ns).bind fun l => .ok (node.coordinate :: l)

/-- formats/osm/OsmDataVisitor.cpp:30-56 -/
def visitWay (eps : K) (getId : String → UInt32) (sort : List Tag → List Tag) (ctx : Context K) (id : UInt64) (nodeIds : List UInt64)
    (tags : List RawTag) : Outcome (Context K) :=
  (nodeCoordinates ctx nodeIds).bind fun cs =>
    let way : Path K := ⟨id, convertTags getId sort tags, cs⟩
    match cs.head?, cs.getLast? with
    | some a, some z =>
      if 3 < cs.length ∧ geoEq eps a z = true then
        let cs := cs.dropLast
        let cs := if isClockwise cs then cs.reverse else cs
        .ok { ctx with areaMap := ctx.areaMap.set id ⟨id, convertTags getId sort tags, cs⟩ }
      else .ok { ctx with wayMap := ctx.wayMap.set id way }
    | _, _ => .ok { ctx with wayMap := ctx.wayMap.set id way }

end Verif.Osm
