import Verif.Model.Building
import Verif.Props.PolygonSpec
import Verif.Props.ShownSpec
import Verif.Props.OsmSpec
import Verif.Props.SolidsSpec

/-! # Specification of buildings -/
namespace Verif.BuildingSpec
open Verif.MeshBuilder Verif.ShownSpec Verif.PolygonSpec
open Verif.Polygon (Vec Poly)
open Verif.Building (Look Style Env)

variable {K : Type} [Field K] [LinearOrder K]

/-! ## Parts of a building -/

/-- A part of a building: its style and its rings; `true` marks holes. -/
structure Part (K : Type) where
  style : Style K
  rings : List (List (Vec K) × Bool)

/-- East and north of a coordinate. -/
def ground (c : Geo K) : Vec K := ⟨c.lon, c.lat⟩

mutual
/-- The rings of a multipolygon: all of its areas, also of nested relations. Rings with a negative signed area are holes. -/
def rings : Element (Geo K) → List (List (Vec K) × Bool)
  | .area _ _ cs => [(cs.map ground, decide (Osm.getArea cs < 0))]
  | .relation _ _ ms => ringsOf ms
  | _ => []

/-- The rings of some members. -/
def ringsOf : List (Element (Geo K)) → List (List (Vec K) × Bool)
  | [] => []
  | m :: ms => rings m ++ ringsOf ms
end

mutual
/-- There are only areas in it. -/
def OnlyAreas : Element (Geo K) → Prop
  | .area .. => True
  | .relation _ _ ms => OnlyAreasIn ms
  | _ => False

/-- There are only areas in them. -/
def OnlyAreasIn : List (Element (Geo K)) → Prop
  | [] => True
  | m :: ms => OnlyAreas m ∧ OnlyAreasIn ms
end

/-- A relation which is a building with holes. -/
def IsMultipolygon (style : Element (Geo K) → Style K) (e : Element (Geo K)) : Prop :=
  (style e).multipolygon = true ∧ (style e).building = true

instance (style : Element (Geo K) → Style K) (e : Element (Geo K)) : Decidable (IsMultipolygon style e) := inferInstanceAs (Decidable (_ ∧ _))

mutual
/-- The parts of an element: an area which is a building is a part, a multipolygon which is a building is a part, and the parts of another relation
are those of its members. -/
def parts (style : Element (Geo K) → Style K) : Element (Geo K) → List (Part K)
  | .area id tags cs => if (style (.area id tags cs)).building then [⟨style (.area id tags cs), [(cs.map ground, false)]⟩] else []
  | .relation id tags ms =>
    if ms = [] then []
    else if IsMultipolygon style (.relation id tags ms) then [⟨style (.relation id tags ms), ringsOf ms⟩]
    else partsOf style ms
  | _ => []

/-- The parts of some members. -/
def partsOf (style : Element (Geo K) → Style K) : List (Element (Geo K)) → List (Part K)
  | [] => []
  | m :: ms => parts style m ++ partsOf style ms
end

mutual
/-- All multipolygons in the element consist of areas only. -/
def Fine (style : Element (Geo K) → Style K) : Element (Geo K) → Prop
  | .relation id tags ms => (IsMultipolygon style (.relation id tags ms) → OnlyAreasIn ms) ∧ FineAll style ms
  | _ => True

/-- All multipolygons in these elements consist of areas only. -/
def FineAll (style : Element (Geo K) → Style K) : List (Element (Geo K)) → Prop
  | [] => True
  | m :: ms => Fine style m ∧ FineAll style ms
end

/-- The elements for which a mesh is delivered: areas which are buildings, and relations with members, unless they are marked as part of another
relation. -/
def Delivered (style : Element (Geo K) → Style K) : Element (Geo K) → Bool
  | .area id tags cs => !Building.hasIgnore tags && (style (.area id tags cs)).building
  | .relation _ tags ms => !Building.hasIgnore tags && !ms.isEmpty
  | _ => false

/-- A part is drawn with a polygon of its own. -/
def drawPart (env : Env K) (id : UInt64) (m : Mesh K) (part : Part K) : Outcome (Mesh K) :=
  (Polygon.addAll env.epsilon env.huge env.tiny { rectangle := .empty env.huge env.tiny } part.rings).bind fun p => Building.draw env part.style id p m

/-- All parts are drawn one after the other to one mesh. -/
def drawParts (env : Env K) (id : UInt64) : Mesh K → List (Part K) → Outcome (Mesh K)
  | m, [] => .ok m
  | m, part :: rest => (drawPart env id m part).bind fun m => drawParts env id m rest

/-- One mesh for each of these elements, named by its id; the first error stops. -/
def meshesOf (env : Env K) : List (Element (Geo K)) → Outcome (List (UInt64 × Mesh K))
  | [] => .ok []
  | e :: es => (drawParts env e.id {} (parts env.style e)).bind fun m => (meshesOf env es).bind fun rest => .ok ((e.id, m) :: rest)

/-! ## Faces of a part -/

/-- The edges of a ring: from each point to the next one, the first edge begins at the last point. -/
def ringEdges {β : Type} (ring : List β) : List (β × β) :=
  match ring.getLast? with
  | none => []
  | some last => (last :: ring.dropLast).zip ring

/-- The two triangles of a wall from `a` to `b`. -/
def wallFaces (look : Look K) (bottom top : K) (a b : Vec K) : List (Triangle K) :=
  let scale := look.planeScale ⟨a.x, bottom, a.y⟩ ⟨b.x, bottom, b.y⟩ (top - bottom)
  let color := look.planeColor ⟨a.x, bottom, a.y⟩
  let bottomA : Corner K := ⟨⟨a.x, bottom, a.y⟩, color, ⟨0, 0⟩⟩
  let bottomB : Corner K := ⟨⟨b.x, bottom, b.y⟩, color, ⟨scale.1, 0⟩⟩
  let topA : Corner K := ⟨⟨a.x, top, a.y⟩, color, ⟨0, scale.2⟩⟩
  let topB : Corner K := ⟨⟨b.x, top, b.y⟩, color, ⟨scale.1, scale.2⟩⟩
  [(bottomA, topB, bottomB), (topA, topB, bottomA)]

/-- The walls of a ring: one for each edge. -/
def ringWalls (look : Look K) (bottom top : K) (ring : List (Vec K)) : List (Triangle K) :=
  (ringEdges ring).reverse.flatMap fun e => wallFaces look bottom top e.1 e.2

/-- The faces are the triangles of the triangle library at this height, seen from below (`flip`) or from above. -/
def FlatFaces (look : Look K) (height : K) (flip : Bool) (io : TriangleIo K) (ts : List (Triangle K)) : Prop :=
  List.Forall₂ (fun c t => ∃ a b d : Corner K, IsPoint io (fun _ q => (height, look.pointColor q, look.pointUv q)) c.1 a ∧
    IsPoint io (fun _ q => (height, look.pointColor q, look.pointUv q)) c.2.1 b ∧
    IsPoint io (fun _ q => (height, look.pointColor q, look.pointUv q)) c.2.2 d ∧
    if flip then SameSide t (a, b, d) else OtherSide t (a, b, d)) io.triangles ts

/-- The mean of some points. -/
def mean (ring : List (Vec K)) : Vec K := ⟨(ring.map Vec.x).sum / (ring.length : K), (ring.map Vec.y).sum / (ring.length : K)⟩

/-- The triangles from the edges of a ring to a point above its middle. The edges are in order, the one which closes the ring is the last. -/
def pyramid (look : Look K) (bottom height : K) (ring : List (Vec K)) : List (Triangle K) :=
  (ring.zip (ring.tail ++ ring.take 1)).map fun e =>
    let color := look.triangleColor ⟨e.1.x, bottom, e.1.y⟩
    (⟨⟨e.1.x, bottom, e.1.y⟩, color, ⟨0, 0⟩⟩, ⟨⟨(mean ring).x, bottom + height, (mean ring).y⟩, color, ⟨look.scaled height, 0⟩⟩,
      ⟨⟨e.2.x, bottom, e.2.y⟩, color, ⟨look.scaled height, look.scaled height⟩⟩)

/-- The triangle library returns triangles between its points. -/
def InRange (io : TriangleIo K) : Prop := ∀ t ∈ io.triangles, ∀ c ∈ [t.1, t.2.1, t.2.2], 0 ≤ c ∧ c < (io.points.length : Int)

/-- The roof of a part: nothing, flat faces or pyramids. -/
def RoofFaces (look : Look K) (type : String) (roofHeight top : K) (io : TriangleIo K) (outers : List (List (Vec K))) (ts : List (Triangle K)) : Prop :=
  (type = "none" ∧ ts = []) ∨ (type = "flat" ∧ FlatFaces look top false io ts) ∨
    (type = "pyramidal" ∧ ts = outers.flatMap (pyramid look top roofHeight))

/-! ## Closed surfaces -/

/-- The corners of a triangle without color and texture. -/
def place (t : Triangle K) : Vec3 K × Vec3 K × Vec3 K := (t.1.position, t.2.1.position, t.2.2.position)

/-- The border of a surface: each edge is used once more in one direction than in the other for each time it is in `border`. -/
def HasBorder {V : Type} [DecidableEq V] (ts : List (V × V × V)) (border : List (V × V)) : Prop :=
  ∀ a b, (SolidsSpec.edges ts).count (a, b) + border.count (b, a) = (SolidsSpec.edges ts).count (b, a) + border.count (a, b)

/-- The triangles of the library on the ground. -/
def IsPlan (io : TriangleIo K) (plan : List (Vec K × Vec K × Vec K)) : Prop :=
  List.Forall₂ (fun c t => ∃ i j k : Nat, c = ((i : Int), (j : Int), (k : Int)) ∧ io.points[i]? = some ⟨t.1.x, t.1.y⟩ ∧
    io.points[j]? = some ⟨t.2.1.x, t.2.1.y⟩ ∧ io.points[k]? = some ⟨t.2.2.x, t.2.2.y⟩) io.triangles plan

/-- The library fills the rings: its triangles have the edges of the rings as border. As it returns them counterclockwise, outlines have to be
counterclockwise and holes clockwise. -/
def Fills (io : TriangleIo K) (rings : List (List (Vec K))) : Prop := ∃ plan, IsPlan io plan ∧ HasBorder plan (rings.flatMap ringEdges)

/-- The polygon of a part. -/
def polygonOf (env : Env K) (part : Part K) : Outcome (Poly K) :=
  Polygon.addAll env.epsilon env.huge env.tiny { rectangle := .empty env.huge env.tiny } part.rings

/-- A part above the ground with flat walls and a flat or pyramidal roof whose rings the triangle library fills. The first ring is an outline, and a
pyramidal roof has no holes below it. -/
structure Solid (env : Env K) (part : Part K) : Prop where
  outline : ∃ (start : Geo K) (ring : List (Vec K)) (rest : List (List (Vec K) × Bool)), part.rings = (ground start :: ring, false) :: rest
  rings : ∀ r ∈ part.rings, opened env.epsilon r.1 ≠ []
  library : ∀ p, polygonOf env part = .ok p → InRange (env.triangulate p) ∧ ∀ outlines holes, List.Forall₂ (Stored p) outlines p.outers →
    List.Forall₂ (Stored p) holes p.inners → Fills (env.triangulate p) (outlines ++ holes)
  roof : part.style.roofType = "flat" ∨ (part.style.roofType = "pyramidal" ∧ ∀ r ∈ part.rings, r.2 = false)
  facade : part.style.facadeType = "flat"
  above : part.style.minHeight > 0

end Verif.BuildingSpec
