import Mathlib.Algebra.Order.Field.Basic
import Verif.Model.Element
import Verif.Model.MeshBuilder
import Verif.Model.Geometry
import Verif.Model.Osm

/-! # Buildings

Models builders/buildings/BuildingBuilder.cpp, facades/FlatFacadeBuilder.hpp, roofs/FlatRoofBuilder.hpp and roofs/PyramidalRoofBuilder.hpp over an
ordered field instead of `double`. The other roofs and facades are parameters. Style evaluation, colors, texture coordinates, the elevation provider
and the triangle library are parameters, too. -/
namespace Verif.Building
open Verif.MeshBuilder
open Verif.Polygon (Vec Poly Rect)

variable {K : Type} [Field K] [LinearOrder K]

/-! ## Tags -/

/-- utils/ElementUtils.hpp:46-59 on the part of the tags between `begin` and `end`; `fuel` bounds the number of iterations -/
def searchTag (key : UInt32) : Nat → List Tag → Option UInt32
  | 0, _ => none
  | fuel + 1, tags =>
    match tags[tags.length / 2]? with
    | none => none
    | some middle =>
      if middle.key = key then some middle.value
      else if middle.key > key then searchTag key fuel (tags.take (tags.length / 2))
      else searchTag key fuel (tags.drop (tags.length / 2 + 1))

/-- utils/ElementUtils.hpp:41-60 -/
def getTagValue (key : UInt32) (tags : List Tag) (defaultValue : UInt32) : UInt32 := (searchTag key tags.length tags).getD defaultValue

/-- utils/ElementUtils.hpp:62-71 -/
def hasTag (key value : UInt32) (tags : List Tag) : Bool := value == getTagValue key tags 0xFFFFFFFF

/-- utils/ElementUtils.hpp:73-77 -/
def hasIgnore (tags : List Tag) : Bool := hasTag 0xFFFFFFFF 0 tags

/-! ## Faces -/

/-- What a mesh context says about colors (MeshBuilder.cpp:86, 210-211, 241-242), texture coordinates (90, 214-217, GeoUtils::getScaled) and the
texture: functions of the places in the code which use them. -/
structure Look (K : Type) where
  pointColor : Vec2 K → Int
  pointUv : Vec2 K → Vec2 K
  planeColor : Vec3 K → Int
  planeScale : Vec3 K → Vec3 K → K → K × K
  triangleColor : Vec3 K → Int
  scaled : K → K
  texture : Texture

/-- `Vector2(polygon.points[i], polygon.points[i + 1])` -/
def pointAt (p : Poly K) (i : Int) : Outcome (Vec K) := (vecAt p.points i).bind fun x => (vecAt p.points (i + 1)).bind fun y => .ok ⟨x, y⟩

/-- MeshBuilder.cpp:192-206 with a given elevation; the noise is zero as the frequency is zero (MeshContext.hpp:25, utils/NoiseUtils.cpp). -/
def addWall (look : Look K) (elevation heightOffset : K) (m : Mesh K) (p1 p2 : Vec K) : Mesh K :=
  let v1 : Vec3 K := ⟨p1.x, elevation, p1.y⟩
  let v2 : Vec3 K := ⟨p2.x, elevation, p2.y⟩
  let scale := look.planeScale v1 v2 heightOffset
  addPlane m v1 v2 heightOffset (look.planeColor v1) scale.1 scale.2

/-- The values of `for (i = last; i >= first; i -= 2)`; `fuel` bounds the number of iterations. -/
def backward (first : Int) : Nat → Int → List Int
  | 0, _ => []
  | fuel + 1, i => if i ≥ first then i :: backward first fuel (i - 2) else []

/-- facades/FlatFacadeBuilder.hpp:36-44, one iteration -/
def facadeEdge (look : Look K) (minHeight height : K) (p : Poly K) (first last : Int) (m : Mesh K) (i : Int) : Outcome (Mesh K) :=
  (pointAt p i).bind fun p2 => (pointAt p (if i = first then last else i - 2)).bind fun p1 => .ok (addWall look minHeight height m p1 p2)

/-- facades/FlatFacadeBuilder.hpp:31-46 -/
def facadeRange (look : Look K) (minHeight height : K) (p : Poly K) (m : Mesh K) (range : Nat × Nat) : Outcome (Mesh K) :=
  let first : Int := range.1
  let last : Int := (range.2 : Int) - 2
  foldO (facadeEdge look minHeight height p first last) m (backward first range.2 last)

/-- facades/FlatFacadeBuilder.hpp:18-27 -/
def flatFacade (look : Look K) (height minHeight : K) (p : Poly K) (m : Mesh K) : Outcome (Mesh K) :=
  (foldO (facadeRange look minHeight height p) m p.outers).bind fun m => foldO (facadeRange look minHeight height p) m p.inners

/-- roofs/FlatRoofBuilder.hpp:23-32; the area and the noise are zero, so that the mesh is not refined (MeshBuilder.cpp:145-148). -/
def flatRoof (triangulate : Poly K → TriangleIo K) (flipSide : Bool) (look : Look K) (minHeight : K) (p : Poly K) (m : Mesh K) : Mesh K :=
  fillMesh m (triangulate p) (fun _ q => (0 + minHeight, look.pointColor q, look.pointUv q)) flipSide

/-- utils/GeometryUtils.hpp:77-80, the points of a range -/
def rangePoints (p : Poly K) (range : Nat × Nat) : Outcome (List (Vec K)) :=
  foldO (fun l (i : Nat) => (pointAt p i).bind fun v => .ok (l ++ [v])) [] (visited range.1 range.2 2 range.2)

/-- roofs/PyramidalRoofBuilder.hpp:28-40, one iteration -/
def pyramidalEdge (look : Look K) (height minHeight : K) (p : Poly K) (range : Nat × Nat) (center : Vec K) (m : Mesh K) (i : Nat) : Outcome (Mesh K) :=
  let nextIndex := if i = range.2 - 2 then range.1 else i + 2
  (pointAt p i).bind fun v0 => (pointAt p nextIndex).bind fun v2 =>
    let scale := look.scaled height
    let v : Vec3 K := ⟨v0.x, minHeight, v0.y⟩
    .ok (addTriangle m v ⟨center.x, minHeight + height, center.y⟩ ⟨v2.x, minHeight, v2.y⟩ ⟨0, 0⟩ ⟨scale, 0⟩ ⟨scale, scale⟩ false (look.triangleColor v))

/-- roofs/PyramidalRoofBuilder.hpp:24-41 -/
def pyramidalRange (look : Look K) (height minHeight : K) (p : Poly K) (m : Mesh K) (range : Nat × Nat) : Outcome (Mesh K) :=
  (rangePoints p range).bind fun points =>
    foldO (pyramidalEdge look height minHeight p range (Geometry.getCentroid points)) m (visited range.1 range.2 2 range.2)

/-- roofs/PyramidalRoofBuilder.hpp:19-45 -/
def pyramidalRoof (look : Look K) (height minHeight : K) (p : Poly K) (m : Mesh K) : Outcome (Mesh K) :=
  (foldO (pyramidalRange look height minHeight p) m p.outers).bind fun m => writeTexture m look.texture

/-! ## Buildings -/

/-- The values of a style which are used; texture and gradient depend on the seed, too (MeshContext.hpp:50-69). -/
structure Style (K : Type) where
  building : Bool
  multipolygon : Bool
  height : K
  minHeight : K
  roofType : String
  roofHeight : K
  roofDirection : String
  facadeType : String
  roofLook : UInt64 → Look K
  facadeLook : UInt64 → Look K

/-- A roof or facade: look, direction, height, height above ground level, polygon and mesh -/
abbrev Face (K : Type) := Look K → String → K → K → Poly K → Mesh K → Outcome (Mesh K)

/-- What the builder context provides. -/
structure Env (K : Type) where
  epsilon : K
  huge : K
  tiny : K
  style : Element (Geo K) → Style K
  elevation : Geo K → K
  triangulate : Poly K → TriangleIo K
  otherRoof : String → Option (Face K)
  otherFacade : String → Option (Face K)

/-- BuildingBuilder.cpp:55-99; dome, mansard, skillion and round roofs are `otherRoof`. -/
def roofOf (env : Env K) (type : String) : Option (Face K) :=
  if type = "none" then some fun _ _ _ _ _ m => .ok m
  else if type = "flat" then some fun look _ _ minHeight p m => .ok (flatRoof env.triangulate false look minHeight p m)
  else if type = "pyramidal" then some fun look _ height minHeight p m => pyramidalRoof look height minHeight p m
  else if type = "dome" ∨ type = "mansard" ∨ type = "skillion" ∨ type = "round" then env.otherRoof type
  else none

/-- BuildingBuilder.cpp:102-122; cylinders and spheres are `otherFacade`. -/
def facadeOf (env : Env K) (type : String) : Option (Face K) :=
  if type = "flat" then some fun look _ height minHeight p m => flatFacade look height minHeight p m
  else if type = "cylinder" ∨ type = "sphere" then env.otherFacade type
  else none

/-- BuildingBuilder.cpp:284-306: the iterator is used without a check. -/
def attachRoof (env : Env K) (style : Style K) (id : UInt64) (elevation height : K) (p : Poly K) (m : Mesh K) : Outcome (Mesh K) :=
  let look := style.roofLook id
  match roofOf env style.roofType with
  | none => .ub "end iterator"
  | some roof => (roof look style.roofDirection style.roofHeight (elevation + height) p m).bind fun m => writeTexture m look.texture

/-- BuildingBuilder.cpp:308-325 -/
def attachFloors (env : Env K) (style : Style K) (id : UInt64) (elevation : K) (p : Poly K) (m : Mesh K) : Outcome (Mesh K) :=
  let look := style.roofLook id
  writeTexture (flatRoof env.triangulate true look elevation p m) look.texture

/-- BuildingBuilder.cpp:327-346 -/
def attachFacade (env : Env K) (style : Style K) (id : UInt64) (elevation height : K) (p : Poly K) (m : Mesh K) : Outcome (Mesh K) :=
  let look := style.facadeLook id
  match facadeOf env style.facadeType with
  | none => .ub "end iterator"
  | some facade => (facade look "" height elevation p m).bind fun m => writeTexture m look.texture

/-- BuildingBuilder.cpp:348-350, and the meshes which the callback got, with the id in their name (230-239, 243-249). A polygon and mesh
which do not exist are `none`. -/
structure State (K : Type) where
  polygon : Option (Poly K) := none
  mesh : Option (Mesh K) := none
  id : UInt64 := 0
  delivered : List (UInt64 × Mesh K) := []

/-- math/Polygon.hpp:26-30 -/
def newPolygon (env : Env K) : Poly K := { rectangle := .empty env.huge env.tiny }

/-- BuildingBuilder.cpp:229-241 -/
def ensureContext (env : Env K) (s : State K) (id : UInt64) : State K × Bool :=
  let s := match s.polygon with
    | none => { s with polygon := some (newPolygon env) }
    | some _ => s
  match s.mesh with
  | none => ({ s with mesh := some {}, id := id }, true)
  | some _ => (s, false)

/-- BuildingBuilder.cpp:243-249 -/
def completeIfNecessary (s : State K) (justCreated : Bool) : Outcome (State K) :=
  if justCreated then
    match s.mesh with
    | none => .ub "null pointer"
    | some m => .ok { s with mesh := none, delivered := s.delivered ++ [(s.id, m)] }
  else .ok s

/-- BuildingBuilder.cpp:259-282, what is done with the polygon and the mesh -/
def draw (env : Env K) (style : Style K) (id : UInt64) (p : Poly K) (m : Mesh K) : Outcome (Mesh K) :=
  (pointAt p 0).bind fun first =>
    let height := if style.height = 0 then 10 else style.height
    let elevation := env.elevation ⟨first.y, first.x⟩ + style.minHeight
    let height := height - style.minHeight
    (attachRoof env style id elevation height p m).bind fun m =>
    (if style.minHeight > 0 then attachFloors env style id elevation p m else .ok m).bind fun m =>
    attachFacade env style id elevation height p m

/-- BuildingBuilder.cpp:259-282 -/
def build (env : Env K) (s : State K) (style : Style K) : Outcome (State K) :=
  match s.polygon, s.mesh with
  | some p, some m => (draw env style s.id p m).bind fun m => .ok { s with polygon := none, mesh := some m }
  | _, _ => .ub "null pointer"

/-- BuildingBuilder.cpp:125-133 -/
def toPoints (cs : List (Geo K)) : List (Vec K) := cs.map fun c => ⟨c.lon, c.lat⟩

/-- `polygon_->addContour`, `polygon_->addHole` -/
def addRing (env : Env K) (s : State K) (cs : List (Geo K)) (isHole : Bool) : Outcome (State K) :=
  match s.polygon with
  | none => .ub "null pointer"
  | some p => (Polygon.addContour env.epsilon env.huge env.tiny p (toPoints cs) isHole).bind fun p => .ok { s with polygon := some p }

mutual
/-- BuildingBuilder.cpp:152-171 `MultiPolygonVisitor` -/
def collect (env : Env K) (s : State K) : Element (Geo K) → Outcome (State K)
  | .node .. => .throw "domain_error"
  | .way .. => .throw "domain_error"
  | .area _ _ cs => addRing env s cs (Osm.isClockwise cs)
  | .relation _ _ ms => collectAll env s ms

/-- BuildingBuilder.cpp:157-158, 215-216 -/
def collectAll (env : Env K) (s : State K) : List (Element (Geo K)) → Outcome (State K)
  | [] => .ok s
  | m :: ms => (collect env s m).bind fun s => collectAll env s ms
end

mutual
/-- BuildingBuilder.cpp:186-225 -/
def visit (env : Env K) (s : State K) : Element (Geo K) → Outcome (State K)
  | .node .. => .ok s
  | .way .. => .ok s
  | .area id tags cs =>
    let style := env.style (.area id tags cs)
    if style.building then
      let c := ensureContext env s id
      (addRing env c.1 cs false).bind fun s => (build env s style).bind fun s => completeIfNecessary s c.2
    else .ok s
  | .relation id tags ms =>
    match ms with
    | [] => .ok s
    | m :: ms =>
      let c := ensureContext env s id
      let style := env.style (.relation id tags (m :: ms))
      (if style.multipolygon && style.building then
        (collectAll env c.1 (m :: ms)).bind fun s => build env s style
      else (visit env c.1 m).bind fun s => visitAll env s ms).bind fun s => completeIfNecessary s c.2

/-- BuildingBuilder.cpp:220-221 -/
def visitAll (env : Env K) (s : State K) : List (Element (Geo K)) → Outcome (State K)
  | [] => .ok s
  | m :: ms => (visit env s m).bind fun s => visitAll env s ms
end

/-- BuildingBuilder.cpp:359-367; nodes and ways are not visited (ElementBuilder). -/
def top (env : Env K) (s : State K) (e : Element (Geo K)) : Outcome (State K) :=
  match e with
  | .node .. | .way .. => .ok s
  | e => if hasIgnore e.tags then .ok s else visit env s e

/-- All elements which the builder gets for a tile, one after the other. -/
def topAll (env : Env K) : State K → List (Element (Geo K)) → Outcome (State K)
  | s, [] => .ok s
  | s, e :: es => (top env s e).bind fun s => topAll env s es

end Verif.Building
