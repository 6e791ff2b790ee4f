import Mathlib.Algebra.Order.Floor.Ring
import Mathlib.Algebra.Order.Field.Basic
import Verif.Model.Bbox
import Verif.Model.Element
import Verif.Model.MeshBuilder

/-! # Trees and lamps along ways

Models utils/MeshUtils.hpp:copyMeshAlong, builders/poi/TreeBuilder.cpp and builders/misc/LampBuilder.cpp over an ordered field instead of `double`.
The distance of two coordinates, the elevation provider, style evaluation and the generator of a single tree or lamp (LSystemGenerator) are
parameters. The mesh pool is left out (C14): meshes start empty. -/
namespace Verif.Along
open Verif.MeshBuilder

variable {K : Type} [Field K] [LinearOrder K]

/-- What builders get from their context, and the functions of the standard library. -/
structure World (K : Type) where
  /-- GeoUtils.hpp:117-132 -/
  distance : Geo K → Geo K → K
  /-- `ElevationProvider::getElevation` for the quadkey of the context -/
  elevation : Geo K → K
  sqrt : K → K
  /-- `std::numeric_limits<double>::epsilon()` -/
  epsilon : K
  /-- `boundingBox.center()` of the context -/
  center : Geo K

/-- `static_cast<int>(a/b)` of two `double`s: truncates; undefined outside of the range of `int`, in particular for the infinity or NaN which a
division by zero returns. -/
def divInt [FloorRing K] (a b : K) : Outcome Int :=
  let q : Int := if 0 ≤ a / b then ⌊a / b⌋ else ⌈a / b⌉
  if b = 0 then .ub "conversion to int"
  else if -2 ^ 31 ≤ q ∧ q < 2 ^ 31 then .ok q
  else .ub "conversion to int"

/-- GeoUtils.hpp:135-140 -/
def newPoint (p1 p2 : Geo K) (r : K) : Geo K := ⟨p1.lat + (p2.lat - p1.lat) * r, p1.lon + (p2.lon - p1.lon) * r⟩

/-- MeshUtils.hpp:55-59 and LampBuilder.cpp:74-78: a copy of a mesh which was made for `position` -/
def copyTo (w : World K) (position : Geo K) (source : Mesh K) (destination : Mesh K) (newPosition : Geo K) : Outcome (Mesh K) :=
  copyMesh ⟨newPosition.lon - position.lon, w.elevation newPosition, newPosition.lat - position.lat⟩ source destination

/-- MeshUtils.hpp:45-61 -/
def copyMeshAlong [FloorRing K] (w : World K) (position p1 p2 : Geo K) (source destination : Mesh K) (stepInMeters : K) : Outcome (Mesh K) :=
  (divInt (w.distance p1 p2) stepInMeters).bind fun count =>
    foldO (fun m (j : Nat) => copyTo w position source m (newPoint p1 p2 ((j : K) / (count : K)))) destination (List.range count.toNat)

/-- The pairs of coordinates visited by `for (i = 0; i < coordinates.size() - 1; ++i)`. The difference of an empty vector is the largest number, so
that its first element is read. -/
def pairsOf (cs : List (Geo K)) : Outcome (List (Geo K × Geo K)) :=
  match cs with
  | [] => .ub "index out of range"
  | c :: rest => .ok ((c :: rest).zip rest)

/-- Vector2.hpp:57-62 -/
def normalized (w : World K) (v : Vec2 K) : Vec2 K :=
  let length := w.sqrt (v.x * v.x + v.y * v.y)
  if length > w.epsilon then ⟨v.x / length, v.y / length⟩ else ⟨0, 0⟩

/-- The values of a style which are used: the step (`tree-step`, `lamp-step`), the width, and what LSystemGenerator::generate makes of the style for
a position and a height: it may throw. -/
structure PlantStyle (K : Type) where
  step : K
  width : K
  generate : Geo K → K → Outcome (Mesh K)

/-- A mesh passed to the callback: prefix of its name, id of the element, content. -/
structure Delivered (K : Type) where
  name : String
  id : UInt64
  mesh : Mesh K
deriving DecidableEq

/-- TreeBuilder.cpp:23-33 and LampBuilder.cpp:22-33 -/
def plantNode (w : World K) (name : String) (style : PlantStyle K) (id : UInt64) (c : Geo K) : Outcome (List (Delivered K)) :=
  (style.generate c (w.elevation c)).bind fun mesh => .ok [⟨name, id, mesh⟩]

/-- TreeBuilder.cpp:35-62 -/
def treeWay [FloorRing K] (w : World K) (style : PlantStyle K) (id : UInt64) (cs : List (Geo K)) : Outcome (List (Delivered K)) :=
  (style.generate w.center 0).bind fun treeMesh =>
  (pairsOf cs).bind fun pairs =>
  (foldO (fun newMesh p => copyMeshAlong w w.center p.1 p.2 treeMesh newMesh style.step) {} pairs).bind fun newMesh =>
  .ok [⟨"trees:", id, newMesh⟩]

/-- LampBuilder.cpp:57-72: the position of lamp `j`, on the left for even numbers, on the right for odd ones. -/
def lampPosition (w : World K) (width : K) (p0 p1 : Geo K) (count : Int) (j : Nat) : Geo K :=
  let direction := normalized w ⟨p1.lon - p0.lon, p1.lat - p0.lat⟩
  let normal : Vec2 K := ⟨-direction.y, direction.x⟩
  let leftP0 : Geo K := ⟨p0.lat + normal.y * width, p0.lon + normal.x * width⟩
  let leftP1 : Geo K := ⟨p1.lat + normal.y * width, p1.lon + normal.x * width⟩
  let rightP0 : Geo K := ⟨p0.lat - normal.y * width, p0.lon - normal.x * width⟩
  let rightP1 : Geo K := ⟨p1.lat - normal.y * width, p1.lon - normal.x * width⟩
  let offset := (j : K) / (count : K)
  if j % 2 = 0 then newPoint leftP0 leftP1 offset else newPoint rightP0 rightP1 offset

/-- LampBuilder.cpp:48-89, one pair of coordinates; the values of `for (j = 1; j < count - 1; ++j)` are one more than those below `count - 2`. -/
def lampPair [FloorRing K] (w : World K) (style : PlantStyle K) (lampMesh newMesh : Mesh K) (p : Geo K × Geo K) : Outcome (Mesh K) :=
  (divInt (w.distance p.1 p.2) style.step).bind fun count =>
    if count = 0 then .ok newMesh
    else if style.width > 0 then
      foldO (fun m (j : Nat) => copyTo w w.center lampMesh m (lampPosition w style.width p.1 p.2 count (j + 1))) newMesh (List.range (count - 2).toNat)
    else copyMeshAlong w w.center p.1 p.2 lampMesh newMesh style.step

/-- LampBuilder.cpp:35-97 -/
def lampWay [FloorRing K] (w : World K) (style : PlantStyle K) (id : UInt64) (cs : List (Geo K)) : Outcome (List (Delivered K)) :=
  (style.generate w.center 0).bind fun lampMesh =>
  (pairsOf cs).bind fun pairs =>
  (foldO (lampPair w style lampMesh) {} pairs).bind fun newMesh =>
  .ok (if newMesh.vertices.isEmpty then [] else [⟨"lamps:", id, newMesh⟩])

/-- The two builders. -/
inductive Kind where
  | tree
  | lamp
deriving DecidableEq

/-- `visitNode` and `visitWay` of the builders -/
def single [FloorRing K] (w : World K) (kind : Kind) (style : PlantStyle K) (id : UInt64) (cs : List (Geo K) ⊕ Geo K) : Outcome (List (Delivered K)) :=
  match kind, cs with
  | .tree, .inr c => plantNode w "tree:" style id c
  | .lamp, .inr c => plantNode w "lamp:" style id c
  | .tree, .inl cs => treeWay w style id cs
  | .lamp, .inl cs => lampWay w style id cs

mutual
/-- `accept` of an element with a TreeBuilder or LampBuilder (TreeBuilder.cpp:23-68, TreeBuilder.hpp:21, LampBuilder.cpp:22-102, LampBuilder.hpp:18): the
meshes passed to the callback are added to those before. Areas have no trees and no lamps. -/
def visit [FloorRing K] (w : World K) (kind : Kind) (style : Element (Geo K) → PlantStyle K) (done : List (Delivered K)) :
    Element (Geo K) → Outcome (List (Delivered K))
  | .node id tags c => (single w kind (style (.node id tags c)) id (.inr c)).bind fun new => .ok (done ++ new)
  | .way id tags cs => (single w kind (style (.way id tags cs)) id (.inl cs)).bind fun new => .ok (done ++ new)
  | .area _ _ _ => .ok done
  | .relation _ _ members => visitAll w kind style done members

/-- TreeBuilder.cpp:64-68, LampBuilder.cpp:99-102 -/
def visitAll [FloorRing K] (w : World K) (kind : Kind) (style : Element (Geo K) → PlantStyle K) (done : List (Delivered K)) :
    List (Element (Geo K)) → Outcome (List (Delivered K))
  | [] => .ok done
  | e :: es => (visit w kind style done e).bind fun done => visitAll w kind style done es
end

end Verif.Along
