import Verif.Model.Along
import Verif.Model.Building
import Verif.Model.Solids

/-! # Walls and barriers

Models builders/generators/WallGenerator.hpp, the parts of AbstractGenerator.hpp which it uses, and builders/misc/BarrierBuilder.cpp over an ordered
field instead of `double`. Style evaluation, colors, scales of textures and the elevation provider are parameters. -/
namespace Verif.Barrier
open Verif.MeshBuilder
open Verif.Along (World Delivered divInt newPoint normalized copyMeshAlong)
open Verif.Building (Look)

variable {K : Type} [Field K] [LinearOrder K]

/-! ## Walls -/

/-- The members of WallGenerator.hpp:113-114. -/
structure WallSize (K : Type) where
  width : K
  height : K
  heightOffset : K
  length : K
  gap : K

/-- AbstractGenerator.hpp:81-88 -/
def plane (look : Look K) (height : K) (m : Mesh K) (v0 v1 : Vec3 K) : Mesh K :=
  let scale := look.planeScale v0 v1 height
  addPlane m v0 v1 height (look.planeColor v0) scale.1 scale.2

/-- AbstractGenerator.hpp:63-79 without vertex noise (its frequency is zero for walls and barriers) -/
def triangle (look : Look K) (m : Mesh K) (t : Vec3 K × Vec3 K × Vec3 K) : Mesh K :=
  addTriangle m t.1 t.2.1 t.2.2 ⟨0, 0⟩ ⟨1, 0⟩ ⟨1, 1⟩ false (look.triangleColor t.1)

/-- AbstractGenerator.hpp:91-108 -/
def buildParallelepiped (look : Look K) (leftP0 leftP1 rightP0 rightP1 : Vec3 K) (height : K) (m : Mesh K) : Mesh K :=
  let up (v : Vec3 K) : Vec3 K := ⟨v.x, v.y + height, v.z⟩
  let m := plane look height m leftP1 leftP0
  let m := plane look height m rightP1 leftP1
  let m := plane look height m rightP0 rightP1
  let m := plane look height m leftP0 rightP0
  let m := triangle look m (up leftP0, up leftP1, up rightP0)
  triangle look m (up rightP0, up leftP1, up rightP1)

/-- WallGenerator.hpp:88-111 -/
def buildSegment (w : World K) (look : Look K) (size : WallSize K) (p0 p1 : Vec2 K) (m : Mesh K) : Mesh K :=
  let direction := normalized w ⟨p1.x - p0.x, p1.y - p0.y⟩
  let normal : Vec2 K := ⟨-direction.y, direction.x⟩
  let leftP0 : Vec2 K := ⟨p0.x + normal.x * size.width, p0.y + normal.y * size.width⟩
  let leftP1 : Vec2 K := ⟨p1.x + normal.x * size.width, p1.y + normal.y * size.width⟩
  let rightP0 : Vec2 K := ⟨p0.x - normal.x * size.width, p0.y - normal.y * size.width⟩
  let rightP1 : Vec2 K := ⟨p1.x - normal.x * size.width, p1.y - normal.y * size.width⟩
  let bottom (v : Vec2 K) : Vec3 K := ⟨v.x, size.heightOffset + w.elevation ⟨v.y, v.x⟩, v.y⟩
  buildParallelepiped look (bottom leftP0) (bottom leftP1) (bottom rightP0) (bottom rightP1) size.height m

/-- WallGenerator.hpp:72-77, one iteration; the state is the mesh and `start`. -/
def wallStep (w : World K) (look : Look K) (size : WallSize K) (ratio : K) (p0 p1 : Geo K) (count : Int) (s : Mesh K × Geo K) (j : Nat) :
    Outcome (Mesh K × Geo K) :=
  let start := s.2
  let offset := (j : K) / (count : K)
  let finish := if count = 1 then p1 else newPoint p0 p1 offset
  .ok (buildSegment w look size ⟨start.lon, start.lat⟩
    ⟨start.lon + (finish.lon - start.lon) * ratio, start.lat + (finish.lat - start.lat) * ratio⟩ s.1, finish)

/-- WallGenerator.hpp:61-78, one pair of coordinates -/
def wallPair [FloorRing K] (w : World K) (look : Look K) (size : WallSize K) (m : Mesh K) (p : Geo K × Geo K) : Outcome (Mesh K) :=
  let fullLength := size.length + size.gap
  let ratio := size.length / fullLength
  (divInt (w.distance p.1 p.2) fullLength).bind fun parts =>
    let count := max parts 1
    (foldO (fun s (j : Nat) => wallStep w look size ratio p.1 p.2 count s (j + 1)) (m, p.1) (List.range count.toNat)).bind fun s => .ok s.1

/-- WallGenerator.hpp:57-83 -/
def wall [FloorRing K] (w : World K) (look : Look K) (size : WallSize K) (cs : List (Geo K)) (m : Mesh K) : Outcome (Mesh K) :=
  match cs with
  | [] => .ok m
  | c :: rest => (foldO (wallPair w look size) m ((c :: rest).zip rest)).bind fun m => writeTexture m look.texture

/-! ## Barriers -/

/-- The values of a style which are used. Texture and gradient depend on the seed, too (MeshContext.hpp:50-69). The radii are the `x` and the `z`
of GeometryUtils.hpp:getSize. -/
structure Style (K : Type) where
  pillar : Bool
  width : K
  height : K
  length : K
  gap : K
  step : K
  radiusX : K
  radiusZ : K
  look : UInt64 → Look K

/-- What the builder gets. The rotations of the unit vector by multiples of a seventh of the full angle around the vertical axis are given. -/
structure Env (K : Type) where
  world : World K
  style : Element (Geo K) → Style K
  rotated : Nat → Vec3 K

/-- BarrierBuilder.cpp:96-108, CylinderGenerator.hpp:61-62: height segments of at most 5; the conversion to `int` is taken as exact. -/
def pillarCylinder [FloorRing K] (env : Env K) (style : Style K) (c : Geo K) : Solids.Cylinder K :=
  let segments := ⌈style.height / 5⌉.toNat
  { center := ⟨c.lon, env.world.elevation c, c.lat⟩, direction := ⟨0, 1, 0⟩, rotated := env.rotated, size1 := ⟨style.radiusX, style.height, style.radiusZ⟩,
    size2 := ⟨style.radiusX, style.height, style.radiusZ⟩, radialSegments := 7, heightSegments := segments, heightStep := style.height / (segments : K) }

/-- BarrierBuilder.cpp:90-127: the mesh which the callback gets, if any. `prototype` is the mesh of the context. -/
def buildPillar [FloorRing K] (env : Env K) (style : Style K) (id : UInt64) (cs : List (Geo K)) : Outcome (Option (Mesh K)) :=
  match cs with
  | [] => .ok none
  | c :: rest =>
    let ts := (pillarCylinder env style c).generate env.world.epsilon (fun v => v)
    (writeTexture (ts.foldl (triangle (style.look id)) {}) (style.look id).texture).bind fun prototype =>
      if rest.isEmpty then .ok (some prototype)
      else
        (foldO (fun m p => copyMeshAlong env.world c p.1 p.2 prototype m style.step) {} ((c :: rest).zip rest)).bind fun m => .ok (some m)

/-- BarrierBuilder.cpp:76-88 -/
def buildWall [FloorRing K] (env : Env K) (style : Style K) (id : UInt64) (cs : List (Geo K)) : Outcome (Option (Mesh K)) :=
  (wall env.world (style.look id) ⟨style.width, style.height, 0, style.length, style.gap⟩ cs {}).bind fun m => .ok (some m)

/-- The member of BarrierBuilder.hpp:48 and the meshes passed to the callback. -/
structure State (K : Type) where
  style : Option (Style K) := none
  delivered : List (Delivered K) := []

/-- BarrierBuilder.cpp:44-52: the new state and the result, and the style which is set then -/
def setStyle (env : Env K) (s : State K) (e : Element (Geo K)) : State K × Bool × Style K :=
  match s.style with
  | none => ({ s with style := some (env.style e) }, true, env.style e)
  | some style => (s, false, style)

/-- BarrierBuilder.cpp:54-57 -/
def resetStyle (s : State K) (isSet : Bool) : State K := if isSet then { s with style := none } else s

/-- BarrierBuilder.cpp:59-74 -/
def build [FloorRing K] (env : Env K) (s : State K) (e : Element (Geo K)) (id : UInt64) (cs : List (Geo K)) : Outcome (State K) :=
  let (s, isSet, style) := setStyle env s e
  (if style.pillar then buildPillar env style id cs else buildWall env style id cs).bind fun mesh =>
    let s := match mesh with
      | some m => { s with delivered := s.delivered ++ [⟨"barrier:", id, m⟩] }
      | none => s
    .ok (resetStyle s isSet)

mutual
/-- `accept` of an element with the builder, BarrierBuilder.cpp:23-42 -/
def visit [FloorRing K] (env : Env K) (s : State K) : Element (Geo K) → Outcome (State K)
  | .node id tags c => build env s (.node id tags c) id [c]
  | .way id tags cs => build env s (.way id tags cs) id cs
  | .area id tags cs => build env s (.area id tags cs) id cs
  | .relation id tags members =>
    let (s, isSet, _) := setStyle env s (.relation id tags members)
    (visitAll env s members).bind fun s => .ok (resetStyle s isSet)

/-- BarrierBuilder.cpp:38-39 -/
def visitAll [FloorRing K] (env : Env K) (s : State K) : List (Element (Geo K)) → Outcome (State K)
  | [] => .ok s
  | e :: es => (visit env s e).bind fun s => visitAll env s es
end

end Verif.Barrier
