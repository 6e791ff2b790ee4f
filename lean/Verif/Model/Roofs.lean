import Mathlib.Analysis.SpecialFunctions.Complex.Arg
import Verif.Model.Building
import Verif.Model.Quaternion
import Verif.Model.Solids
import Verif.Model.Terrain

/-! # Roofs and facades

Models builders/buildings/roofs/RoundRoofBuilder.hpp, MansardRoofBuilder.hpp, SkillionRoofBuilder.hpp and DomeRoofBuilder.hpp, and
builders/buildings/facades/CylinderFacadeBuilder.hpp and SphereFacadeBuilder.hpp over an ordered field instead of `double`. -/
namespace Verif.Roofs
open Verif.MeshBuilder Verif.Building
open Verif.Polygon (Vec Poly Rect)

variable {K : Type} [Field K] [LinearOrder K]

/-- What comes from other libraries: functions of the standard library, `pi` (utils/MathUtils.hpp), `parseDouble` (utils/CoreUtils.hpp:55-62), the
distance of coordinates in meters (utils/GeoUtils.hpp), the conversion of a number to an integer (it drops the fraction), the clipping library with
`addMiter` (math/PolyClip.hpp:37-39), and the rotation of a vector by the interpolation between no and half a turn around an axis
(RoundRoofBuilder.hpp:104-112 with math/Quaternion.hpp:92-125). -/
structure Library (K : Type) where
  sqrt : K → K
  sin : K → K
  cos : K → K
  pi : K
  ceil : K → Int
  toInt : K → Int
  parseDouble : String → K
  distance : Geo K → Geo K → K
  turn : Vec3 K → K → Vec3 K → Vec3 K
  offset : Terrain.Path → K → List Terrain.Path

/-- math/Vector2.hpp:64-68 -/
def distance2d (lib : Library K) (a b : Vec K) : K := lib.sqrt ((a.x - b.x) * (a.x - b.x) + (a.y - b.y) * (a.y - b.y))

/-- math/Vector3.hpp:73-78 -/
def distance3d (lib : Library K) (a b : Vec3 K) : K :=
  lib.sqrt ((a.x - b.x) * (a.x - b.x) + (a.y - b.y) * (a.y - b.y) + (a.z - b.z) * (a.z - b.z))

/-- math/Vector3.hpp:36-38 -/
def minus (a b : Vec3 K) : Vec3 K := ⟨a.x - b.x, a.y - b.y, a.z - b.z⟩

/-- `(a + b)/2` with math/Vector3.hpp:28-34 -/
def middle (a b : Vec3 K) : Vec3 K := ⟨(a.x + b.x) / 2, (a.y + b.y) / 2, (a.z + b.z) / 2⟩

/-- A triangle with texture coordinates -/
abbrev Facet (K : Type) := (Vec3 K × Vec3 K × Vec3 K) × (Vec2 K × Vec2 K × Vec2 K)

/-- roofs/RoofBuilder.hpp:52-60, and the same call in MansardRoofBuilder.hpp:104-114 -/
def addFacet (look : Look K) (m : Mesh K) (f : Facet K) : Mesh K :=
  addTriangle m f.1.1 f.1.2.1 f.1.2.2 f.2.1 f.2.2.1 f.2.2.2 false (look.triangleColor f.1.1)

/-! ## Round roofs -/

/-- RoundRoofBuilder.hpp:50-64: the index of the longest side and its length -/
def longestSide (lib : Library K) (p : Poly K) (range : Nat × Nat) : Outcome (Nat × K) :=
  foldO (fun (s : Nat × K) (i : Nat) =>
    let nextIndex := if i = range.2 - 2 then range.1 else i + 2
    (pointAt p i).bind fun v0 => (pointAt p nextIndex).bind fun v1 =>
      let length := distance2d lib v0 v1
      .ok (if length > s.2 then (i, length) else s)) (range.1, 0) (visited range.1 range.2 2 range.2)

/-- RoundRoofBuilder.hpp:124-126 -/
def nextIndex (current min max : Nat) : Nat := if current + 2 > max then min else current + 2

/-- RoundRoofBuilder.hpp:128-133 -/
def restore (height minHeight : K) (v : Vec3 K) (radius : K) (center : Vec3 K) : Vec3 K :=
  ⟨center.x + v.x * radius, minHeight + v.y * height, center.z + v.z * radius⟩

/-- RoundRoofBuilder.hpp:108-120, one iteration; `direction` is the axis -/
def roundSegment (lib : Library K) (height minHeight : K) (direction frontCenter backCenter frontRot backRot : Vec3 K) (frontRadius backRadius : K)
    (j : Nat) : List (Vec3 K × Vec3 K × Vec3 K) :=
  let q0t := lib.turn direction ((j : K) / 7)
  let q1t := lib.turn direction (((j : K) + 1) / 7)
  let front1 := restore height minHeight (q0t frontRot) frontRadius frontCenter
  let front2 := restore height minHeight (q1t frontRot) frontRadius frontCenter
  let back1 := restore height minHeight (q0t backRot) backRadius backCenter
  let back2 := restore height minHeight (q1t backRot) backRadius backCenter
  [(frontCenter, front2, front1), (backCenter, back1, back2), (front1, back2, back1), (front2, back2, front1)]

/-- RoundRoofBuilder.hpp:86-122: the triangles; all texture coordinates are zero. `RadialSegmentCount` is seven (17). -/
def roundShape (lib : Library K) (epsilon height minHeight : K) (p0 p1 p2 p3 : Vec3 K) : List (Facet K) :=
  let direction2d := Solids.normalized lib.sqrt epsilon (minus p3 p0)
  let direction : Vec3 K := ⟨-direction2d.z, 0, direction2d.x⟩
  let frontCenter := middle p0 p3
  let backCenter := middle p1 p2
  let frontRot := Solids.normalized lib.sqrt epsilon (minus p0 frontCenter)
  let backRot := Solids.normalized lib.sqrt epsilon (minus p1 backCenter)
  ((List.range 7).flatMap (roundSegment lib height minHeight direction frontCenter backCenter frontRot backRot (distance3d lib p0 frontCenter)
    (distance3d lib p1 backCenter))).map fun t => (t, ⟨0, 0⟩, ⟨0, 0⟩, ⟨0, 0⟩)

/-- `Vector3(polygon.points[i], minHeight_, polygon.points[i + 1])` -/
def pointAbove (p : Poly K) (minHeight : K) (i : Nat) : Outcome (Vec3 K) := (pointAt p i).bind fun v => .ok ⟨v.x, minHeight, v.y⟩

/-- RoundRoofBuilder.hpp:48-80, one iteration -/
def roundRange (lib : Library K) (epsilon : K) (look : Look K) (across : Bool) (height minHeight : K) (p : Poly K) (m : Mesh K) (range : Nat × Nat) :
    Outcome (Mesh K) :=
  let last := range.2 - 2
  (longestSide lib p range).bind fun side =>
  let i0 := side.1
  let i1 := nextIndex i0 range.1 last
  let i2 := nextIndex i1 range.1 last
  let i3 := nextIndex i2 range.1 last
  (pointAbove p minHeight i0).bind fun p0 =>
  (pointAbove p minHeight i1).bind fun p1 =>
  (pointAbove p minHeight i2).bind fun p2 =>
  (pointAbove p minHeight i3).bind fun p3 =>
  .ok ((if across then roundShape lib epsilon height minHeight p1 p2 p3 p0 else roundShape lib epsilon height minHeight p0 p1 p2 p3).foldl (addFacet look) m)

/-- RoundRoofBuilder.hpp:27-83 -/
def roundRoof (lib : Library K) (env : Env K) : Face K := fun look direction height minHeight p m =>
  if p.inners.isEmpty then
    (foldO (roundRange lib env.epsilon look (direction == "across") height minHeight p) m p.outers).bind fun m => writeTexture m look.texture
  else .ok (flatRoof env.triangulate false look minHeight p m)

/-! ## Mansard roofs -/

/-- MansardRoofBuilder.hpp:29-41: the smallest side and the points as integers -/
def mansardPath (lib : Library K) (huge : K) (p : Poly K) : Outcome (K × Terrain.Path) :=
  let lastPointIndex := p.points.length - 2
  foldO (fun (s : K × Terrain.Path) (i : Nat) =>
    let nextIndex := if i = lastPointIndex then 0 else i + 2
    (pointAt p i).bind fun v1 => (pointAt p nextIndex).bind fun v2 =>
      .ok (min s.1 (distance2d lib v1 v2), s.2 ++ [(lib.toInt (v1.x * 10 ^ 7), lib.toInt (v1.y * 10 ^ 7))])) (huge, [])
    (visited 0 p.points.length 2 p.points.length)

/-- `Vector2(p.X/Scale, p.Y/Scale)` in MansardRoofBuilder.hpp:70, 120 -/
def fromInt (p : Int × Int) : Vec K := ⟨(p.1 : K) / 10 ^ 7, (p.2 : K) / 10 ^ 7⟩

/-- MansardRoofBuilder.hpp:118-136: only half of the numbers are visited. -/
def findFirstIndex (lib : Library K) (huge : K) (first : Int × Int) (p : Poly K) : Outcome (Nat × K) :=
  foldO (fun (s : Nat × K) (i : Nat) => (pointAt p i).bind fun v =>
    let distance := distance2d lib (fromInt first) v
    .ok (if distance < s.2 then (i, distance) else s)) (0, huge) (visited 0 (p.points.length / 2) 2 p.points.length)

/-- MansardRoofBuilder.hpp:94-114, one iteration -/
def mansardSide (look : Look K) (height minHeight : K) (p top : Poly K) (index : Nat) (m : Mesh K) (i : Nat) : Outcome (Mesh K) :=
  let size := p.points.length
  let scale := look.scaled height
  let topHeight := minHeight + height
  (pointAbove p minHeight ((index + i) % size)).bind fun v0 =>
  (pointAbove p minHeight ((index + i + 2) % size)).bind fun v1 =>
  (pointAbove top topHeight ((i + 2) % size)).bind fun v2 =>
  (pointAbove top topHeight i).bind fun v3 =>
  .ok (addFacet look (addFacet look m ((v2, v0, v3), ⟨scale, scale⟩, ⟨0, 0⟩, ⟨0, scale⟩)) ((v0, v2, v1), ⟨0, 0⟩, ⟨scale, scale⟩, ⟨scale, 0⟩))

/-- MansardRoofBuilder.hpp:59-116 -/
def mansardShape (env : Env K) (look : Look K) (height minHeight : K) (p : Poly K) (shape : Terrain.Path) (index : Nat) (m : Mesh K) : Outcome (Mesh K) :=
  let shape := if Terrain.area2 shape ≥ 0 then shape else shape.reverse
  (Polygon.addContour env.epsilon env.huge env.tiny (newPolygon env) (shape.map fromInt) false).bind fun top =>
  let m := fillMesh m (env.triangulate top) (fun _ q => (minHeight + height, look.pointColor q, look.pointUv q)) false
  foldO (mansardSide look height minHeight p top index) m (visited 0 p.points.length 2 p.points.length)

/-- MansardRoofBuilder.hpp:24-55 -/
def mansardRoof (lib : Library K) (env : Env K) : Face K := fun look _ height minHeight p m =>
  (mansardPath lib env.huge p).bind fun s =>
  match lib.offset s.2 (-(s.1 / 10) * 10 ^ 7) with
  | [shape] =>
    if shape.length = s.2.length then
      match shape with
      | [] => .ub "index out of range"
      | first :: _ => (findFirstIndex lib env.huge first p).bind fun index => mansardShape env look height minHeight p shape index.1 m
    else .ok (flatRoof env.triangulate false look minHeight p m)
  | _ => .ok (flatRoof env.triangulate false look minHeight p m)

/-! ## Skillion roofs -/

/-- SkillionRoofBuilder.hpp:26-30 -/
def directions : Assoc String Nat :=
  [("N", 0), ("NNE", 22), ("NE", 45), ("ENE", 67), ("E", 90), ("ESE", 112), ("SE", 135), ("SSE", 157), ("S", 180), ("SSW", 202), ("SW", 225),
   ("WSW", 247), ("W", 270), ("WNW", 292), ("NW", 315), ("NNW", 337)]

/-- SkillionRoofBuilder.hpp:24-35 -/
def degrees (lib : Library K) (direction : String) : K :=
  match directions.find direction with
  | some d => d
  | none => lib.parseDouble direction

/-- SkillionRoofBuilder.hpp:52-53, utils/MathUtils.hpp:25-27, math/Vector2.hpp:57-62 -/
def slope (lib : Library K) (epsilon : K) (direction : String) : Vec K :=
  let grad := lib.pi * degrees lib direction / 180
  let x := lib.sin grad
  let y := lib.cos grad
  let length := lib.sqrt (x * x + y * y)
  if length > epsilon then ⟨x / length, y / length⟩ else ⟨0, 0⟩

/-- `Vector2(mesh.vertices[i], mesh.vertices[i + 1])` -/
def vertexAt (m : Mesh K) (i : Nat) : Outcome (Vec K) := (vecAt m.vertices i).bind fun x => (vecAt m.vertices ((i : Int) + 1)).bind fun y => .ok ⟨x, y⟩

/-- The variables of SkillionRoofBuilder.hpp:73-76 -/
structure Sides (K : Type) where
  front : Nat
  back : Nat
  minDistance : K
  maxDistance : K

/-- SkillionRoofBuilder.hpp:79-98, one iteration -/
def findSide (lib : Library K) (outBack outFront : Vec K) (m : Mesh K) (s : Sides K) (i : Nat) : Outcome (Sides K) :=
  let nextIndex := if i = m.vertices.length - 3 then 0 else i + 3
  (vertexAt m i).bind fun v0 => (vertexAt m nextIndex).bind fun v1 =>
    match Geometry.getIntersection v0 v1 outBack outFront with
    | none => .ok s
    | some r =>
      let intersection := Geometry.getPointAlongLine v0 v1 r
      let distance := distance2d lib outBack intersection
      let s := if distance > s.maxDistance then { s with front := i, maxDistance := distance } else s
      .ok (if distance < s.minDistance then
        { s with back := if distance2d lib v0 intersection < distance2d lib v1 intersection then i else nextIndex, minDistance := distance } else s)

/-- SkillionRoofBuilder.hpp:106-113: the plane through the front side at the bottom and the top of the back -/
def roofPlane (minHeight maxHeight : K) (a b c : Vec K) : Vec3 K × K :=
  let p1 : Vec3 K := ⟨a.x, minHeight, a.y⟩
  let p2 : Vec3 K := ⟨b.x, minHeight, b.y⟩
  let p3 : Vec3 K := ⟨c.x, maxHeight, c.y⟩
  let u := minus p1 p2
  let v := minus p3 p2
  let n : Vec3 K := ⟨u.y * v.z - u.z * v.y, u.z * v.x - u.x * v.z, u.x * v.y - u.y * v.x⟩
  (n, n.x * p1.x + n.y * p1.y + n.z * p1.z)

/-- SkillionRoofBuilder.hpp:159-161 -/
def calcHeight (p : Vec K) (n : Vec3 K) (d : K) : K := if n.y ≠ 0 then (d - n.x * p.x - n.z * p.y) / n.y else 0

/-- utils/MathUtils.hpp:20-22 -/
def clamp (n minValue maxValue : K) : K := max minValue (min n maxValue)

/-- SkillionRoofBuilder.hpp:132-149, one iteration -/
def skillionSide (look : Look K) (height minHeight : K) (front nextFront : Nat) (roof : Mesh K) (m : Mesh K) (i : Nat) : Outcome (Mesh K) :=
  if i = front then .ok m
  else
    let nextIndex := if i = roof.vertices.length - 3 then 0 else i + 3
    let scale := look.scaled height
    (vertexAt roof i).bind fun a => (vecAt roof.vertices ((i : Int) + 2)).bind fun ha =>
    (vertexAt roof nextIndex).bind fun b => (vecAt roof.vertices ((nextIndex : Int) + 2)).bind fun hb =>
    let v0 : Vec3 K := ⟨a.x, minHeight, a.y⟩
    let v1 : Vec3 K := ⟨a.x, ha, a.y⟩
    let v2 : Vec3 K := ⟨b.x, hb, b.y⟩
    let v3 : Vec3 K := ⟨b.x, minHeight, b.y⟩
    let u0 : Vec2 K := ⟨0, 0⟩
    let u1 : Vec2 K := ⟨0, scale⟩
    let u2 : Vec2 K := ⟨scale, scale⟩
    let u3 : Vec2 K := ⟨scale, 0⟩
    .ok (if i = nextFront then addFacet look m ((v0, v2, v3), u0, u2, u3)
      else if nextIndex = front then addFacet look m ((v0, v1, v3), u0, u1, u3)
      else addFacet look (addFacet look m ((v0, v2, v3), u0, u2, u3)) ((v0, v1, v2), u0, u1, u2))

/-- SkillionRoofBuilder.hpp:56-153, one iteration; the flag is false if the function returns false. With an empty mesh `lastPointIndex` wraps around
in the code; both indices are zero then, so that the result is the same. -/
def skillionRange (lib : Library K) (env : Env K) (look : Look K) (direction : Vec K) (height minHeight : K) (p : Poly K) (s : Mesh K × Bool)
    (range : Nat × Nat) : Outcome (Mesh K × Bool) :=
  if s.2 = false then .ok s
  else
    (rangePoints p range).bind fun points =>
    let center := Geometry.getCentroid points
    let outBack : Vec K := ⟨center.x - direction.x * (1 / 10), center.y - direction.y * (1 / 10)⟩
    let outFront : Vec K := ⟨center.x + direction.x * (1 / 10), center.y + direction.y * (1 / 10)⟩
    let roof := fillMesh {} (env.triangulate p) (fun _ q => (minHeight + 0, look.pointColor q, look.pointUv q)) false
    let count := roof.vertices.length
    let last := count - 3
    (foldO (findSide lib outBack outFront roof) ⟨count, count, env.huge, 0⟩ (visited 0 count 3 count)).bind fun sides =>
    if sides.front > last ∨ sides.back > last ∨ sides.front = sides.back then .ok (s.1, false)
    else
      let nextFront := if sides.front = last then 0 else sides.front + 3
      let maxHeight := minHeight + height
      (vertexAt roof sides.front).bind fun a => (vertexAt roof nextFront).bind fun b => (vertexAt roof sides.back).bind fun c =>
      let plane := roofPlane minHeight maxHeight a b c
      let roof := { roof with vertices := setHeights (fun i q h => if i = sides.front ∨ i = nextFront then h
        else clamp (calcHeight ⟨q.x, q.y⟩ plane.1 plane.2) minHeight maxHeight) 0 roof.vertices }
      (foldO (skillionSide look height minHeight sides.front nextFront roof) s.1 (visited 0 count 3 count)).bind fun m =>
      (copyMesh ⟨0, 0, 0⟩ roof m).bind fun m => .ok (m, true)

/-- SkillionRoofBuilder.hpp:37-156 -/
def skillionRoof (lib : Library K) (env : Env K) : Face K := fun look direction height minHeight p m =>
  (foldO (skillionRange lib env look (slope lib env.epsilon direction) height minHeight p) (m, true) p.outers).bind fun s =>
  if s.2 then writeTexture s.1 look.texture else .ok (flatRoof env.triangulate false look minHeight p s.1)

/-! ## Domes, cylinders and spheres -/

/-- utils/GeometryUtils.hpp:58-69: center and size -/
def getCircle (r : Rect K) : Vec K × Vec K :=
  let radiusX := (r.xMax - r.xMin) / 2
  let radiusY := (r.yMax - r.yMin) / 2
  (⟨r.xMin + radiusX, r.yMin + radiusY⟩, ⟨radiusX, radiusY⟩)

/-- utils/GeometryUtils.hpp:99-113: the visitor is called for each of these rectangles. -/
def outerRectangles (env : Env K) (p : Poly K) (visitor : Mesh K → Rect K → Outcome (Mesh K)) (m : Mesh K) : Outcome (Mesh K) :=
  match p.outers with
  | [_] => visitor m p.rectangle
  | outers => foldO (fun m outer => (rangePoints p outer).bind fun points => visitor m ((Rect.empty env.huge env.tiny).expandAll points)) m outers

/-- AbstractGenerator.hpp:63-79 without vertex noise: the texture coordinates are fixed. -/
def generated (t : Vec3 K × Vec3 K × Vec3 K) : Facet K := (t, ⟨0, 0⟩, ⟨1, 0⟩, ⟨1, 1⟩)

/-- DomeRoofBuilder.hpp:23-41 and SphereFacadeBuilder.hpp:22-39: half or whole of a sphere of level two, and the texture -/
def ball (lib : Library K) (epsilon : K) (look : Look K) (semi : Bool) (minHeight : K) (m : Mesh K) (rectangle : Rect K) : Outcome (Mesh K) :=
  let circle := getCircle rectangle
  let center := circle.1
  let size := circle.2
  let heightInMeters := lib.distance ⟨center.y, center.x⟩ ⟨center.y + size.y, center.x⟩
  let unit := Solids.normalized lib.sqrt epsilon
  (Solids.sphere (Solids.middleOf unit) (Solids.placeAt id ⟨center.x, minHeight, center.y⟩ ⟨size.x, heightInMeters, size.y⟩)
    (Solids.createVertexList unit ((1 + lib.sqrt 5) / 2)) semi 2).bind fun ts =>
  writeTexture ((ts.map generated).foldl (addFacet look) m) look.texture

/-- DomeRoofBuilder.hpp:21-43: the height of the roof is not used. -/
def domeRoof (lib : Library K) (env : Env K) : Face K := fun look _ _ minHeight p m =>
  outerRectangles env p (ball lib env.epsilon look true minHeight) m

/-- SphereFacadeBuilder.hpp:21-40: the height is not used. -/
def sphereFacade (lib : Library K) (env : Env K) : Face K := fun look _ _ minHeight p m => ball lib env.epsilon look false minHeight m p.rectangle

/-- CylinderGenerator.hpp:63, 66: `right` turned around `up` by a multiple of the step of seven segments -/
def turned (lib : Library K) (j : Nat) : Vec3 K :=
  let half := (j : K) * (2 * lib.pi / 7) * (1 / 2)
  let v := (Quaternion.fromAngleAxis (lib.sin half) (lib.cos half) ⟨0, 1, 0⟩).apply ⟨1, 0, 0⟩
  ⟨v.x, v.y, v.z⟩

/-- CylinderFacadeBuilder.hpp:21-34 with CylinderGenerator.hpp:61-62 -/
def tower (lib : Library K) (epsilon : K) (look : Look K) (height minHeight : K) (m : Mesh K) (rectangle : Rect K) : Outcome (Mesh K) :=
  let circle := getCircle rectangle
  let center := circle.1
  let size : Vec3 K := ⟨circle.2.x, height, circle.2.y⟩
  let heightSegments := lib.ceil (height / 5)
  let cylinder : Solids.Cylinder K := ⟨⟨center.x, minHeight, center.y⟩, ⟨0, 1, 0⟩, turned lib, size, size, 7, heightSegments.toNat, height / (heightSegments : K)⟩
  writeTexture (((cylinder.generate epsilon id).map generated).foldl (addFacet look) m) look.texture

/-- CylinderFacadeBuilder.hpp:19-36 -/
def cylinderFacade (lib : Library K) (env : Env K) : Face K := fun look _ height minHeight p m =>
  outerRectangles env p (tower lib env.epsilon look height minHeight) m

/-- BuildingBuilder.cpp:69-74, 81-98: the other roofs -/
def otherRoof (lib : Library K) (env : Env K) (type : String) : Option (Face K) :=
  if type = "dome" then some (domeRoof lib env)
  else if type = "mansard" then some (mansardRoof lib env)
  else if type = "skillion" then some (skillionRoof lib env)
  else if type = "round" then some (roundRoof lib env)
  else none

/-- BuildingBuilder.cpp:110-121: the other facades -/
def otherFacade (lib : Library K) (env : Env K) (type : String) : Option (Face K) :=
  if type = "cylinder" then some (cylinderFacade lib env)
  else if type = "sphere" then some (sphereFacade lib env)
  else none

/-- All roofs and facades of BuildingBuilder.cpp:55-122 -/
def complete (lib : Library K) (env : Env K) : Env K := { env with otherRoof := otherRoof lib env, otherFacade := otherFacade lib env }

/-- RoundRoofBuilder.hpp:104-112 over the real numbers: a vector multiplied with the interpolation between the quaternions of no turn and half a turn -/
noncomputable def realTurn (axis : Vec3 ℝ) (t : ℝ) (v : Vec3 ℝ) : Vec3 ℝ :=
  let direction : Quaternion.Vec3 ℝ := ⟨axis.x, axis.y, axis.z⟩
  let q0 := Quaternion.fromAngleAxis (Real.sin (0 * (1 / 2))) (Real.cos (0 * (1 / 2))) direction
  let q1 := Quaternion.fromAngleAxis (Real.sin (-Real.pi * (1 / 2))) (Real.cos (-Real.pi * (1 / 2))) direction
  let r := (Quaternion.slerp (fun y x => Complex.arg ⟨x, y⟩) q0 q1 t).apply ⟨v.x, v.y, v.z⟩
  ⟨r.x, r.y, r.z⟩

/-- The libraries over the real numbers; the conversion of texts, the distance in meters and the clipping library stay parameters. -/
noncomputable def realLibrary (parseDouble : String → ℝ) (distance : Geo ℝ → Geo ℝ → ℝ) (offset : Terrain.Path → ℝ → List Terrain.Path) : Library ℝ where
  sqrt := Real.sqrt
  sin := Real.sin
  cos := Real.cos
  pi := Real.pi
  ceil := Int.ceil
  toInt x := if 0 ≤ x then ⌊x⌋ else ⌈x⌉
  parseDouble := parseDouble
  distance := distance
  turn := realTurn
  offset := offset

end Verif.Roofs
