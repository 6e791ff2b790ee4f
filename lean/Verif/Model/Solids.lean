import Mathlib.Algebra.Order.Field.Basic
import Mathlib.Algebra.Order.Group.Unbundled.Abs
import Verif.Model.Basic
import Verif.Model.MeshBuilder

/-! # Spheres and cylinders

Models builders/generators/IcoSphereGenerator.cpp and builders/generators/CylinderGenerator.hpp: the triangles which are passed to
AbstractGenerator.hpp:63-79 (`addTriangle`). -/
namespace Verif.Solids
open Verif.MeshBuilder (Vec3)

/-- IcoSphereGenerator.cpp:8-13 -/
abbrev Indices := Nat × Nat × Nat

/-- IcoSphereGenerator.cpp:40-66 -/
def sphereFaces : List Indices :=
  [(0, 11, 5), (0, 5, 1), (0, 1, 7), (0, 7, 10), (0, 10, 11), (1, 5, 9), (5, 11, 4), (11, 10, 2), (10, 7, 6), (7, 1, 8),
   (3, 9, 4), (3, 4, 2), (3, 2, 6), (3, 6, 8), (3, 8, 9), (4, 9, 5), (2, 4, 11), (6, 2, 10), (8, 6, 7), (9, 8, 1)]

/-- IcoSphereGenerator.cpp:68-86 -/
def semiSphereFaces : List Indices :=
  [(0, 11, 5), (0, 5, 1), (0, 1, 7), (0, 7, 10), (0, 10, 11), (1, 5, 9), (5, 11, 4), (10, 7, 6), (7, 1, 8), (4, 9, 5), (8, 6, 7), (9, 8, 1)]

/-- IcoSphereGenerator.hpp:63-64: `vertexList_` and `middlePointIndexCache_`; vertices are of any type `V`. -/
structure Ico (V : Type) where
  vertices : List V
  cache : Assoc Nat Nat := []

variable {V : Type}

/-- IcoSphereGenerator.cpp:127-130: the key of an edge, in 64 bit arithmetic. -/
def edgeKey (p1 p2 : Nat) : Nat :=
  let smaller := if p1 < p2 then p1 else p2
  let greater := if p1 < p2 then p2 else p1
  (smaller * 2 ^ 32 % 2 ^ 64 + greater) % 2 ^ 64

/-- IcoSphereGenerator.cpp:125-152. `middle` is the normalised middle of two points (137-146). -/
def getMiddlePoint (middle : V → V → V) (st : Ico V) (p1 p2 : Nat) : Outcome (Ico V × Nat) :=
  match st.cache.find (edgeKey p1 p2) with
  | some i => .ok (st, i)
  | none =>
    match st.vertices[p1]?, st.vertices[p2]? with
    | some a, some b => .ok (⟨st.vertices ++ [middle a b], st.cache.emplace (edgeKey p1 p2) st.vertices.length⟩, st.vertices.length)
    | _, _ => .ub "index out of range"

/-- IcoSphereGenerator.cpp:96-109: one refinement of `faces`. -/
def refine (middle : V → V → V) : Ico V → List Indices → Outcome (Ico V × List Indices)
  | st, [] => .ok (st, [])
  | st, (v1, v2, v3) :: rest =>
    (getMiddlePoint middle st v1 v2).bind fun (st, a) =>
    (getMiddlePoint middle st v2 v3).bind fun (st, b) =>
    (getMiddlePoint middle st v3 v1).bind fun (st, c) =>
    (refine middle st rest).bind fun (st, faces2) =>
    .ok (st, (v1, a, c) :: (v2, b, a) :: (v3, c, b) :: (a, b, c) :: faces2)

/-- IcoSphereGenerator.cpp:93-110: every round refines the faces of the icosahedron again. -/
def refineLoop (middle : V → V → V) (faces : List Indices) : Nat → Ico V → List Indices → Outcome (Ico V × List Indices)
  | 0, st, meshFaces => .ok (st, meshFaces)
  | n + 1, st, _ => (refine middle st faces).bind fun (st, faces2) => refineLoop middle faces n st faces2

/-- The points of triangles; reading outside of the vertex list is undefined. -/
def pointsOf (vertices : List V) : List Indices → Outcome (List (V × V × V))
  | [] => .ok []
  | (i, j, k) :: rest =>
    match vertices[i]?, vertices[j]?, vertices[k]? with
    | some a, some b, some c => (pointsOf vertices rest).bind fun ts => .ok ((a, b, c) :: ts)
    | _, _, _ => .ub "index out of range"

/-- IcoSphereGenerator.cpp:89-123: the triangles passed to `addTriangle`. `base` is the result of `createVertexList`, `place` scales and moves
a point (115-117). Simplification: the recursion level is not negative (then the loop is skipped as for zero). -/
def sphere (middle : V → V → V) (place : V → V) (base : List V) (isSemiSphere : Bool) (recursionLevel : Nat) : Outcome (List (V × V × V)) :=
  let faces := if isSemiSphere then semiSphereFaces else sphereFaces
  (refineLoop middle faces recursionLevel ⟨base, []⟩ []).bind fun (st, meshFaces) =>
  (pointsOf st.vertices meshFaces).bind fun ts => .ok (ts.map fun (a, b, c) => (place a, place b, place c))

variable {K : Type} [Field K] [LinearOrder K]

/-- IcoSphereGenerator.cpp:16-37: the vertices of the icosahedron; `unit` normalises, `t` is the golden ratio. -/
def createVertexList (unit : Vec3 K → Vec3 K) (t : K) : List (Vec3 K) :=
  [unit ⟨-1, t, 0⟩, unit ⟨1, t, 0⟩, unit ⟨-1, -t, 0⟩, unit ⟨1, -t, 0⟩,
   unit ⟨0, -1, t⟩, unit ⟨0, 1, t⟩, unit ⟨0, -1, -t⟩, unit ⟨0, 1, -t⟩,
   unit ⟨t, 0, -1⟩, unit ⟨t, 0, 1⟩, unit ⟨-t, 0, -1⟩, unit ⟨-t, 0, 1⟩]

/-- Vector3.hpp:47-56; `sqrt` is the square root. -/
def normalized (sqrt : K → K) (epsilon : K) (v : Vec3 K) : Vec3 K :=
  let length := sqrt (v.x * v.x + v.y * v.y + v.z * v.z)
  if epsilon < length then ⟨v.x / length, v.y / length, v.z / length⟩ else ⟨0, 0, 0⟩

/-- IcoSphereGenerator.cpp:115-117 with IcoSphereGenerator.hpp:54-56 -/
def placeAt (translate : Vec3 K → Vec3 K) (center size v : Vec3 K) : Vec3 K :=
  translate ⟨v.x * size.x + center.x, v.y * size.y + center.y, v.z * size.z + center.z⟩

/-- IcoSphereGenerator.cpp:137-146 -/
def middleOf (unit : Vec3 K → Vec3 K) (a b : Vec3 K) : Vec3 K := unit ⟨(a.x + b.x) / 2, (a.y + b.y) / 2, (a.z + b.z) / 2⟩

/-- The members of CylinderGenerator.hpp:113-119. The rotations of `right` around the direction by multiples of the angle step (66-68) are
given as function of the multiple. -/
structure Cylinder (K : Type) where
  center : Vec3 K
  direction : Vec3 K
  rotated : Nat → Vec3 K
  size1 : Vec3 K
  size2 : Vec3 K
  radialSegments : Nat
  heightSegments : Nat
  heightStep : K

/-- CylinderGenerator.hpp:98-100, Vector3.hpp:18-22 -/
def Cylinder.isCone (epsilon : K) (c : Cylinder K) : Bool := |c.size2.x - 0| < epsilon ∧ |c.size2.y - 0| < epsilon ∧ |c.size2.z - 0| < epsilon

/-- MathUtils.hpp:36-38 -/
def lerp (a b r : K) : K := a * (1 - r) + b * r

/-- CylinderGenerator.hpp:102-106 -/
def Cylinder.getRadius (c : Cylinder K) (value : K) : Vec3 K :=
  ⟨lerp c.size2.x c.size1.x value, lerp c.size2.y c.size1.y value, lerp c.size2.z c.size1.z value⟩

/-- CylinderGenerator.hpp:108-111 -/
def scaleBy (value size : Vec3 K) : Vec3 K := ⟨value.x * size.x, value.y * size.x, value.z * size.z⟩

/-- Vector3.hpp operator+ and operator* with a number. -/
def plus (a b : Vec3 K) : Vec3 K := ⟨a.x + b.x, a.y + b.y, a.z + b.z⟩
/-- Vector3.hpp operator* -/
def times (a : Vec3 K) (f : K) : Vec3 K := ⟨a.x * f, a.y * f, a.z * f⟩

/-- CylinderGenerator.hpp:71-92: the triangles of radial segment `j` and height segment `i`. -/
def Cylinder.segment (epsilon : K) (c : Cylinder K) (translate : Vec3 K → Vec3 K) (j i : Nat) : List (Vec3 K × Vec3 K × Vec3 K) :=
  let direction1 := c.rotated j
  let direction2 := c.rotated (if j = c.radialSegments - 1 then 0 else j + 1)
  let radius1 := c.getRadius (((c.heightSegments : K) - i) / c.heightSegments)
  let radius2 := c.getRadius (((c.heightSegments : K) - i - 1) / c.heightSegments)
  let center1 := plus c.center (times c.direction (c.heightStep * i))
  let center2 := plus c.center (times c.direction (c.heightStep * (i + 1)))
  let v0 := translate (plus center1 (scaleBy direction1 radius1))
  let v1 := translate (plus center1 (scaleBy direction2 radius1))
  let v2 := translate (plus center2 (scaleBy direction2 radius2))
  let v3 := translate (plus center2 (scaleBy direction1 radius2))
  [(v1, v2, v0), (v0, v2, v3)] ++
    (if i = 0 then [(translate center1, v1, v0)] else []) ++
    if i = c.heightSegments - 1 ∧ ¬ c.isCone epsilon then [(translate center2, v3, v2)] else []

/-- CylinderGenerator.hpp:60-94 -/
def Cylinder.generate (epsilon : K) (c : Cylinder K) (translate : Vec3 K → Vec3 K) : List (Vec3 K × Vec3 K × Vec3 K) :=
  (List.range c.radialSegments).flatMap fun j => (List.range c.heightSegments).flatMap fun i => c.segment epsilon translate j i

/-- AbstractGenerator.hpp:63-79: the triangle which gets into the mesh; `noise` is `perlin2D` with the frequency of vertex noise. -/
def shifted (noise : K → K → K) (t : Vec3 K × Vec3 K × Vec3 K) : Vec3 K × Vec3 K × Vec3 K :=
  let n := noise t.1.x t.1.z
  (⟨t.1.x, t.1.y + n, t.1.z⟩, ⟨t.2.1.x, t.2.1.y + n, t.2.1.z⟩, ⟨t.2.2.x, t.2.2.y + n, t.2.2.z⟩)

end Verif.Solids
