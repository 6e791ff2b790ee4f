import Mathlib.Data.List.Forall2
import Verif.Model.MeshBuilder

/-! # Specification of meshes -/
namespace Verif.MeshSpec
open Verif.MeshBuilder

variable {α : Type}

/-- There are `n` vertices, with one color and one pair of texture coordinates for each of them, and complete triangles which refer to them. -/
structure WellFormed (m : Mesh α) (n : Nat) : Prop where
  vertices : m.vertices.length = 3 * n
  colors : m.colors.length = n
  uvs : m.uvs.length = 2 * n
  triangles : 3 ∣ m.triangles.length
  range : ∀ t ∈ m.triangles, 0 ≤ t ∧ t < n

/-- One record of the texture map: the texture of the coordinates before `stop`. -/
structure Record where
  stop : Nat
  texture : Texture

/-- A record as it is stored. -/
def Record.entries (r : Record) : List Int :=
  [(r.stop : Int), r.texture.id, r.texture.atlasWidth, r.texture.atlasHeight, r.texture.x, r.texture.y, r.texture.width, r.texture.height]

/-- The texture map consists of these records, the ends do not decrease and do not exceed the number of coordinates. -/
structure Mapped (m : Mesh α) (records : List Record) : Prop where
  map : m.uvMap = records.flatMap Record.entries
  sorted : (records.map Record.stop).Pairwise (· ≤ ·)
  bounded : ∀ r ∈ records, r.stop ≤ m.uvs.length

/-- The texture of coordinate number `k`. -/
def textureOf (records : List Record) (k : Nat) : Option Texture := (records.find? fun r => k < r.stop).map Record.texture

/-- The coordinates with a smaller number have a texture. -/
def covered (records : List Record) : Nat := ((records.map Record.stop).getLast?).getD 0

/-- A mesh which was made by any sequence of operations from an empty mesh, given that the triangle library returns triangles between its
points. -/
inductive Built [Add α] [Zero α] : Mesh α → Prop where
  | empty : Built {}
  | clear {m} : Built m → Built (clear m)
  | polygon {m io} (attr flipSide) : Built m → (∀ t ∈ io.triangles, ∀ c ∈ [t.1, t.2.1, t.2.2], 0 ≤ c ∧ c < (io.points.length : Int)) →
      Built (fillMesh m io attr flipSide)
  | plane {m} (p1 p2 heightOffset color scaleX scaleY) : Built m → Built (addPlane m p1 p2 heightOffset color scaleX scaleY)
  | triangle {m} (v0 v1 v2 uv0 uv1 uv2 hasBackSide color) : Built m → Built (addTriangle m v0 v1 v2 uv0 uv1 uv2 hasBackSide color)
  | texture {m m'} (t) : Built m → writeTexture m t = .ok m' → Built m'
  | copy {source destination m'} (offset) : Built source → Built destination → copyMesh offset source destination = .ok m' → Built m'
  | heights {m} (f) : Built m → Built { m with vertices := setHeights f 0 m.vertices }

/-- Every vertex moved. -/
def moved [Add α] (offset : Vec3 α) (vertices : List α) : List α :=
  vertices.mapIdx fun i v => if i % 3 = 0 then v + offset.x else if i % 3 = 1 then v + offset.z else v + offset.y

/-- `c` is the centroid of the triangle whose first index is at position `i`, `third` divides by three. -/
def IsCentroid [Add α] (third : α → α) (m : Mesh α) (i : Nat) (c : Vec2 α) : Prop :=
  ∃ (t0 t1 t2 : Nat) (x0 x1 x2 y0 y1 y2 : α), m.triangles[i]? = some (t0 : Int) ∧ m.triangles[i + 1]? = some (t1 : Int) ∧
    m.triangles[i + 2]? = some (t2 : Int) ∧ m.vertices[3 * t0]? = some x0 ∧ m.vertices[3 * t1]? = some x1 ∧ m.vertices[3 * t2]? = some x2 ∧
    m.vertices[3 * t0 + 1]? = some y0 ∧ m.vertices[3 * t1 + 1]? = some y1 ∧ m.vertices[3 * t2 + 1]? = some y2 ∧
    c.x = third (x0 + x1 + x2) ∧ c.y = third (y0 + y1 + y2)

/-- The mesh is well formed and consists of the trees of these positions, one after the other. -/
def IsForest [Add α] (tree : Mesh α) (k : Nat) (off : Nat → Vec3 α) (m : Mesh α) (positions : List Nat) : Prop :=
  m.vertices = positions.flatMap (fun i => moved (off i) tree.vertices) ∧ WellFormed m (k * positions.length)

end Verif.MeshSpec
