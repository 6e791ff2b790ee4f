import Mathlib.Data.List.Forall2
import Verif.Model.MeshBuilder

/-! # What a mesh shows

The view of the renderer: it takes three indices after the other and draws the triangle between the vertices with these indices. -/
namespace Verif.ShownSpec
open Verif.MeshBuilder

variable {α : Type}

/-- A corner of a triangle on the screen; the height is `y`. -/
structure Corner (α : Type) where
  position : Vec3 α
  color : Int
  uv : Vec2 α
deriving DecidableEq

/-- A triangle on the screen. -/
abbrev Triangle (α : Type) := Corner α × Corner α × Corner α

/-- The vertex with this number is this corner: three numbers (east, north, up), one color and two texture coordinates. -/
structure CornerAt (m : Mesh α) (i : Nat) (c : Corner α) : Prop where
  east : m.vertices[3 * i]? = some c.position.x
  north : m.vertices[3 * i + 1]? = some c.position.z
  up : m.vertices[3 * i + 2]? = some c.position.y
  color : m.colors[i]? = some c.color
  u : m.uvs[2 * i]? = some c.uv.x
  v : m.uvs[2 * i + 1]? = some c.uv.y

/-- The mesh shows these triangles, in this order. -/
def Shows (m : Mesh α) (ts : List (Triangle α)) : Prop :=
  ∃ indices : List (Nat × Nat × Nat), m.triangles = indices.flatMap (fun i => [(i.1 : Int), (i.2.1 : Int), (i.2.2 : Int)]) ∧
    List.Forall₂ (fun i t => CornerAt m i.1 t.1 ∧ CornerAt m i.2.1 t.2.1 ∧ CornerAt m i.2.2 t.2.2) indices ts

/-- A vertical wall between two points of the ground, as two triangles which have the same orientation. -/
def wall [Add α] [Zero α] (p1 p2 : Vec3 α) (height : α) (color : Int) (scaleX scaleY : α) : List (Triangle α) :=
  let bottom1 : Corner α := ⟨p1, color, ⟨0, 0⟩⟩
  let bottom2 : Corner α := ⟨p2, color, ⟨scaleX, 0⟩⟩
  let top1 : Corner α := ⟨⟨p1.x, p1.y + height, p1.z⟩, color, ⟨0, scaleY⟩⟩
  let top2 : Corner α := ⟨⟨p2.x, p2.y + height, p2.z⟩, color, ⟨scaleX, scaleY⟩⟩
  [(bottom1, top2, bottom2), (top1, top2, bottom1)]

/-- The same triangle seen from the same side: only the choice of the first corner may differ. -/
def SameSide (s t : Triangle α) : Prop := s ∈ [t, (t.2.1, t.2.2, t.1), (t.2.2, t.1, t.2.1)]

/-- The same triangle seen from the other side. -/
def OtherSide (s t : Triangle α) : Prop := SameSide (s.1, s.2.2, s.2.1) t

/-- The corner for point number `c` of the triangle library. -/
def IsPoint (io : TriangleIo α) (attr : Nat → Vec2 α → α × Int × Vec2 α) (c : Int) (corner : Corner α) : Prop :=
  ∃ j p, c = ((j : Nat) : Int) ∧ io.points[j]? = some p ∧ corner = ⟨⟨p.x, (attr j p).1, p.y⟩, (attr j p).2.1, (attr j p).2.2⟩

/-- The corner moved by a vector. -/
def Corner.move [Add α] (o : Vec3 α) (c : Corner α) : Corner α := { c with position := ⟨c.position.x + o.x, c.position.y + o.y, c.position.z + o.z⟩ }

end Verif.ShownSpec
