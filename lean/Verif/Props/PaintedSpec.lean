import Verif.Props.MeshBuilderSpec
import Verif.Props.ShownSpec

/-! # What a mesh shows, with textures -/
namespace Verif.ShownSpec
open Verif.MeshBuilder Verif.MeshSpec

variable {α : Type}

/-- The triangle between the vertices with these numbers. -/
def TriangleAt (m : Mesh α) (i : Nat × Nat × Nat) (t : Triangle α) : Prop := CornerAt m i.1 t.1 ∧ CornerAt m i.2.1 t.2.1 ∧ CornerAt m i.2.2 t.2.2

/-- Both texture coordinates of a vertex are in this texture. -/
def TexturedBy (records : List Record) (t : Texture) (i : Nat) : Prop := textureOf records (2 * i) = some t ∧ textureOf records (2 * i + 1) = some t

/-- The mesh shows these triangles with these textures, in this order, and then some triangles which have no texture yet. -/
def Paints (m : Mesh α) (done : List (Triangle α × Texture)) (rest : List (Triangle α)) : Prop :=
  ∃ (records : List Record) (ids ids' : List (Nat × Nat × Nat)), Mapped m records ∧
    m.triangles = (ids ++ ids').flatMap (fun i => [(i.1 : Int), (i.2.1 : Int), (i.2.2 : Int)]) ∧
    List.Forall₂ (fun i t => TriangleAt m i t.1 ∧ TexturedBy records t.2 i.1 ∧ TexturedBy records t.2 i.2.1 ∧ TexturedBy records t.2 i.2.2) ids done ∧
    List.Forall₂ (fun i t => TriangleAt m i t ∧ covered records ≤ 2 * i.1 ∧ covered records ≤ 2 * i.2.1 ∧ covered records ≤ 2 * i.2.2) ids' rest

/-- Some triangles of the triangle library, at the heights and with the attributes of its points, seen from above. -/
def IsSurface (io : TriangleIo α) (attr : Nat → Vec2 α → α × Int × Vec2 α) (ts : List (Triangle α)) : Prop :=
  List.Forall₂ (fun c t => ∃ a b d, IsPoint io attr c.1 a ∧ IsPoint io attr c.2.1 b ∧ IsPoint io attr c.2.2 d ∧ OtherSide t (a, b, d)) io.triangles ts

end Verif.ShownSpec
