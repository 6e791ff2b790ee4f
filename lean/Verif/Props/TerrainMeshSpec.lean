import Verif.Props.PaintedSpec
import Verif.Props.TerrainSpec

/-! # Specification of the meshes of terrain -/
namespace Verif.TerrainSpec
open Verif.Terrain Verif.ShownSpec
open Verif.MeshBuilder (Mesh Vec2 Vec3 Texture)
open Verif.Polygon (Vec Poly Rect)

variable {K : Type} [Field K] [LinearOrder K] [IsStrictOrderedRing K] [FloorRing K]

/-- The sides of a ring: from each point to the next one, and from the last back to the first. -/
def sides {A : Type} (ring : List A) : List (A × A) := ring.zip (ring.tail ++ ring.take 1)

/-- Twice the signed area of a ring. -/
def doubleArea (p : Path) : Int := ((sides p).map fun s => s.1.1 * s.2.2 - s.2.1 * s.1.2).sum

/-- A path in degrees, split by the grid (C42). -/
def ringOf (env : Env K) (path : Path) : List (Vec K) :=
  LineGrid.restoreGeometry env.epsilon env.step (path.map fun q => ⟨(q.1 : K) / 10000000, (q.2 : K) / 10000000⟩)

/-- A point on the ground. -/
def onGround (env : Env K) (p : Vec K) : Vec3 K := ⟨p.x, env.elevation ⟨p.y, p.x⟩, p.y⟩

/-- The walls between the ground and the raised (or lowered) surface: along the sides of a ring, except for those at the border of the tile. -/
def skirtsOf (env : Env K) (c : Context K) (ring : List (Vec K)) : List (Triangle K) :=
  if c.heightOffset = 0 then []
  else ((sides ring).filter fun s => ¬ (env.rect.isOnBorder (1 / 10 ^ 8) s.1 ∧ env.rect.isOnBorder (1 / 10 ^ 8) s.2)).flatMap fun s =>
    let a := onGround env s.1
    let b := onGround env s.2
    let scale := c.look.planeScale a b c.heightOffset
    wall a b c.heightOffset (c.look.planeColor a) scale.1 scale.2

/-- The walls of a piece. -/
def skirts (env : Env K) (p : Piece K) : List (Triangle K) := p.kept.flatMap fun path => skirtsOf env p.context (ringOf env path)

/-- The polygon of a piece: its paths split by the grid, those which run in the negative direction are holes. -/
def IsPolygon (env : Env K) (p : Piece K) (poly : Poly K) : Prop :=
  Polygon.addAll env.epsilon env.huge env.tiny { rectangle := Rect.empty env.huge env.tiny }
    (p.kept.map fun path => (ringOf env path, decide (doubleArea path < 0))) = .ok poly

/-- The height and the look of a point of the surface. -/
def surfaceAt (env : Env K) (c : Context K) (i : Nat) (q : Vec2 K) : K × Int × Vec2 K :=
  (env.elevation ⟨q.y, q.x⟩ + c.heightOffset + c.noise i q, c.look.pointColor q, c.look.pointUv q)

/-- The extra meshes for a piece whose surface `top` is the end of what `mesh` shows: only a forest has some, and gets this surface. -/
def IsExtras (env : Env K) (c : Context K) (mesh : Mesh K) (top : List (Triangle K)) (extras : List (String × Mesh K)) : Prop :=
  (c.extras = "" ∨ c.extras = "water") ∧ extras = [] ∨
    c.extras = "forest" ∧ ∃ before trees, Shows mesh (before ++ top) ∧ env.forest c mesh (3 * before.length) = .ok trees ∧
      extras = trees.map fun t => ("forest", t)

/-- What is made of a piece: its surface, and the meshes which are delivered for it: the extras, and a mesh with its surface if it has its own one. -/
def IsPiece (env : Env K) (p : Piece K) (top : List (Triangle K)) (delivered : List (String × Mesh K)) : Prop :=
  ∃ poly, IsPolygon env p poly ∧
    (poly.points = [] ∧ top = [] ∧ delivered = [] ∨
      poly.points ≠ [] ∧ IsSurface (p.context.triangulate poly) (surfaceAt env p.context) top ∧ ∃ mesh extras, IsExtras env p.context mesh top extras ∧
        (p.context.meshName = "" ∧ delivered = extras ∨
          p.context.meshName ≠ "" ∧ Paints mesh (top.map fun t => (t, p.context.look.texture)) [] ∧ delivered = extras ++ [(p.context.meshName, mesh)]))

/-- What the common mesh shows of a piece: its walls, and its surface if it has no mesh of its own. -/
def common (env : Env K) (p : Piece K) (top : List (Triangle K)) : List (Triangle K) :=
  skirts env p ++ if p.context.meshName = "" then top else []

/-- The piece has a polygon with points. -/
def HasPoints (env : Env K) (p : Piece K) : Prop := ∃ poly, IsPolygon env p poly ∧ poly.points ≠ []

/-- The triangles of the triangle library are between its points. -/
def InRange (c : Context K) : Prop :=
  ∀ poly, ∀ t ∈ (c.triangulate poly).triangles, ∀ i ∈ [t.1, t.2.1, t.2.2], 0 ≤ i ∧ i < ((c.triangulate poly).points.length : Int)

end Verif.TerrainSpec
