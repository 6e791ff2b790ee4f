import Verif.Props.BuildingSheetSpec
import Verif.Props.CurvedSpec

/-! # Specification of buildings with any roof and any walls from a stylesheet (C117)

Which roofs and walls can be drawn, and which faces are shown for each kind. -/
namespace Verif.RoofSheetSpec
open Verif.MeshBuilder Verif.ShownSpec Verif.PolygonSpec Verif.BuildingSpec Verif.RoofsSpec Verif.CurvedSpec
open Verif.Polygon (Vec Poly Rect)
open Verif.Building (Look)
open Verif.Roofs (Library)

variable {K : Type} [Field K] [LinearOrder K]

/-- The height of a part, ten metres if there is none. -/
def full (part : BuildingSpec.Part K) : K := if part.style.height = 0 then 10 else part.style.height

/-- The outlines of a part, without repeated points. -/
def outlinesOf (env : Building.Env K) (part : BuildingSpec.Part K) : List (List (Vec K)) := (part.rings.filter fun r => !r.2).map fun r => opened env.epsilon r.1

/-- The holes of a part, without repeated points. -/
def holesOf (env : Building.Env K) (part : BuildingSpec.Part K) : List (List (Vec K)) := (part.rings.filter fun r => r.2).map fun r => opened env.epsilon r.1

/-- The rectangle around a part is the smallest one. -/
structure Boxed (env : Building.Env K) (part : BuildingSpec.Part K) : Prop where
  corners : ∀ r ∈ part.rings, NorthEast env.huge env.tiny (opened env.epsilon r.1)
  holes : HolesWithin (outlinesOf env part) (holesOf env part)

/-- Number `s` is the corner next to a point, and it is in the first half of the ring. -/
def Nearest (ring : List (Vec K)) (q : Vec K) (s : Nat) : Prop :=
  s < (ring.length + 1) / 2 ∧ ∀ k < ring.length, k ≠ s → square q (ring.getD s ⟨0, 0⟩) < square q (ring.getD k ⟨0, 0⟩)

/-- The line through the middle of a ring crosses a side away from its start, and one not too far away from it, and the front side is not next to the corner in the back. -/
structure Tiltable (huge : K) (ring : List (Vec K)) (start finish : Vec K) : Prop where
  front : ∃ j < ring.length, ∃ q, Crosses (corner ring j) (corner ring (j + 1)) start finish q ∧ 0 < square start q
  back : ∃ j < ring.length, ∃ q, Crosses (corner ring j) (corner ring (j + 1)) start finish q ∧ square start q < huge * huge
  proper : ∀ f k, IsFront ring start finish f → IsBack ring start finish k → f ≠ k ∧ GeometrySpec.side (corner ring f) (corner ring (f + 1)) (corner ring k) ≠ 0

/-- The roof can be drawn. -/
inductive RoofAble (lib : Library K) (env : Building.Env K) (part : BuildingSpec.Part K) : Prop
  | plain : part.style.roofType ∈ ["none", "flat", "pyramidal"] → RoofAble lib env part
  | dome : part.style.roofType = "dome" → env.epsilon ≤ 1 / 2 → Boxed env part → RoofAble lib env part
  | round : part.style.roofType = "round" → 0 ≤ env.epsilon →
      (∀ ring ∈ outlinesOf env part, Vaultable env.epsilon (decide (part.style.roofDirection = "across")) ring) → RoofAble lib env part
  | mansard (contour ring : List (Vec K)) (first : Int × Int) (rest : Terrain.Path) (s : Nat) : part.style.roofType = "mansard" → part.rings = [(contour, false)] →
      opened env.epsilon contour = ring → Bounded env.huge ring → (∀ p, InRange (env.triangulate p)) → Moved lib ring [first :: rest] →
      (first :: rest).length = ring.length → 0 ≤ Terrain.area2 (first :: rest) → (∀ q, (unscaled (K := K) (first :: rest)).head? = some q → (∀ v ∈ ring, square q v < env.huge * env.huge) ∧ Nearest ring q s) →
      opened env.epsilon (unscaled (K := K) (first :: rest)) = unscaled (first :: rest) → RoofAble lib env part
  | mansardFlat (contour ring : List (Vec K)) (paths : List Terrain.Path) : part.style.roofType = "mansard" → part.rings = [(contour, false)] →
      opened env.epsilon contour = ring → Bounded env.huge ring → Moved lib ring paths → (∀ shape, paths = [shape] → shape.length ≠ ring.length) → RoofAble lib env part
  | skillion (contour ring : List (Vec K)) (x : K) : part.style.roofType = "skillion" → env.epsilon < 1 → 0 < env.huge → part.rings = [(contour, false)] →
      opened env.epsilon contour = ring → (∀ p, OnlyRing p ring → (env.triangulate p).points = ring.map fun v => ⟨v.x, v.y⟩) →
      Degrees lib part.style.roofDirection x → Tiltable env.huge ring (lineStart ring (heading lib x)) (lineEnd ring (heading lib x)) → RoofAble lib env part
  | skillionFlat (contour ring : List (Vec K)) (x : K) : part.style.roofType = "skillion" → env.epsilon < 1 → part.rings = [(contour, false)] →
      opened env.epsilon contour = ring → (∀ p, OnlyRing p ring → (env.triangulate p).points = ring.map fun v => ⟨v.x, v.y⟩) →
      Degrees lib part.style.roofDirection x →
      (∀ f k, IsFront ring (lineStart ring (heading lib x)) (lineEnd ring (heading lib x)) f →
        IsBack ring (lineStart ring (heading lib x)) (lineEnd ring (heading lib x)) k → f = k) → RoofAble lib env part

/-- The walls can be drawn. -/
inductive FacadeAble (lib : Library K) (env : Building.Env K) (part : BuildingSpec.Part K) : Prop
  | flat : part.style.facadeType = "flat" → FacadeAble lib env part
  | cylinder : part.style.facadeType = "cylinder" → Circular lib → 0 < full part - part.style.minHeight → env.epsilon ≤ full part - part.style.minHeight → Boxed env part →
      FacadeAble lib env part
  | sphere : part.style.facadeType = "sphere" → env.epsilon ≤ 1 / 2 → Boxed env part → FacadeAble lib env part

/-- A part which can be drawn: it begins with an outline, no ring is empty, the triangle library returns triangles between its points, and its roof and its walls can be drawn. -/
structure Able (lib : Library K) (env : Building.Env K) (part : BuildingSpec.Part K) : Prop where
  rings : ∃ start, RoofsSpec.Drawable (Roofs.complete lib env) part start
  roof : RoofAble lib env part
  facade : FacadeAble lib env part

/-- The faces of a roof of each kind. -/
inductive RoofShape (lib : Library K) (env : Building.Env K) (part : BuildingSpec.Part K) (look : Look K) (io : TriangleIo K) (outlines holes : List (List (Vec K)))
    (top : K) (roof : List (Triangle K)) : Prop
  | plain : RoofFaces look part.style.roofType part.style.roofHeight top io outlines roof → RoofShape lib env part look io outlines holes top roof
  | dome : part.style.roofType = "dome" → InRectangles (DomeFaces lib look top) outlines roof → RoofShape lib env part look io outlines holes top roof
  | round : part.style.roofType = "round" →
      (holes = [] → RoundFaces lib look (decide (part.style.roofDirection = "across")) top part.style.roofHeight outlines roof) →
      (holes ≠ [] → FlatFaces look top false io roof) → RoofShape lib env part look io outlines holes top roof
  | mansard (ring : List (Vec K)) (first : Int × Int) (rest : Terrain.Path) (s : Nat) : part.style.roofType = "mansard" → outlines = [ring] → holes = [] →
      Moved lib ring [first :: rest] → (first :: rest).length = ring.length → (∀ q, (unscaled (K := K) (first :: rest)).head? = some q → Nearest ring q s) →
      MansardFaces env.triangulate look top part.style.roofHeight ring (unscaled (first :: rest)) s roof → RoofShape lib env part look io outlines holes top roof
  | mansardFlat (ring : List (Vec K)) (paths : List Terrain.Path) : part.style.roofType = "mansard" → outlines = [ring] → holes = [] →
      Moved lib ring paths → (∀ shape, paths = [shape] → shape.length ≠ ring.length) → FlatFaces look top false io roof → RoofShape lib env part look io outlines holes top roof
  | skillion (ring : List (Vec K)) (x : K) (f k : Nat) : part.style.roofType = "skillion" → outlines = [ring] → holes = [] → Degrees lib part.style.roofDirection x →
      IsFront ring (lineStart ring (heading lib x)) (lineEnd ring (heading lib x)) f → IsBack ring (lineStart ring (heading lib x)) (lineEnd ring (heading lib x)) k →
      SkillionFaces look top part.style.roofHeight io ring f k roof → RoofShape lib env part look io outlines holes top roof
  | skillionFlat (ring : List (Vec K)) (x : K) : part.style.roofType = "skillion" → outlines = [ring] → holes = [] → Degrees lib part.style.roofDirection x →
      (∀ f k, IsFront ring (lineStart ring (heading lib x)) (lineEnd ring (heading lib x)) f →
        IsBack ring (lineStart ring (heading lib x)) (lineEnd ring (heading lib x)) k → f = k) →
      FlatFaces look top false io roof → RoofShape lib env part look io outlines holes top roof

/-- The faces of a part with their textures: a roof on its top, a floor below if it begins above the ground, and its walls. The ground is that below its first point. -/
def PartShape (lib : Library K) (env : Building.Env K) (id : UInt64) (part : BuildingSpec.Part K) (faces : List (Triangle K × Texture)) : Prop :=
  ∃ (start : Geo K) (ring : List (Vec K)) (rest : List (List (Vec K) × Bool)) (p : Poly K) (holes : List (List (Vec K))) (bottom top : K)
      (roof floor walls : List (Triangle K)),
    part.rings = (ground start :: ring, false) :: rest ∧ holes.Sublist (holesOf env part) ∧
    polygonOf env part = .ok p ∧ List.Forall₂ (Stored p) (outlinesOf env part) p.outers ∧ List.Forall₂ (Stored p) holes p.inners ∧
    bottom = env.elevation start + part.style.minHeight ∧ top = env.elevation start + full part ∧
    RoofShape lib env part (part.style.roofLook id) (env.triangulate p) (outlinesOf env part) holes top roof ∧
    AnyFacade lib (part.style.facadeLook id) part.style.facadeType bottom top (outlinesOf env part) holes walls ∧
    (if part.style.minHeight > 0 then FlatFaces (part.style.roofLook id) bottom true (env.triangulate p) floor else floor = []) ∧
    faces = (roof ++ floor).map (fun x => (x, (part.style.roofLook id).texture)) ++ walls.map fun x => (x, (part.style.facadeLook id).texture)

/-- A part above the ground with flat walls whose rings the triangle library fills; its roof is flat, pyramidal without holes below it, a mansard roof whose upper outline
the library fills, or a skillion roof. -/
structure Tight (lib : Library K) (env : Building.Env K) (part : BuildingSpec.Part K) : Prop where
  fill : ∀ p holes, polygonOf env part = .ok p → List.Forall₂ (Stored p) (outlinesOf env part) p.outers → List.Forall₂ (Stored p) holes p.inners →
    Fills (env.triangulate p) (outlinesOf env part ++ holes)
  roof : part.style.roofType = "flat" ∨ (part.style.roofType = "pyramidal" ∧ ∀ r ∈ part.rings, r.2 = false) ∨
    (part.style.roofType = "mansard" ∧ ∀ ring ∈ outlinesOf env part, ∀ path p, Moved lib ring [path] → OnlyRing p (unscaled path) → Fills (env.triangulate p) [unscaled path]) ∨
    part.style.roofType = "skillion"
  facade : part.style.facadeType = "flat"
  above : part.style.minHeight > 0

/-- A mesh shows the building of an element: all of its parts, one after the other, and nothing else; if all of them are tight, then the faces have no gap. -/
def IsHouse (lib : Library K) (env : Building.Env K) (e : Element (Geo K)) (m : UInt64 × MeshBuilder.Mesh K) : Prop :=
  m.1 = e.id ∧ ∃ faces, List.Forall₂ (PartShape lib env e.id) (parts env.style e) faces ∧ Paints m.2 faces.flatten [] ∧
    ((∀ part ∈ parts env.style e, Tight lib env part) → SolidsSpec.Closed (faces.flatten.map fun x => place x.1))

end Verif.RoofSheetSpec
