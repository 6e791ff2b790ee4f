import Verif.Props.RoofsSpec
import Verif.Props.SolidsSpec

/-! # Specification of domes, cylinders and spheres -/
namespace Verif.CurvedSpec
open Verif.MeshBuilder Verif.ShownSpec Verif.PolygonSpec Verif.BuildingSpec Verif.SolidsShapeSpec Verif.RoofsSpec
open Verif.Polygon (Vec Poly Rect)
open Verif.Building (Look)
open Verif.Roofs (Library)
open Verif.SolidsSpec (Closed)

variable {K : Type} [Field K] [LinearOrder K]

/-- Three points. -/
abbrev Tri (K : Type) := Vec3 K × Vec3 K × Vec3 K

/-- The tips of a triangle. -/
def tips (t : Tri K) : List (Vec3 K) := [t.1, t.2.1, t.2.2]

/-- A triangle which shows the whole texture. -/
def whole (look : Look K) (t : Tri K) : Triangle K := facet look t.1 t.2.1 t.2.2 ⟨0, 0⟩ ⟨1, 0⟩ ⟨1, 1⟩

/-- The middle of a rectangle. -/
def centre (r : Rect K) : Vec K := ⟨(r.xMin + r.xMax) / 2, (r.yMin + r.yMax) / 2⟩

/-- Half of the size of a rectangle. -/
def halves (r : Rect K) : Vec K := ⟨(r.xMax - r.xMin) / 2, (r.yMax - r.yMin) / 2⟩

/-- The ellipsoid in a rectangle: it is as high above its middle, in meters, as it is wide from the middle to the north. -/
def bulge (lib : Library K) (bottom : K) (r : Rect K) (u : Vec3 K) : Vec3 K :=
  ellipsoid ⟨(centre r).x, bottom, (centre r).y⟩
    ⟨(halves r).x, lib.distance ⟨(centre r).y, (centre r).x⟩ ⟨(centre r).y + (halves r).y, (centre r).x⟩, (halves r).y⟩ u

/-- A sphere of 80 triangles without border which faces outwards. -/
def SphereFaces (lib : Library K) (look : Look K) (bottom : K) (r : Rect K) (ts : List (Triangle K)) : Prop :=
  ∃ us : List (Tri K), (∀ u ∈ us, Outward u) ∧ Closed us ∧ us.length = 80 ∧
    ts = us.map fun u => whole look (bulge lib bottom r u.1, bulge lib bottom r u.2.1, bulge lib bottom r u.2.2)

/-- Three fifths of such a sphere: what is left out is in its lower half. -/
def DomeFaces (lib : Library K) (look : Look K) (bottom : K) (r : Rect K) (ts : List (Triangle K)) : Prop :=
  ∃ us below : List (Tri K), (∀ u ∈ us ++ below, Outward u) ∧ Closed (us ++ below) ∧ us.length = 48 ∧ below.length = 32 ∧
    (∀ u ∈ below, ∀ c ∈ tips u, c.y ≤ 0) ∧
    ts = us.map fun u => whole look (bulge lib bottom r u.1, bulge lib bottom r u.2.1, bulge lib bottom r u.2.2)

/-- Sine and cosine of sums, and the sine of the seventh part of a turn. -/
structure Circular (lib : Library K) : Prop where
  sin_add : ∀ x y, lib.sin (x + y) = lib.sin x * lib.cos y + lib.cos x * lib.sin y
  cos_add : ∀ x y, lib.cos (x + y) = lib.cos x * lib.cos y - lib.sin x * lib.sin y
  seventh : 0 < lib.sin (2 * lib.pi / 7)

/-- Point `j` of seven on the ellipse in a rectangle, at height `i` of `n`. -/
def rim (lib : Library K) (bottom height : K) (r : Rect K) (n j i : Nat) : Vec3 K :=
  ⟨(centre r).x + (halves r).x * lib.cos (2 * lib.pi * j / 7), bottom + height * i / n, (centre r).y - (halves r).y * lib.sin (2 * lib.pi * j / 7)⟩

/-- The point in the middle of the ellipse. -/
def core (bottom height : K) (r : Rect K) (n i : Nat) : Vec3 K := ⟨(centre r).x, bottom + height * i / n, (centre r).y⟩

/-- The difference of two points. -/
def apart (a b : Vec3 K) : Vec3 K := ⟨a.x - b.x, a.y - b.y, a.z - b.z⟩

/-- The triangle faces away from the point. -/
def Away (c : Vec3 K) (t : Tri K) : Prop := 0 < volume (apart t.1 c) (apart t.2.1 c) (apart t.2.2 c)

/-- A prism with seven sides in a rectangle, without border, in storeys of at most five meters. -/
def TowerFaces (lib : Library K) (look : Look K) (bottom height : K) (r : Rect K) (ts : List (Triangle K)) : Prop :=
  ∃ (n : Nat) (us : List (Tri K)), ((n : K) - 1) * 5 < height ∧ height ≤ (n : K) * 5 ∧ Closed us ∧ us.length = 7 * (2 * n + 2) ∧
    (∀ u ∈ us, ∀ c ∈ tips u, (∃ i, (i = 0 ∨ i = n) ∧ c = core bottom height r n i) ∨ ∃ j < 7, ∃ i ≤ n, c = rim lib bottom height r n j i) ∧
    (∀ j < 7, ∀ i ≤ n, ∃ u ∈ us, rim lib bottom height r n j i ∈ tips u) ∧
    (0 < (halves r).x → 0 < (halves r).y → ∀ u ∈ us, Away ⟨(centre r).x, bottom + height / 2, (centre r).y⟩ u) ∧
    ts = us.map (whole look)

/-- Such faces for each ring, in the smallest rectangle which contains it. -/
def InRectangles (F : Rect K → List (Triangle K) → Prop) (rings : List (List (Vec K))) (ts : List (Triangle K)) : Prop :=
  ∃ blocks, List.Forall₂ (fun ring new => ∃ r, Smallest r ring ∧ F r new) rings blocks ∧ ts = blocks.flatten

/-- A ring with a point east of Greenwich and one north of the equator, and no point is too far away. -/
def NorthEast (huge tiny : K) (points : List (Vec K)) : Prop :=
  (∃ v ∈ points, tiny ≤ v.x) ∧ (∃ v ∈ points, tiny ≤ v.y) ∧ ∀ v ∈ points, v.x ≤ huge ∧ v.y ≤ huge

/-- The holes do not stick out of the rectangle of the outline. -/
def HolesWithin (outlines holes : List (List (Vec K))) : Prop :=
  ∀ o ∈ outlines, ∀ h ∈ holes, ∀ v ∈ h, ∀ r, Smallest r o → Inside r v

/-- The roof. -/
def AnyRoof (lib : Library K) (look : Look K) (type : String) (height top : K) (io : TriangleIo K) (outlines : List (List (Vec K))) (ts : List (Triangle K)) : Prop :=
  RoofFaces look type height top io outlines ts ∨ type = "dome" ∧ InRectangles (DomeFaces lib look top) outlines ts

/-- The facade. -/
def AnyFacade (lib : Library K) (look : Look K) (type : String) (bottom top : K) (outlines holes : List (List (Vec K))) (ts : List (Triangle K)) : Prop :=
  type = "flat" ∧ ts = (outlines ++ holes).flatMap (ringWalls look bottom top) ∨
  type = "cylinder" ∧ InRectangles (TowerFaces lib look bottom (top - bottom)) outlines ts ∨
  type = "sphere" ∧ ∃ r, Smallest r (outlines ++ holes).flatten ∧ SphereFaces lib look bottom r ts

/-- A part with any roof, floor and facade, as in `BuildingSpec`. -/
def DrawnAs (env : Building.Env K) (part : BuildingSpec.Part K) (id : UInt64) (m : Mesh K) (done : List (Triangle K × Texture)) (start : Geo K)
    (R : TriangleIo K → List (List (Vec K)) → List (List (Vec K)) → K → List (Triangle K) → Prop)
    (W : List (List (Vec K)) → List (List (Vec K)) → K → K → List (Triangle K) → Prop) : Prop :=
  ∃ (p : Poly K) (holes : List (List (Vec K))) (m' : Mesh K) (roof floor walls : List (Triangle K)),
    let outlines := (part.rings.filter fun r => !r.2).map fun r => opened env.epsilon r.1
    let bottom := env.elevation start + part.style.minHeight
    let top := env.elevation start + (if part.style.height = 0 then 10 else part.style.height)
    polygonOf env part = .ok p ∧ List.Forall₂ (Stored p) outlines p.outers ∧ List.Forall₂ (Stored p) holes p.inners ∧
    holes.Sublist ((part.rings.filter fun r => r.2).map fun r => opened env.epsilon r.1) ∧
    BuildingSpec.drawPart env id m part = .ok m' ∧ MeshSpec.Built m' ∧
    Paints m' (done ++ (roof ++ floor).map (fun x => (x, (part.style.roofLook id).texture)) ++ walls.map fun x => (x, (part.style.facadeLook id).texture)) [] ∧
    R (env.triangulate p) outlines holes top roof ∧ W outlines holes bottom top walls ∧
    if part.style.minHeight > 0 then FlatFaces (part.style.roofLook id) bottom true (env.triangulate p) floor else floor = []

end Verif.CurvedSpec
