import Mathlib.Data.List.Rotate
import Verif.Model.Roofs
import Verif.Props.BuildingSpec
import Verif.Props.MeshBuilderSpec
import Verif.Props.SolidsShapeSpec
import Verif.Props.PaintedSpec
import Verif.Props.GeometrySpec

/-! # Specification of roofs and facades -/
namespace Verif.RoofsSpec
open Verif.MeshBuilder Verif.ShownSpec Verif.PolygonSpec Verif.BuildingSpec Verif.SolidsShapeSpec
open Verif.Polygon (Vec Poly Rect)
open Verif.Building (Look)
open Verif.Roofs (Library)

variable {K : Type} [Field K] [LinearOrder K]

/-- What is assumed about the libraries: the square root, sine and cosine, rounding up, and the rotation around an axis by a part of half a turn. -/
structure Standard (lib : Library K) : Prop where
  sqrt : ∀ x, 0 ≤ x → 0 ≤ lib.sqrt x ∧ lib.sqrt x * lib.sqrt x = x
  circle : ∀ x, lib.sin x * lib.sin x + lib.cos x * lib.cos x = 1
  zero : lib.sin 0 = 0 ∧ lib.cos 0 = 1
  half : lib.sin lib.pi = 0 ∧ lib.cos lib.pi = -1
  ceil : ∀ x, (lib.ceil x : K) - 1 < x ∧ x ≤ (lib.ceil x : K)
  turn : ∀ (a v : Vec3 K) (t : K), dot a a = 1 → dot a v = 0 → lib.turn a t v =
    ⟨v.x * lib.cos (lib.pi * t) - (a.y * v.z - a.z * v.y) * lib.sin (lib.pi * t),
     v.y * lib.cos (lib.pi * t) - (a.z * v.x - a.x * v.z) * lib.sin (lib.pi * t),
     v.z * lib.cos (lib.pi * t) - (a.x * v.y - a.y * v.x) * lib.sin (lib.pi * t)⟩

/-- A point on the ground at this height. -/
def above (h : K) (v : Vec K) : Vec3 K := ⟨v.x, h, v.y⟩

/-- A triangle of one color. -/
def facet (look : Look K) (a b c : Vec3 K) (ua ub uc : Vec2 K) : Triangle K :=
  (⟨a, look.triangleColor a, ua⟩, ⟨b, look.triangleColor a, ub⟩, ⟨c, look.triangleColor a, uc⟩)

/-- The middle of two points. -/
def between (a b : Vec K) : Vec K := ⟨(a.x + b.x) / 2, (a.y + b.y) / 2⟩

/-- The square of the distance. -/
def square (a b : Vec K) : K := (a.x - b.x) * (a.x - b.x) + (a.y - b.y) * (a.y - b.y)

/-! ## Round roofs -/

/-- Point `j` of seven on the half ellipse from `a` up and down to `d`. -/
def arch (lib : Library K) (bottom height : K) (a d : Vec K) (j : Nat) : Vec3 K :=
  let m := between a d
  let angle := lib.pi * ((j : K) / 7)
  ⟨m.x + (a.x - m.x) * lib.cos angle, bottom + height * lib.sin angle, m.y + (a.y - m.y) * lib.cos angle⟩

/-- The vault from the arch over `a` and `d` to the arch over `b` and `c`, with the walls below both arches. -/
def vault (lib : Library K) (look : Look K) (bottom height : K) (a b c d : Vec K) : List (Triangle K) :=
  let front := arch lib bottom height a d
  let back := arch lib bottom height b c
  let u : Vec2 K := ⟨0, 0⟩
  (List.range 7).flatMap fun j =>
    [facet look (above bottom (between a d)) (front (j + 1)) (front j) u u u,
     facet look (above bottom (between b c)) (back j) (back (j + 1)) u u u,
     facet look (front j) (back (j + 1)) (back j) u u u,
     facet look (front (j + 1)) (back (j + 1)) (front j) u u u]

/-- The corners of a vault over a ring: a side of it is a longest side of the ring, or its arches are above the longest side and the opposite one. -/
def Ridge (ring : List (Vec K)) (across : Bool) (a b c d : Vec K) : Prop :=
  ring ~r [a, b, c, d] ∧
    if across then square a b ≤ square d a ∧ square b c ≤ square d a ∧ square c d ≤ square d a
    else square b c ≤ square a b ∧ square c d ≤ square a b ∧ square d a ≤ square a b

/-- The ends are parallel and not too short. -/
def ParallelEnds (epsilon : K) (a b c d : Vec K) : Prop :=
  4 * (epsilon * epsilon) < square a d ∧ 4 * (epsilon * epsilon) < square b c ∧
    ∃ k, 0 < k ∧ b.x - c.x = k * (a.x - d.x) ∧ b.y - c.y = k * (a.y - d.y)

/-- Four corners, and all ends a vault may have are parallel. -/
def Vaultable (epsilon : K) (across : Bool) (ring : List (Vec K)) : Prop :=
  ring.length = 4 ∧ ∀ a b c d, Ridge ring across a b c d → ParallelEnds epsilon a b c d

/-- A vault over each ring. -/
def RoundFaces (lib : Library K) (look : Look K) (across : Bool) (bottom height : K) (rings : List (List (Vec K))) (ts : List (Triangle K)) : Prop :=
  ∃ vaults, List.Forall₂ (fun ring new => ∃ a b c d, Ridge ring across a b c d ∧ new = vault lib look bottom height a b c d) rings vaults ∧ ts = vaults.flatten

/-- The edges of a roof over four corners whose ends are divided in the middle, seen from above: against the direction of the ring. -/
def dividedEdges (bottom : K) (a b c d : Vec K) : List (Vec3 K × Vec3 K) :=
  [(above bottom a, above bottom (between a d)), (above bottom (between a d), above bottom d), (above bottom d, above bottom c),
   (above bottom c, above bottom (between b c)), (above bottom (between b c), above bottom b), (above bottom b, above bottom a)]

/-! ## Mansard roofs -/

/-- The corner after each corner. -/
def following {β : Type} (ring : List β) : List β := ring.tail ++ ring.take 1

/-- Sides from lower corners to upper ones, two triangles for each side. -/
def slopes (look : Look K) (bottom height : K) (pairs : List (Vec K × Vec K)) : List (Triangle K) :=
  (pairs.zip (following pairs)).flatMap fun e =>
    let a := above bottom e.1.1
    let b := above bottom e.2.1
    let u := above (bottom + height) e.1.2
    let v := above (bottom + height) e.2.2
    let scale := look.scaled height
    [facet look v a u ⟨scale, scale⟩ ⟨0, 0⟩ ⟨0, scale⟩, facet look a v b ⟨0, 0⟩ ⟨scale, scale⟩ ⟨scale, 0⟩]

/-- The length of a shortest side. -/
def Shortest (ring : List (Vec K)) (side : K) : Prop :=
  0 ≤ side ∧ (∃ e ∈ ringEdges ring, side * side = square e.1 e.2) ∧ ∀ e ∈ ringEdges ring, side * side ≤ square e.1 e.2

/-- The sides are shorter than the largest number. -/
def Bounded (huge : K) (ring : List (Vec K)) : Prop := 0 < huge ∧ ∀ e ∈ ringEdges ring, square e.1 e.2 < huge * huge

/-- The points for the clipping library. -/
def scaled (lib : Library K) (ring : List (Vec K)) : Terrain.Path := ring.map fun v => (lib.toInt (v.x * 10 ^ 7), lib.toInt (v.y * 10 ^ 7))

/-- The points of the clipping library. -/
def unscaled (path : Terrain.Path) : List (Vec K) := path.map fun p => ⟨(p.1 : K) / 10 ^ 7, (p.2 : K) / 10 ^ 7⟩

/-- What the clipping library is asked for: the outline moved inside by a tenth of the shortest side. -/
def Moved (lib : Library K) (ring : List (Vec K)) (paths : List Terrain.Path) : Prop :=
  ∃ side, Shortest ring side ∧ paths = lib.offset (scaled lib ring) (-(side / 10) * 10 ^ 7)

/-- A polygon with one outline and nothing else. -/
def OnlyRing (p : Poly K) (ring : List (Vec K)) : Prop := p.points = ring.flatMap (fun v => [v.x, v.y]) ∧ p.outers = [(0, 2 * ring.length)] ∧ p.inners = []

/-- A mansard roof: a smaller flat part at the height of the roof, and sides to it from the corners of the outline, beginning with number `shift`. -/
def MansardFaces (triangulate : Poly K → TriangleIo K) (look : Look K) (bottom height : K) (ring top : List (Vec K)) (shift : Nat) (ts : List (Triangle K)) : Prop :=
  ∃ p flat, OnlyRing p top ∧ FlatFaces look (bottom + height) false (triangulate p) flat ∧
    ts = flat ++ slopes look bottom height ((ring.rotate shift).zip top)

/-- The border of a roof: the edges of the outlines, seen from above. -/
def roofEdges (bottom : K) (rings : List (List (Vec K))) : List (Vec3 K × Vec3 K) :=
  (rings.flatMap ringEdges).map fun e => (above bottom e.2, above bottom e.1)

/-! ## Skillion roofs -/

/-- The directions, clockwise from north. -/
def compass : List String := ["N", "NNE", "NE", "ENE", "E", "ESE", "SE", "SSE", "S", "SSW", "SW", "WSW", "W", "WNW", "NW", "NNW"]

/-- The vector in a direction, in degrees clockwise from north. -/
def heading (lib : Library K) (degrees : K) : Vec K := ⟨lib.sin (lib.pi * degrees / 180), lib.cos (lib.pi * degrees / 180)⟩

/-- A corner of a ring, again from the beginning after the last one. -/
def corner (ring : List (Vec K)) (j : Nat) : Vec K := ring.getD (j % ring.length) ⟨0, 0⟩

/-- Two segments which are not parallel have a common point. -/
def Crosses (a b c d q : Vec K) : Prop := ¬ GeometrySpec.Parallel a b c d ∧ GeometrySpec.OnSegment a b q ∧ GeometrySpec.OnSegment c d q

/-- The side where the line leaves the ring: no other one is crossed farther away from its start. -/
def IsFront (ring : List (Vec K)) (start finish : Vec K) (f : Nat) : Prop :=
  f < ring.length ∧ ∃ q, Crosses (corner ring f) (corner ring (f + 1)) start finish q ∧ 0 < square start q ∧
    ∀ j < ring.length, ∀ q', Crosses (corner ring j) (corner ring (j + 1)) start finish q' → square start q' ≤ square start q

/-- The corner next to where the line enters the ring: no side is crossed closer to its start. -/
def IsBack (ring : List (Vec K)) (start finish : Vec K) (k : Nat) : Prop :=
  ∃ j < ring.length, ∃ q, Crosses (corner ring j) (corner ring (j + 1)) start finish q ∧
    (∀ j < ring.length, ∀ q', Crosses (corner ring j) (corner ring (j + 1)) start finish q' → square start q ≤ square start q') ∧
    ((k = j ∧ square (corner ring j) q < square (corner ring (j + 1)) q) ∨
      (k = (j + 1) % ring.length ∧ square (corner ring (j + 1)) q ≤ square (corner ring j) q))

/-- The ends of the line through the middle of an outline, a tenth of a degree in both directions. -/
def lineStart (outline : List (Vec K)) (d : Vec K) : Vec K := ⟨(mean outline).x - d.x * (1 / 10), (mean outline).y - d.y * (1 / 10)⟩

def lineEnd (outline : List (Vec K)) (d : Vec K) : Vec K := ⟨(mean outline).x + d.x * (1 / 10), (mean outline).y + d.y * (1 / 10)⟩

/-- The degrees for a name: multiples of 22.5 without fractions for the names of directions, or a number. -/
def Degrees (lib : Library K) (name : String) (x : K) : Prop :=
  (∃ i, compass[i]? = some name ∧ x = ((45 * i / 2 : Nat) : K)) ∨ (name ∉ compass ∧ x = lib.parseDouble name)

/-- The height of a plane which contains `a` and `b` at the bottom and `c` at the top, but not below the bottom and not above the top. -/
def tilted (bottom height : K) (a b c q : Vec K) : K :=
  max bottom (min (bottom + height * (GeometrySpec.side a b q / GeometrySpec.side a b c)) (bottom + height))

/-- The walls between the bottom and a tilted roof, for all sides but the front, where the roof is at the bottom. -/
def panels (look : Look K) (bottom height : K) (lifted : Vec K → K) (ring : List (Vec K)) (front : Nat) : List (Triangle K) :=
  (List.range ring.length).flatMap fun j =>
    let a := corner ring j
    let b := corner ring (j + 1)
    let scale := look.scaled height
    let right := facet look (above bottom a) (above (lifted b) b) (above bottom b) ⟨0, 0⟩ ⟨scale, scale⟩ ⟨scale, 0⟩
    if j = front then []
    else if j = (front + 1) % ring.length then [right]
    else if (j + 1) % ring.length = front then [facet look (above bottom a) (above (lifted a) a) (above bottom b) ⟨0, 0⟩ ⟨0, scale⟩ ⟨scale, 0⟩]
    else [right, facet look (above bottom a) (above (lifted a) a) (above (lifted b) b) ⟨0, 0⟩ ⟨0, scale⟩ ⟨scale, scale⟩]

/-- A skillion roof: one tilted plane which begins at the bottom at the front side and is at its top at a corner on the other side, and the walls below it. -/
def SkillionFaces (look : Look K) (bottom height : K) (io : TriangleIo K) (ring : List (Vec K)) (front back : Nat) (ts : List (Triangle K)) : Prop :=
  let lifted := tilted bottom height (corner ring front) (corner ring (front + 1)) (corner ring back)
  let attr : Nat → Vec2 K → K × Int × Vec2 K := fun _ q => (lifted ⟨q.x, q.y⟩, look.pointColor q, look.pointUv q)
  ∃ surface, List.Forall₂ (fun c t => ∃ a b d : Corner K, IsPoint io attr c.1 a ∧ IsPoint io attr c.2.1 b ∧ IsPoint io attr c.2.2 d ∧ OtherSide t (a, b, d)) io.triangles surface ∧
    ts = panels look bottom height lifted ring front ++ surface

/-! ## Parts -/

/-- A part which is drawn to a mesh: the mesh shows what it showed before, a roof with `R` and a floor (if the part begins above the ground) with
the texture of the roof, and a wall for each edge of the outlines and holes with the texture of the facade. -/
def DrawnWith (env : Building.Env K) (part : BuildingSpec.Part K) (id : UInt64) (m : Mesh K) (done : List (Triangle K × Texture)) (start : Geo K)
    (R : TriangleIo K → List (List (Vec K)) → List (List (Vec K)) → K → List (Triangle K) → Prop) : Prop :=
  ∃ (p : Poly K) (holes : List (List (Vec K))) (m' : Mesh K) (roof floor : List (Triangle K)),
    let outlines := (part.rings.filter fun r => !r.2).map fun r => opened env.epsilon r.1
    let bottom := env.elevation start + part.style.minHeight
    let top := env.elevation start + (if part.style.height = 0 then 10 else part.style.height)
    polygonOf env part = .ok p ∧ List.Forall₂ (Stored p) outlines p.outers ∧ List.Forall₂ (Stored p) holes p.inners ∧
    holes.Sublist ((part.rings.filter fun r => r.2).map fun r => opened env.epsilon r.1) ∧
    BuildingSpec.drawPart env id m part = .ok m' ∧ MeshSpec.Built m' ∧
    Paints m' (done ++ (roof ++ floor).map (fun x => (x, (part.style.roofLook id).texture)) ++
      ((outlines ++ holes).flatMap (ringWalls (part.style.facadeLook id) bottom top)).map fun x => (x, (part.style.facadeLook id).texture)) [] ∧
    R (env.triangulate p) outlines holes top roof ∧
    if part.style.minHeight > 0 then FlatFaces (part.style.roofLook id) bottom true (env.triangulate p) floor else floor = []

/-- A part whose first ring is an outline which begins at `start`, no ring is empty, and the triangle library returns triangles between its points. -/
structure Drawable (env : Building.Env K) (part : BuildingSpec.Part K) (start : Geo K) : Prop where
  outline : ∃ (ring : List (Vec K)) (rest : List (List (Vec K) × Bool)), part.rings = (ground start :: ring, false) :: rest
  rings : ∀ r ∈ part.rings, opened env.epsilon r.1 ≠ []
  library : ∀ p, polygonOf env part = .ok p → InRange (env.triangulate p)

end Verif.RoofsSpec
