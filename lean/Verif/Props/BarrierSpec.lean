import Verif.Model.Barrier
import Verif.Props.AlongSpec
import Verif.Props.PaintedSpec
import Verif.Props.BuildingSpec

/-! # Specification of walls and barriers -/
namespace Verif.BarrierSpec
open Verif.MeshBuilder Verif.ShownSpec Verif.AlongSpec Verif.BuildingSpec
open Verif.Along (World Delivered)
open Verif.Building (Look)
open Verif.Barrier (WallSize Style Env)

variable {K : Type} [Field K] [LinearOrder K]

/-! ## Walls -/

/-- How many pieces a part of a way has: as many as fit, but at least one. -/
def PieceCount (full distance : K) (count : Nat) : Prop := ∃ n, Fits full distance n ∧ count = max n 1

/-- `count` equal parts of the line from `p` to `q`, of which only the share `ratio` at their begin is used. -/
def pieces (ratio : K) (count : Nat) (p q : Geo K) : List (Geo K × Geo K) :=
  (List.range count).map fun j : Nat => (share p q ((j : K) / (count : K)), share p q (((j : K) + ratio) / (count : K)))

/-- The point beside `a`, on the ground. -/
def besideGround (elevation : Geo K → K) (heightOffset width : K) (n : Vec2 K) (a : Geo K) : Vec3 K :=
  ⟨a.lon + width * n.x, heightOffset + elevation ⟨a.lat + width * n.y, a.lon + width * n.x⟩, a.lat + width * n.y⟩

/-- The triangle on the top of a wall. -/
def topFace (look : Look K) (height : K) (a b c : Vec3 K) : Triangle K :=
  let color := look.triangleColor ⟨a.x, a.y + height, a.z⟩
  (⟨⟨a.x, a.y + height, a.z⟩, color, ⟨0, 0⟩⟩, ⟨⟨b.x, b.y + height, b.z⟩, color, ⟨1, 0⟩⟩, ⟨⟨c.x, c.y + height, c.z⟩, color, ⟨1, 1⟩⟩)

/-- One side of a wall. -/
def sideFaces (look : Look K) (height : K) (a b : Vec3 K) : List (Triangle K) :=
  ShownSpec.wall a b height (look.planeColor a) (look.planeScale a b height).1 (look.planeScale a b height).2

/-- The faces of a piece of a wall with these four corners on the ground. -/
def boxFaces (look : Look K) (height : K) (left0 left1 right0 right1 : Vec3 K) : List (Triangle K) :=
  sideFaces look height left1 left0 ++ sideFaces look height right1 left1 ++ sideFaces look height right0 right1 ++ sideFaces look height left0 right0 ++
    [topFace look height left0 left1 right0, topFace look height right0 left1 right1]

/-- The faces are those of a piece of a wall from `a` to `b`: its corners are beside its ends, on the ground, at distance `width` to the left and to the
right. -/
def IsBox (look : Look K) (elevation : Geo K → K) (size : WallSize K) (piece : Geo K × Geo K) (ts : List (Triangle K)) : Prop :=
  ∃ n : Vec2 K, n.x * (piece.2.lon - piece.1.lon) + n.y * (piece.2.lat - piece.1.lat) = 0 ∧ n.x * n.x + n.y * n.y = 1 ∧
    0 < (piece.2.lon - piece.1.lon) * n.y - (piece.2.lat - piece.1.lat) * n.x ∧
    ts = boxFaces look size.height (besideGround elevation size.heightOffset size.width n piece.1) (besideGround elevation size.heightOffset size.width n piece.2)
      (besideGround elevation size.heightOffset (- size.width) n piece.1) (besideGround elevation size.heightOffset (- size.width) n piece.2)

/-- The pieces of a part of a way. -/
def Pieces (w : World K) (size : WallSize K) (p : Geo K × Geo K) (row : List (Geo K × Geo K)) : Prop :=
  ∃ count, PieceCount (size.length + size.gap) (w.distance p.1 p.2) count ∧ row = pieces (size.length / (size.length + size.gap)) count p.1 p.2

/-- A wall can be built: the length is positive, the gap is not negative, numbers of pieces are in the range of `int`, and the pieces have a direction. -/
structure Buildable (w : World K) (size : WallSize K) (cs : List (Geo K)) : Prop where
  length : 0 < size.length
  gap : 0 ≤ size.gap
  distance : ∀ p ∈ parts cs, 0 ≤ w.distance p.1 p.2 ∧ w.distance p.1 p.2 < 2 ^ 31 * (size.length + size.gap)
  direction : ∀ p ∈ parts cs, ∀ row, Pieces w size p row → ∀ piece ∈ row,
    w.epsilon < w.sqrt ((piece.2.lon - piece.1.lon) * (piece.2.lon - piece.1.lon) + (piece.2.lat - piece.1.lat) * (piece.2.lat - piece.1.lat))

/-- What a wall along a way shows: a box for each of its pieces. -/
def WallFaces (w : World K) (look : Look K) (size : WallSize K) (cs : List (Geo K)) (ts : List (Triangle K)) : Prop :=
  ∃ (rows : List (List (Geo K × Geo K))) (boxes : List (List (Triangle K))), List.Forall₂ (Pieces w size) (parts cs) rows ∧
    List.Forall₂ (IsBox look w.elevation size) rows.flatten boxes ∧ ts = boxes.flatten

/-- The spanned volume of a triangle seen from `p`: positive if it faces away from `p`. The height is `y`. -/
def facing (p : Vec3 K) (t : Vec3 K × Vec3 K × Vec3 K) : K :=
  let a : Vec3 K := ⟨t.1.x - p.x, t.1.y - p.y, t.1.z - p.z⟩
  let b : Vec3 K := ⟨t.2.1.x - p.x, t.2.1.y - p.y, t.2.1.z - p.z⟩
  let c : Vec3 K := ⟨t.2.2.x - p.x, t.2.2.y - p.y, t.2.2.z - p.z⟩
  a.x * (b.y * c.z - b.z * c.y) - a.y * (b.x * c.z - b.z * c.x) + a.z * (b.x * c.y - b.y * c.x)

/-! ## Barriers -/

mutual
/-- The elements which are not relations, in order: their ids and coordinates. -/
def simple : Element (Geo K) → List (UInt64 × List (Geo K))
  | .node id _ c => [(id, [c])]
  | .way id _ cs => [(id, cs)]
  | .area id _ cs => [(id, cs)]
  | .relation _ _ members => simpleIn members
/-- The same for a list of elements. -/
def simpleIn : List (Element (Geo K)) → List (UInt64 × List (Geo K))
  | [] => []
  | e :: es => simple e ++ simpleIn es
end

/-- The surface of a pillar of this style with the middle of its bottom at `base`. -/
def pillarSurface [FloorRing K] (env : Env K) (style : Style K) (base : Vec3 K) : List (Vec3 K × Vec3 K × Vec3 K) :=
  Solids.Cylinder.generate env.world.epsilon
    { center := base, direction := ⟨0, 1, 0⟩, rotated := env.rotated, size1 := ⟨style.radiusX, style.height, style.radiusZ⟩,
      size2 := ⟨style.radiusX, style.height, style.radiusZ⟩, radialSegments := 7, heightSegments := ⌈style.height / 5⌉.toNat,
      heightStep := style.height / (⌈style.height / 5⌉.toNat : K) } id

/-- The spots of pillars along a way. -/
def PillarRow (w : World K) (style : Style K) (p : Geo K × Geo K) (row : List (Geo K)) : Prop :=
  ∃ count, Fits style.step (w.distance p.1 p.2) count ∧ row = spots p.1 p.2 count

/-- The mesh shows exactly these triangles, all of them with the texture of the look. -/
def Textured (m : Mesh K) (look : Look K) (ts : List (Triangle K)) : Prop := Shows m ts ∧ Paints m (ts.map fun t => (t, look.texture)) []

/-- The triangle has one color, that of its first corner `p` where it was drawn; `move` brings what was drawn to the place where it is shown. -/
def Tinted (look : Look K) (move : Vec3 K → Vec3 K) (t : Triangle K) : Prop :=
  ∃ p, t.1.position = move p ∧ t.1.color = look.triangleColor p ∧ t.2.1.color = look.triangleColor p ∧ t.2.2.color = look.triangleColor p

/-- What is delivered for an element with this id and these coordinates in an element `top` which is visited: the style of `top` decides. The pillars along
a way are too high by the elevation of the first coordinate of the way. All triangles have the texture of the look. The triangles of a pillar have the colors
of the look for their places; the pillars along a way have those of a pillar at its first coordinate. -/
def Barriers [FloorRing K] (env : Env K) (job : Element (Geo K) × UInt64 × List (Geo K)) (ds : List (Delivered K)) : Prop :=
  let style := env.style job.1
  if style.pillar then
    match job.2.2 with
    | [] => ds = []
    | [c] => ∃ m ts, ds = [⟨"barrier:", job.2.1, m⟩] ∧ MeshSpec.Built m ∧ Textured m (style.look job.2.1) ts ∧
        ts.map place = pillarSurface env style ⟨c.lon, env.world.elevation c, c.lat⟩ ∧ ∀ t ∈ ts, Tinted (style.look job.2.1) (fun p => p) t
    | c :: cs => ∃ (m : Mesh K) (ts : List (Triangle K)) (rows : List (List (Geo K))), ds = [⟨"barrier:", job.2.1, m⟩] ∧ MeshSpec.Built m ∧
        Textured m (style.look job.2.1) ts ∧ List.Forall₂ (PillarRow env.world style) (parts (c :: cs)) rows ∧
        (ts.map place = rows.flatten.flatMap fun s => pillarSurface env style ⟨s.lon, env.world.elevation c + env.world.elevation s, s.lat⟩) ∧
        ∀ t ∈ ts, ∃ s ∈ rows.flatten, Tinted (style.look job.2.1) (fun p => ⟨s.lon + (p.x - c.lon), env.world.elevation s + p.y, s.lat + (p.z - c.lat)⟩) t
  else ∃ m ts, ds = [⟨"barrier:", job.2.1, m⟩] ∧ MeshSpec.Built m ∧ Textured m (style.look job.2.1) ts ∧
    WallFaces env.world (style.look job.2.1) ⟨style.width, style.height, 0, style.length, style.gap⟩ job.2.2 ts

/-- A barrier can be built. -/
def Possible (env : Env K) (job : Element (Geo K) × UInt64 × List (Geo K)) : Prop :=
  let style := env.style job.1
  if style.pillar then 0 < style.step ∧ ∀ p ∈ parts job.2.2, 0 ≤ env.world.distance p.1 p.2 ∧ env.world.distance p.1 p.2 < 2 ^ 31 * style.step
  else job.2.2 = [] ∨ Buildable env.world ⟨style.width, style.height, 0, style.length, style.gap⟩ job.2.2

/-- The barriers of some elements, each with the element whose style is used. -/
def jobs (es : List (Element (Geo K))) : List (Element (Geo K) × UInt64 × List (Geo K)) := es.flatMap fun e => (simple e).map fun s => (e, s)

end Verif.BarrierSpec
