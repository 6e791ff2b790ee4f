import Verif.Model.Along
import Verif.Props.ShownSpec
import Verif.Props.PaintedSpec
import Verif.Props.MeshBuilderSpec

/-! # Specification of objects along ways -/
namespace Verif.AlongSpec
open Verif.MeshBuilder Verif.ShownSpec Verif.Along

variable {K : Type} [Field K] [LinearOrder K]

/-- A corner of an object which stands at `origin` at height zero, after the object was put on the ground at `spot`. -/
def standCorner (elevation : Geo K → K) (origin spot : Geo K) (c : Corner K) : Corner K :=
  { c with position := ⟨spot.lon + (c.position.x - origin.lon), elevation spot + c.position.y, spot.lat + (c.position.z - origin.lat)⟩ }

/-- A triangle of an object which stands at `origin` at height zero, after the object was put on the ground at `spot`. -/
def stand (elevation : Geo K → K) (origin spot : Geo K) (t : Triangle K) : Triangle K :=
  (standCorner elevation origin spot t.1, standCorner elevation origin spot t.2.1, standCorner elevation origin spot t.2.2)

/-- The same with a texture, which stays the same. -/
def standTextured (elevation : Geo K → K) (origin spot : Geo K) (t : Triangle K × Texture) : Triangle K × Texture := (stand elevation origin spot t.1, t.2)

/-- The point which divides the line from `p` to `q` as `r` to `1 - r`. -/
def share (p q : Geo K) (r : K) : Geo K := ⟨(1 - r) * p.lat + r * q.lat, (1 - r) * p.lon + r * q.lon⟩

/-- The step fits `count` times into the distance. -/
def Fits (step distance : K) (count : Nat) : Prop := (count : K) * step ≤ distance ∧ distance < ((count : K) + 1) * step

/-- The beginnings of `count` equal parts of the line from `p` to `q`. -/
def spots (p q : Geo K) (count : Nat) : List (Geo K) := (List.range count).map fun j : Nat => share p q ((j : K) / (count : K))

/-- A spot beside the line from `p` to `q`: straight beside its part number `j` of `count`, at distance `width`, on the left if `j` is even, on the right
otherwise. -/
structure Beside (p q : Geo K) (width : K) (count j : Nat) (spot : Geo K) : Prop where
  straight : (spot.lon - (share p q ((j : K) / (count : K))).lon) * (q.lon - p.lon) + (spot.lat - (share p q ((j : K) / (count : K))).lat) * (q.lat - p.lat) = 0
  far : (spot.lon - (share p q ((j : K) / (count : K))).lon) * (spot.lon - (share p q ((j : K) / (count : K))).lon) +
    (spot.lat - (share p q ((j : K) / (count : K))).lat) * (spot.lat - (share p q ((j : K) / (count : K))).lat) = width * width
  side : if j % 2 = 0 then
      0 < (q.lon - p.lon) * (spot.lat - (share p q ((j : K) / (count : K))).lat) - (q.lat - p.lat) * (spot.lon - (share p q ((j : K) / (count : K))).lon)
    else
      (q.lon - p.lon) * (spot.lat - (share p q ((j : K) / (count : K))).lat) - (q.lat - p.lat) * (spot.lon - (share p q ((j : K) / (count : K))).lon) < 0

/-- The spots for one part of a way: `count` of them on the way, or those beside it without the first and the last. -/
def Row (w : World K) (kind : Kind) (style : PlantStyle K) (p : Geo K × Geo K) (row : List (Geo K)) : Prop :=
  ∃ count : Nat, Fits style.step (w.distance p.1 p.2) count ∧
    if kind = .lamp ∧ 0 < style.width then List.Forall₂ (fun (i : Nat) spot => Beside p.1 p.2 style.width count (i + 1) spot) (List.range (count - 2)) row
    else row = spots p.1 p.2 count

/-- The parts of a way: from each coordinate to the next one. -/
def parts (cs : List (Geo K)) : List (Geo K × Geo K) := cs.zip cs.tail

mutual
/-- The nodes and ways in an element, in order. -/
def leaves : Element (Geo K) → List (Element (Geo K))
  | .node id tags c => [.node id tags c]
  | .way id tags cs => [.way id tags cs]
  | .area _ _ _ => []
  | .relation _ _ members => leavesIn members
/-- The nodes and ways in a list of elements, in order. -/
def leavesIn : List (Element (Geo K)) → List (Element (Geo K))
  | [] => []
  | e :: es => leaves e ++ leavesIn es
end

/-- What has to be delivered for an element: for a node the object at its place; for a way one mesh with a copy of the object at all spots, with the
textures of the object if all of it has textures. A lamp mesh
without content is not delivered. -/
def Delivers (w : World K) (kind : Kind) (style : Element (Geo K) → PlantStyle K) (e : Element (Geo K)) (ds : List (Delivered K)) : Prop :=
  match e with
  | .node id _ c => ∃ m, (style e).generate c (w.elevation c) = .ok m ∧ ds = [⟨if kind = .tree then "tree:" else "lamp:", id, m⟩]
  | .way id _ cs => ∃ (single m : Mesh K) (ts : List (Triangle K)) (rows : List (List (Geo K))), (style e).generate w.center 0 = .ok single ∧ Shows single ts ∧
      List.Forall₂ (Row w kind (style e)) (parts cs) rows ∧
      Shows m (rows.flatten.flatMap fun spot => ts.map (stand w.elevation w.center spot)) ∧
      (∀ ss, Paints single ss [] → Paints m (rows.flatten.flatMap fun spot => ss.map (standTextured w.elevation w.center spot)) []) ∧ MeshSpec.Built m ∧
      if kind = .tree then ds = [⟨"trees:", id, m⟩]
      else if rows.flatten = [] ∨ single.vertices = [] then ds = [] else ds = [⟨"lamps:", id, m⟩]
  | _ => ds = []

/-- The generator succeeds, ways have coordinates, steps are positive, numbers of copies are in the range of `int`. If lamps stand beside the way, no
part of it has a length without direction. -/
def Plantable (w : World K) (kind : Kind) (style : Element (Geo K) → PlantStyle K) (e : Element (Geo K)) : Prop :=
  match e with
  | .node _ _ c => ∃ m, (style e).generate c (w.elevation c) = .ok m
  | .way _ _ cs => cs ≠ [] ∧ 0 < (style e).step ∧ (∃ m, (style e).generate w.center 0 = .ok m ∧ MeshSpec.Built m) ∧
      (∀ p ∈ parts cs, 0 ≤ w.distance p.1 p.2 ∧ w.distance p.1 p.2 < 2 ^ 31 * (style e).step) ∧
      (kind = .lamp → 0 < (style e).width → ∀ p ∈ parts cs, (style e).step ≤ w.distance p.1 p.2 →
        w.epsilon < w.sqrt ((p.2.lon - p.1.lon) * (p.2.lon - p.1.lon) + (p.2.lat - p.1.lat) * (p.2.lat - p.1.lat)))
  | _ => True

end Verif.AlongSpec
