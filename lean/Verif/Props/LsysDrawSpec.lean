import Verif.Model.LsysDraw
import Verif.Props.CurvedSpec
import Verif.Props.LsysSpec
import Verif.Props.StringsSpec

/-! # Specification of drawn L-systems -/
namespace Verif.LsysDrawSpec
open Verif.MeshBuilder Verif.ShownSpec Verif.SolidsShapeSpec Verif.CurvedSpec
open Verif.Building (Look)
open Verif.Roofs (Library)
open Verif.SolidsSpec (Closed)
open Verif.Lsys (Shape State Rule)
open Verif.LsysSpec (Frame)

variable {K : Type} [Field K] [LinearOrder K]

/-- The point which is `v.x` meters east, `v.y` meters above and `v.z` meters north of a place on the ground: a degree of latitude has 40008000 / 360
meters, one of longitude 40075160 / 360 meters times the cosine of the latitude. -/
def ground (lib : Library K) (place : Geo K) (elevation : K) (v : Vec3 K) : Vec3 K :=
  ⟨place.lon + v.x / (40075160 / 360 * lib.cos (lib.pi * place.lat / 180)), elevation + v.y, place.lat + v.z / (40008000 / 360)⟩

/-- The same for a triangle. -/
def onGround (lib : Library K) (place : Geo K) (elevation : K) (t : Tri K) : Tri K :=
  (ground lib place elevation t.1, ground lib place elevation t.2.1, ground lib place elevation t.2.2)

/-- The point of the turtle's axis at distance `h`. -/
def axis (st : State K) (h : K) : Vec3 K :=
  ⟨st.position.x + h * st.direction.x, st.position.y + h * st.direction.y, st.position.z + h * st.direction.z⟩

/-- The point at distance `radius` from that point, straight away from the axis, turned from the right vector by `j` sevenths of a turn. -/
def around (lib : Library K) (st : State K) (h radius : K) (j : Nat) : Vec3 K :=
  let c := lib.cos (2 * lib.pi * j / 7)
  let s := lib.sin (2 * lib.pi * j / 7)
  let d := st.direction
  let r := st.right
  ⟨(axis st h).x + radius * (c * r.x + s * (d.y * r.z - d.z * r.y)), (axis st h).y + radius * (c * r.y + s * (d.z * r.x - d.x * r.z)),
   (axis st h).z + radius * (c * r.z + s * (d.x * r.y - d.y * r.x))⟩

/-- An ellipsoid around the turtle of 80 triangles without border. -/
def SphereBody (st : State K) (us : List (Tri K)) : Prop :=
  ∃ vs : List (Tri K), (∀ v ∈ vs, Outward v) ∧ Closed vs ∧ vs.length = 80 ∧
    us = vs.map fun v =>
      let e := ellipsoid ⟨st.position.x, st.position.y, st.position.z⟩ ⟨st.width, st.length, st.width⟩
      (e v.1, e v.2.1, e v.2.2)

/-- A prism with seven sides from the turtle to the place where it goes. -/
def CylinderBody (lib : Library K) (st : State K) (us : List (Tri K)) : Prop :=
  Closed us ∧ us.length = 28 ∧ (Frame st.direction st.right →
    (∀ u ∈ us, ∀ c ∈ tips u, ∃ h, (h = 0 ∨ h = st.length) ∧ (c = axis st h ∨ ∃ j < 7, c = around lib st h st.width j)) ∧
    (∀ h, h = 0 ∨ h = st.length → ∀ j < 7, ∃ u ∈ us, around lib st h st.width j ∈ tips u) ∧
    (0 < st.width → 0 < st.length → ∀ u ∈ us, Away (axis st (st.length / 2)) u))

/-- A pyramid with seven sides with its apex at the place where the turtle goes; one triangle of each side has no extent. -/
def ConeBody (lib : Library K) (st : State K) (us : List (Tri K)) : Prop :=
  Closed us ∧ us.length = 21 ∧ (Frame st.direction st.right →
    (∀ u ∈ us, ∀ c ∈ tips u, c = axis st 0 ∨ c = axis st st.length ∨ ∃ j < 7, c = around lib st 0 st.width j) ∧
    (∀ j < 7, ∃ u ∈ us, around lib st 0 st.width j ∈ tips u ∧ axis st st.length ∈ tips u) ∧
    (0 < st.width → 0 < st.length → ∀ u ∈ us, Away (axis st (st.length / 2)) u ∨ u.2.1 = axis st st.length ∧ u.2.2 = axis st st.length))

/-- The body of this shape. A cylinder smaller than `tiny` may be without cap. -/
def Body (lib : Library K) (tiny : K) (shape : Shape) (st : State K) (us : List (Tri K)) : Prop :=
  match shape with
  | .sphere => SphereBody st us
  | .cylinder => tiny ≤ |st.width| ∨ tiny ≤ |st.length| → CylinderBody lib st us
  | .cone => ConeBody lib st us

/-- The triangles of one body on the ground, each with color and texture of its appearance. -/
def Pictured (lib : Library K) (tiny : K) (appearances : List (Look K)) (place : Geo K) (elevation : K) (d : Shape × State K × Nat)
    (block : List (Triangle K × Texture)) : Prop :=
  ∃ look us, appearances[d.2.2]? = some look ∧ Body lib tiny d.1 d.2.1 us ∧
    block = us.map fun u => (whole look (onGround lib place elevation u), look.texture)

/-- These bodies are in the mesh, in order, after what was in it before. -/
def Pictures (lib : Library K) (tiny : K) (appearances : List (Look K)) (place : Geo K) (elevation : K) (ds : List (Shape × State K × Nat)) (m : Mesh K)
    (done : List (Triangle K × Texture)) : Prop :=
  ∃ blocks, List.Forall₂ (Pictured lib tiny appearances place elevation) ds blocks ∧ MeshSpec.Built m ∧ Paints m (done ++ blocks.flatten) []

/-- One entry of each of the four lists, and the appearance which is meant. -/
structure Entry (K : Type) where
  color : List Char
  index : List Char
  type : List Char
  scale : List Char
  look : Look K

/-- The style provider knows the appearance, and the texts have no comma. -/
def Understood (provider : LsysDraw.Provider K) (e : Entry K) : Prop :=
  ',' ∉ e.color ∧ ',' ∉ e.index ∧ ',' ∉ e.type ∧ ',' ∉ e.scale ∧
  ∃ index scale, provider.toIndex e.index = .ok index ∧ provider.toScale e.scale = .ok scale ∧ provider.appearance e.color index e.type scale = .ok e.look

/-- The number of parts of a text between commas. -/
def parts (text : List Char) : Nat := text.count ',' + 1

end Verif.LsysDrawSpec
