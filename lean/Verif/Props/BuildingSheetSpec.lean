import Verif.Model.BuildingSheet
import Verif.Props.BuildingSpec
import Verif.Props.PaintedSpec
import Verif.Props.LoadTileSpec
import Verif.Props.StyleEvalSpec
import Verif.Props.StyleValueSpec

/-! # Specification of buildings from a stylesheet (C111)

What the declarations for an element say about the building, and which faces are shown for it. -/
namespace Verif.BuildingSheetSpec
open Verif.Clipper (El)
open Verif.Style (Rule Declaration Str)
open Verif.StyleSpec Verif.StyleEvalSpec Verif.StyleValueSpec Verif.BuildingSpec Verif.ShownSpec Verif.PolygonSpec
open Verif.StyleEval (Arith)
open Verif.MeshBuilder (Texture)
open Verif.Polygon (Vec Poly)

/-- The number which is declared: nothing is zero, metres are metres, percents are parts of one, numbers are numbers, and expressions are computed from left to right with the
tags of the element. -/
inductive Amount (ar : Arith ℝ) (senv : Style.Env ℝ) (tags : List Tag) : Option Str → ℝ → Prop
  | nothing : Amount ar senv tags none 0
  | metres (w : Str) : Amount ar senv tags (some (w ++ ['m'])) (senv.num w)
  | percent (w : Str) : Amount ar senv tags (some (w ++ ['%'])) (senv.num w / 100)
  | plain (text : Str) : Plain text → NoDimension text → Amount ar senv tags (some text) (senv.num text)
  | computed (e : Expr) (value : Str → Str) (v r : ℝ) : TagsSorted tags → e.Valid ar → HasTags senv tags value e.first →
      (∀ t ∈ e.rest, HasTags senv tags value t.operand) → Means ar senv.num value e.first v → LeftToRight ar senv.num value v e.rest r →
      Amount ar senv tags (some e.render) r

/-- The text which is declared: nothing is empty, texts are as they are written, and expressions put their parts together. -/
inductive Word (ar : Arith ℝ) (senv : Style.Env ℝ) (tags : List Tag) : Option Str → Str → Prop
  | nothing : Word ar senv tags none []
  | plain (text : Str) : Plain text → Word ar senv tags (some text) text
  | joined (e : Expr) (value : Str → Str) (w : Str) (ws : List Str) : TagsSorted tags → e.Valid ar → HasTags senv tags value e.first →
      (∀ t ∈ e.rest, HasTags senv tags value t.operand) → (∀ t ∈ e.rest, t.operator = '+') → Spells ar value e.first w →
      List.Forall₂ (fun t w => Spells ar value t.operand w) e.rest ws → Word ar senv tags (some e.render) (w ++ ws.flatten)

/-- The keys of texts. -/
def words : List Str := ["building".toList, "multipolygon".toList, "roof-type".toList, "roof-direction".toList, "roof-color".toList, "roof-texture-type".toList,
  "facade-type".toList, "facade-color".toList, "facade-texture-type".toList]

/-- The keys of numbers. -/
def amounts : List Str := ["height".toList, "min-height".toList, "roof-height".toList, "roof-texture-index".toList, "roof-texture-scale".toList,
  "facade-texture-index".toList, "facade-texture-scale".toList]

/-- All that is declared about buildings can be understood. -/
def Clear (ar : Arith ℝ) (senv : Style.Env ℝ) (ds : List Declaration) (tags : List Tag) : Prop :=
  (∀ k ∈ words, ∃ w, Word ar senv tags (lastValue ds k) w) ∧ ∀ k ∈ amounts, ∃ v, Amount ar senv tags (lastValue ds k) v

/-- The look of a roof. -/
def RoofLook (ar : Arith ℝ) (senv : Style.Env ℝ) (paint : BuildingSheet.Paint) (ds : List Declaration) (tags : List Tag) (look : UInt64 → Building.Look ℝ) : Prop :=
  ∃ gradient index type scale, Word ar senv tags (lastValue ds "roof-color".toList) gradient ∧ Amount ar senv tags (lastValue ds "roof-texture-index".toList) index ∧
    Word ar senv tags (lastValue ds "roof-texture-type".toList) type ∧ Amount ar senv tags (lastValue ds "roof-texture-scale".toList) scale ∧
    look = paint gradient index type scale

/-- The look of walls. -/
def FacadeLook (ar : Arith ℝ) (senv : Style.Env ℝ) (paint : BuildingSheet.Paint) (ds : List Declaration) (tags : List Tag) (look : UInt64 → Building.Look ℝ) : Prop :=
  ∃ gradient index type scale, Word ar senv tags (lastValue ds "facade-color".toList) gradient ∧ Amount ar senv tags (lastValue ds "facade-texture-index".toList) index ∧
    Word ar senv tags (lastValue ds "facade-texture-type".toList) type ∧ Amount ar senv tags (lastValue ds "facade-texture-scale".toList) scale ∧
    look = paint gradient index type scale

/-- The declarations describe this building. -/
structure Describes (ar : Arith ℝ) (senv : Style.Env ℝ) (paint : BuildingSheet.Paint) (ds : List Declaration) (tags : List Tag) (s : Building.Style ℝ) : Prop where
  height : Amount ar senv tags (lastValue ds "height".toList) s.height
  minHeight : Amount ar senv tags (lastValue ds "min-height".toList) s.minHeight
  roofType : Word ar senv tags (lastValue ds "roof-type".toList) s.roofType.toList
  roofHeight : Amount ar senv tags (lastValue ds "roof-height".toList) s.roofHeight
  roofDirection : Word ar senv tags (lastValue ds "roof-direction".toList) s.roofDirection.toList
  facadeType : Word ar senv tags (lastValue ds "facade-type".toList) s.facadeType.toList
  roofLook : RoofLook ar senv paint ds tags s.roofLook
  facadeLook : FacadeLook ar senv paint ds tags s.facadeLook

/-- What the declarations say about an element: an area is a building if `building: true` is declared, a relation is a multipolygon if `multipolygon: true` is declared, too. -/
def Told (ar : Arith ℝ) (senv : Style.Env ℝ) (paint : BuildingSheet.Paint) (ds : List Declaration) (s : Building.Style ℝ) : El → Prop
  | .area _ tags _ => ∃ b, Word ar senv tags (lastValue ds "building".toList) b ∧ (s.building = true ↔ b = "true".toList) ∧
      (b = "true".toList → Describes ar senv paint ds tags s)
  | .relation _ tags _ => ∃ m b, Word ar senv tags (lastValue ds "multipolygon".toList) m ∧ Word ar senv tags (lastValue ds "building".toList) b ∧
      ((s.multipolygon = true ∧ s.building = true) ↔ m = "true".toList ∧ b = "true".toList) ∧
      (m = "true".toList → b = "true".toList → Describes ar senv paint ds tags s)
  | _ => True

/-- An element and the members of relations. -/
inductive Within : El → El → Prop
  | self (e : El) : Within e e
  | member {e m : El} {id : UInt64} {tags : List Tag} {ms : List El} : m ∈ ms → Within e m → Within e (.relation id tags ms)

variable {K : Type} [Field K] [LinearOrder K]

/-- A part which can be drawn: it begins with an outline, no ring is empty, the triangle library returns triangles between its points, and roof and walls are of a known
kind. -/
structure Drawable (env : Building.Env K) (part : BuildingSpec.Part K) : Prop where
  outline : ∃ (start : Geo K) (ring : List (Vec K)) (rest : List (List (Vec K) × Bool)), part.rings = (ground start :: ring, false) :: rest
  rings : ∀ r ∈ part.rings, opened env.epsilon r.1 ≠ []
  library : ∀ p, polygonOf env part = .ok p → InRange (env.triangulate p)
  roof : part.style.roofType ∈ ["none", "flat", "pyramidal"]
  facade : part.style.facadeType = "flat"

/-- The faces of a part with their textures: a roof on its top, a floor below if it begins above the ground, and a wall for each edge of its rings. The ground is that
below its first point. -/
def PartFaces (env : Building.Env K) (id : UInt64) (part : BuildingSpec.Part K) (faces : List (Triangle K × Texture)) : Prop :=
  ∃ (start : Geo K) (ring : List (Vec K)) (rest : List (List (Vec K) × Bool)) (p : Poly K) (outlines holes : List (List (Vec K))) (bottom top : K)
      (roof floor : List (Triangle K)),
    part.rings = (ground start :: ring, false) :: rest ∧
    outlines = ((part.rings.filter fun r => !r.2).map fun r => opened env.epsilon r.1) ∧
    holes.Sublist ((part.rings.filter fun r => r.2).map fun r => opened env.epsilon r.1) ∧
    polygonOf env part = .ok p ∧ List.Forall₂ (Stored p) outlines p.outers ∧ List.Forall₂ (Stored p) holes p.inners ∧
    bottom = env.elevation start + part.style.minHeight ∧ top = env.elevation start + (if part.style.height = 0 then 10 else part.style.height) ∧
    RoofFaces (part.style.roofLook id) part.style.roofType part.style.roofHeight top (env.triangulate p) outlines roof ∧
    (if part.style.minHeight > 0 then FlatFaces (part.style.roofLook id) bottom true (env.triangulate p) floor else floor = []) ∧
    faces = (roof ++ floor).map (fun x => (x, (part.style.roofLook id).texture)) ++
      ((outlines ++ holes).flatMap (ringWalls (part.style.facadeLook id) bottom top)).map fun x => (x, (part.style.facadeLook id).texture)

/-- A mesh shows the building of an element: all of its parts, one after the other, and nothing else; if they are above the ground and the triangle library fills their rings,
then the faces have no gap. -/
def IsBuilding (env : Building.Env K) (e : Element (Geo K)) (m : UInt64 × MeshBuilder.Mesh K) : Prop :=
  m.1 = e.id ∧ ∃ faces, List.Forall₂ (PartFaces env e.id) (parts env.style e) faces ∧ Paints m.2 faces.flatten [] ∧
    ((∀ part ∈ parts env.style e, Solid env part) → SolidsSpec.Closed (faces.flatten.map fun x => place x.1))

end Verif.BuildingSheetSpec
