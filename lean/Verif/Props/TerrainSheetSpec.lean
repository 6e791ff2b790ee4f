import Verif.Model.TerrainSheet
import Verif.Props.BuildingSheetSpec
import Verif.Props.TerrainMeshSpec

/-! # Specification of terrain from a stylesheet (C112)

What the declarations for elements and for the canvas say about the ground. -/
namespace Verif.TerrainSheetSpec
open Verif.Clipper (El)
open Verif.Style (Rule Declaration Str kindOfElement)
open Verif.StyleSpec Verif.StyleEvalSpec Verif.StyleValueSpec Verif.LoadTileSpec Verif.TerrainSpec Verif.ShownSpec
open Verif.StyleEval (Arith)
open Verif.BuildingSheetSpec (Word)
open Verif.Terrain (Context BuilderEnv State)
open Verif.TerrainSheet (Brush)

/-- The number which is declared: nothing is zero, numbers are numbers, and expressions are computed from left to right with the tags of the element. `metres` says what some metres
count, `whole` what a hundred percent are. -/
inductive Measure (ar : Arith ℝ) (senv : Style.Env ℝ) (tags : List Tag) (metres : ℝ → ℝ) (whole : ℝ) : Option Str → ℝ → Prop
  | nothing : Measure ar senv tags metres whole none 0
  | metres (w : Str) : Measure ar senv tags metres whole (some (w ++ ['m'])) (metres (senv.num w))
  | percent (w : Str) : Measure ar senv tags metres whole (some (w ++ ['%'])) (whole * (senv.num w / 100))
  | plain (text : Str) : Plain text → NoDimension text → Measure ar senv tags metres whole (some text) (senv.num text)
  | computed (e : Expr) (value : Str → Str) (v r : ℝ) : TagsSorted tags → e.Valid ar → HasTags senv tags value e.first →
      (∀ t ∈ e.rest, HasTags senv tags value t.operand) → Means ar senv.num value e.first v → LeftToRight ar senv.num value v e.rest r →
      Measure ar senv tags metres whole (some e.render) r

/-- A number of something which is part of one: metres are numbers, a hundred percent are one. -/
abbrev Count (ar : Arith ℝ) (senv : Style.Env ℝ) (tags : List Tag) : Option Str → ℝ → Prop := Measure ar senv tags id 1

/-- A number which is part of the given size. -/
abbrev Part (ar : Arith ℝ) (senv : Style.Env ℝ) (tags : List Tag) (size : ℝ) : Option Str → ℝ → Prop := Measure ar senv tags id size

/-- Degrees in a box: metres are the degrees of so many metres in its centre (C69, C70), a hundred percent are its height. -/
abbrev Degrees (ar : Arith ℝ) (senv : Style.Env ℝ) (tags : List Tag) (box : Bbox ℝ) : Option Str → ℝ → Prop :=
  Measure ar senv tags (Geodesy.getOffset box.center) (box.hi.lat - box.lo.lat)

/-- A number without its fraction. -/
def IsWhole (x : ℝ) (i : Int) : Prop := |(i : ℝ)| ≤ |x| ∧ |x - i| < 1 ∧ -2147483648 ≤ i ∧ i ≤ 2147483647

/-- The keys of a context. -/
def contextKeys : List Str := ["max-area".toList, "ele-noise-freq".toList, "height-offset".toList, "texture-index".toList, "texture-type".toList, "texture-scale".toList,
  "color".toList, "color-noise-freq".toList, "mesh-name".toList, "mesh-extras".toList]

/-- The declarations whose keys begin with the prefix describe this context. -/
def Sketches (ar : Arith ℝ) (senv : Style.Env ℝ) (brush : Brush) (box : Bbox ℝ) (tags : List Tag) (ds : List Declaration) (pre : Str) (c : Context ℝ) : Prop :=
  ∃ maxArea eleNoise heightOffset index type scale gradient colorNoise meshName extras,
    Part ar senv tags ((box.hi.lat - box.lo.lat) ^ 2) (lastValue ds (pre ++ "max-area".toList)) maxArea ∧
    Part ar senv tags (box.hi.lat - box.lo.lat) (lastValue ds (pre ++ "ele-noise-freq".toList)) eleNoise ∧
    Part ar senv tags (box.hi.lat - box.lo.lat) (lastValue ds (pre ++ "height-offset".toList)) heightOffset ∧
    Count ar senv tags (lastValue ds (pre ++ "texture-index".toList)) index ∧
    Word ar senv tags (lastValue ds (pre ++ "texture-type".toList)) type ∧
    Count ar senv tags (lastValue ds (pre ++ "texture-scale".toList)) scale ∧
    Word ar senv tags (lastValue ds (pre ++ "color".toList)) gradient ∧
    Degrees ar senv tags box (lastValue ds (pre ++ "color-noise-freq".toList)) colorNoise ∧
    Word ar senv tags (lastValue ds (pre ++ "mesh-name".toList)) meshName ∧
    Word ar senv tags (lastValue ds (pre ++ "mesh-extras".toList)) extras ∧
    c.heightOffset = heightOffset ∧ c.meshName.toList = meshName ∧ c.extras.toList = extras ∧ c.noise = brush.noise eleNoise ∧ c.triangulate = brush.triangulate maxArea ∧
    ∃ s, (0 < scale → s = scale) ∧ (scale ≤ 0 → s = 1) ∧ c.look = brush.look gradient colorNoise index type s

/-- An element is in the layer which is declared, or has a context of its own. -/
def LayerTold (ar : Arith ℝ) (senv : Style.Env ℝ) (brush : Brush) (box : Bbox ℝ) (ds : List Declaration) (tags : List Tag) (s : Terrain.Style ℝ) : Prop :=
  (lastValue ds "terrain-layer".toList = none ∧ s.layer = none ∧ Sketches ar senv brush box tags ds [] s.context) ∨
    ∃ t name, lastValue ds "terrain-layer".toList = some t ∧ Word ar senv tags (some t) name ∧ s.layer = some (String.ofList name)

/-- The level which is declared. -/
def LevelTold (ar : Arith ℝ) (senv : Style.Env ℝ) (ds : List Declaration) (tags : List Tag) (s : Terrain.Style ℝ) : Prop :=
  ∃ v, Count ar senv tags (lastValue ds "level".toList) v ∧ IsWhole v s.level

/-- The width which is declared, multiplied by `dimension` if that is declared. -/
def WidthTold (ar : Arith ℝ) (senv : Style.Env ℝ) (box : Bbox ℝ) (ds : List Declaration) (tags : List Tag) (s : Terrain.Style ℝ) : Prop :=
  ∃ v, Degrees ar senv tags box (lastValue ds "width".toList) v ∧
    ((lastValue ds "dimension".toList = none ∧ s.width = v) ∨
      ∃ t d, lastValue ds "dimension".toList = some t ∧ Degrees ar senv tags box (some t) d ∧ s.width = v * d)

/-- What the declarations say about an element. -/
def Told (ar : Arith ℝ) (senv : Style.Env ℝ) (brush : Brush) (box : Bbox ℝ) (ds : List Declaration) (s : Terrain.Style ℝ) : El → Prop
  | .node .. => True
  | .way _ tags _ => LayerTold ar senv brush box ds tags s ∧ LevelTold ar senv ds tags s ∧ WidthTold ar senv box ds tags s
  | .area _ tags _ => LayerTold ar senv brush box ds tags s ∧ LevelTold ar senv ds tags s
  | .relation _ tags _ => LayerTold ar senv brush box ds tags s

/-- The keys which are asked of elements. -/
def elementKeys : List Str := ["terrain-layer".toList, "level".toList, "width".toList, "dimension".toList] ++ contextKeys

/-- What the declarations for the canvas say about the background and the cells of the grid. `cell` is the tile at latitude and longitude zero. -/
def CanvasTold (ar : Arith ℝ) (senv : Style.Env ℝ) (brush : Brush) (box cell : Bbox ℝ) (ds : List Declaration) (step : ℝ) (background : Context ℝ) : Prop :=
  Degrees ar senv [] cell (lastValue ds "grid-cell-size".toList) step ∧ Sketches ar senv brush box [] ds [] background

/-- What the declarations for the canvas say about a layer: its name is the beginning of the keys. -/
def NamedTold (ar : Arith ℝ) (senv : Style.Env ℝ) (brush : Brush) (box : Bbox ℝ) (ds : List Declaration) (name : Str) (order : Int) (c : Context ℝ) : Prop :=
  (∃ v, Count ar senv [] (lastValue ds (name ++ "-sort-order".toList)) v ∧ IsWhole v order) ∧ Sketches ar senv brush box [] ds (name ++ ['-']) c

/-- An element with the tags it is drawn with, and those of the members of relations: a member without tags has those of its relation. -/
inductive Reaches : List Tag → El → El → Prop
  | self (tags : List Tag) (e : El) : Reaches tags (tagged tags e) e
  | member {tags t : List Tag} {x m : El} {id : UInt64} {ms : List El} : m ∈ ms → Reaches (if t = [] then tags else t) x m → Reaches tags x (.relation id t ms)

/-- Some rule is for the element. -/
def Chosen (senv : Style.Env ℝ) (rules : List Rule) (lod : ℤ) (e : El) : Prop :=
  idRules senv lod.toNat e.id rules ≠ [] ∨ applied senv (kindOfElement e) lod.toNat e.tags rules ≠ []

/-- The declarations for the canvas. -/
noncomputable def canvasDecls (senv : Style.Env ℝ) (rules : List Rule) (lod : ℤ) : List Declaration := declared senv .canvas lod.toNat [] rules

/-- Tiles in degrees. -/
noncomputable abbrev boxOf (q : QuadKey) : Bbox ℝ := Mercator.tileBox q

/-- The tile at latitude and longitude zero. -/
noncomputable abbrev cellOf (q : QuadKey) : Bbox ℝ := Mercator.tileBox (Mercator.toQuadKey ⟨0, 0⟩ q.lod)

/-- All that is declared about these elements, their layers and the canvas can be understood, and the keys are among those of the string table. -/
structure Clear (ar : Arith ℝ) (senv : Style.Env ℝ) (brush : Brush) (rules : List Rule) (P : Str → Prop) (q : QuadKey) (calls : List El) : Prop where
  elements : ∀ e ∈ calls, ∀ x, Reaches [] x e → Readable senv P x ∧ ∃ s, Told ar senv brush (boxOf q) (decls senv rules q.lod x) s x
  layers : ∀ e ∈ calls, ∀ x, Reaches [] x e → ∀ t name, lastValue (decls senv rules q.lod x) "terrain-layer".toList = some t → Word ar senv x.tags (some t) name →
    name ≠ [] → (∀ k ∈ "sort-order".toList :: contextKeys, P (name ++ ['-'] ++ k)) ∧ ∃ order c, NamedTold ar senv brush (boxOf q) (canvasDecls senv rules q.lod) name order c
  canvas : ∃ step c, CanvasTold ar senv brush (boxOf q) (cellOf q) (canvasDecls senv rules q.lod) step c
  conditions : ∀ r ∈ rules, ∀ s ∈ r.selectors, "canvas".toList ∈ s.names → s.conditions = []

/-- A builder works with what the rules say about elements, layers and the canvas. -/
structure Follows (ar : Arith ℝ) (senv : Style.Env ℝ) (brush : Brush) (rules : List Rule) (base : Terrain.Env ℝ) (q : QuadKey) (calls : List El) (env : BuilderEnv ℝ) : Prop where
  styles : ∀ e ∈ calls, ∀ x, Reaches [] x e → Told ar senv brush (boxOf q) (decls senv rules q.lod x) (env.style x) x
  chosen : ∀ e ∈ calls, ∀ x, Reaches [] x e → (env.hasStyle x = true ↔ Chosen senv rules q.lod x)
  layers : ∀ e ∈ calls, ∀ x, Reaches [] x e → ∀ t name, lastValue (decls senv rules q.lod x) "terrain-layer".toList = some t → Word ar senv x.tags (some t) name →
    name ≠ [] → NamedTold ar senv brush (boxOf q) (canvasDecls senv rules q.lod) name (env.layerOrder (String.ofList name)) (env.layerContext (String.ofList name))
  canvas : CanvasTold ar senv brush (boxOf q) (cellOf q) (canvasDecls senv rules q.lod) env.generator.step env.generator.background
  tile : env.generator.tileRect = unitsOf [⟨(boxOf q).lo.lat, (boxOf q).lo.lon⟩, ⟨(boxOf q).lo.lat, (boxOf q).hi.lon⟩, ⟨(boxOf q).hi.lat, (boxOf q).hi.lon⟩,
    ⟨(boxOf q).hi.lat, (boxOf q).lo.lon⟩]
  border : env.generator.rect = ⟨(boxOf q).lo.lon, (boxOf q).lo.lat, (boxOf q).hi.lon, (boxOf q).hi.lat⟩
  rest : env.generator = { base with step := env.generator.step, background := env.generator.background, tileRect := env.generator.tileRect, rect := env.generator.rect }

/-- The ground of a tile: each point of the tile is on one piece, which has the context of the layer with the highest order among the elements around the point, or that of the element
if it has no layer (which counts as order zero), or that of the background if there is no element; and the delivered meshes show the pieces. -/
def IsGround {X : Type} (wind : Terrain.Path → X → Int) (env : BuilderEnv ℝ) (es : List El) (s : State ℝ) : Prop :=
  (∀ x, wind env.generator.tileRect x ≠ 0 → Oriented wind x ((es.flatMap (regionsOf env [])).map Prod.snd) → NotSkipped wind x s.pieces →
    ∃ p, OnlyOn wind x s.pieces p ∧
      ((p.context = env.generator.background ∧ ∀ c ∈ es.flatMap (regionsOf env []), around wind c.2.geometry x = 0) ∨
        ∃ c ∈ es.flatMap (regionsOf env []), around wind c.2.geometry x ≠ 0 ∧ contextOf env c.1 c.2 = some p.context ∧
          ∀ c' ∈ es.flatMap (regionsOf env []), around wind c'.2.geometry x ≠ 0 → orderOf env c'.1 ≤ orderOf env c.1)) ∧
  ∃ results, List.Forall₂ (fun p r => IsPiece env.generator p r.1 r.2) s.pieces results ∧
    s.delivered = results.flatMap Prod.snd ++ [("terrain_surface", s.mesh)] ∧
    Shows s.mesh ((s.pieces.zip results).flatMap fun p => common env.generator p.1 p.2.1)

/-- The triangle library returns triangles between its points. -/
def Triangulates (brush : Brush) : Prop :=
  ∀ area poly, ∀ t ∈ (brush.triangulate area poly).triangles, ∀ i ∈ [t.1, t.2.1, t.2.2], 0 ≤ i ∧ i < ((brush.triangulate area poly).points.length : Int)

end Verif.TerrainSheetSpec
