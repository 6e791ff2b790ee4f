import Verif.Model.LoadTile
import Verif.Model.Mercator
import Verif.Model.StyleValue
import Verif.Model.Terrain

/-! # Terrain from a stylesheet

Models how builders/terrain/TerraBuilder.cpp, TerraGenerator.cpp and RegionTypes.hpp ask the styles of elements and of the canvas, so that styles, layers and the background of
`Terrain.BuilderEnv` are no parameters. Keys are those of mapcss/StyleConsts.cpp.

Simplifications: what is found for the texts of gradients and textures is a parameter (`Brush`), and finding it does not fail. Names of meshes and of extras are read with the rest
of a context, and all that is asked of the canvas is read in the beginning: the moment of an exception differs, but nothing is delivered before, and
an unreadable background is an exception in a tile which is covered by regions, too. -/
namespace Verif.TerrainSheet
open Verif.Clipper (El)
open Verif.Style (Str)
open Verif.StyleEval (Arith getString)
open Verif.StyleValue (value valueRelative valueBox)
open Verif.Terrain (Context)

/-- What is drawn for the numbers and texts of a context: its look for the text of a gradient, the frequency of color noise, the number and the type of a texture and its scale
(RegionTypes.hpp:49-62), the noise of the elevation for a frequency, and the triangles for a maximal area (MeshBuilder.cpp:54-105). -/
structure Brush where
  look : Str → ℝ → ℝ → Str → ℝ → Building.Look ℝ
  noise : ℝ → Nat → MeshBuilder.Vec2 ℝ → ℝ
  triangulate : ℝ → Polygon.Poly ℝ → MeshBuilder.TriangleIo ℝ

/-- RegionTypes.hpp:34-65 with the keys which begin with this prefix, and the texts which are read in SurfaceGenerator.cpp:77, 100. -/
noncomputable def readContext (ar : Arith ℝ) (senv : Style.Env ℝ) (brush : Brush) (box : Bbox ℝ) (tags : List Tag) (st : Style.Style) (pre : Str) : Outcome (Context ℝ) :=
  (valueRelative ar senv tags st (pre ++ "max-area".toList) (box.height * box.height)).bind fun maxArea =>
  (valueRelative ar senv tags st (pre ++ "ele-noise-freq".toList) box.height).bind fun eleNoise =>
  (valueRelative ar senv tags st (pre ++ "height-offset".toList) box.height).bind fun heightOffset =>
  (value ar senv tags st (pre ++ "texture-index".toList)).bind fun index =>
  (getString ar senv tags st (pre ++ "texture-type".toList)).bind fun type =>
  (value ar senv tags st (pre ++ "texture-scale".toList)).bind fun scale =>
  (getString ar senv tags st (pre ++ "color".toList)).bind fun gradient =>
  (valueBox ar senv tags st (pre ++ "color-noise-freq".toList) box).bind fun colorNoise =>
  (getString ar senv tags st (pre ++ "mesh-name".toList)).bind fun meshName =>
  (getString ar senv tags st (pre ++ "mesh-extras".toList)).bind fun extras =>
  .ok ⟨heightOffset, String.ofList meshName, String.ofList extras, brush.look gradient colorNoise index type (if scale > 0 then scale else 1), brush.noise eleNoise,
    brush.triangulate maxArea⟩

/-- `static_cast<int>` of a double: without the fraction, undefined if it does not fit. -/
noncomputable def toInt32 (x : ℝ) : Outcome Int :=
  let i := if 0 ≤ x then ⌊x⌋ else ⌈x⌉
  if -2 ^ 31 ≤ i ∧ i < 2 ^ 31 then .ok i else .ub "double to int"

/-- TerraBuilder.cpp:188-195 -/
noncomputable def getWidth (ar : Arith ℝ) (senv : Style.Env ℝ) (box : Bbox ℝ) (tags : List Tag) (st : Style.Style) : Outcome ℝ :=
  (valueBox ar senv tags st "width".toList box).bind fun v =>
  match st.declarations.find (senv.getId "dimension".toList) with
  | none => .ok v
  | some _ => (valueBox ar senv tags st "dimension".toList box).bind fun d => .ok (v * d)

/-- TerraBuilder.cpp:111-113, 121-123, 142-148, 217-218: the name of the layer, or the context of an element without layer. -/
noncomputable def readLayer (ar : Arith ℝ) (senv : Style.Env ℝ) (brush : Brush) (box : Bbox ℝ) (tags : List Tag) (st : Style.Style) (default : Context ℝ) :
    Outcome (Option String × Context ℝ) :=
  match st.declarations.find (senv.getId "terrain-layer".toList) with
  | none => (readContext ar senv brush box tags st []).bind fun c => .ok (none, c)
  | some _ => (getString ar senv tags st "terrain-layer".toList).bind fun name => .ok (some (String.ofList name), default)

/-- TerraBuilder.cpp:93-151: what is asked of the style of an element. The level of a relation and the width of other elements than ways are not asked. -/
noncomputable def readElement (ar : Arith ℝ) (senv : Style.Env ℝ) (brush : Brush) (box : Bbox ℝ) (default : Context ℝ) (fc : Style.FilterCollection) (lod : ℤ) (e : El) :
    Outcome (Terrain.Style ℝ) :=
  let st := Style.forElement senv fc e lod.toNat
  (readLayer ar senv brush box e.tags st default).bind fun l =>
  match e with
  | .way .. =>
    (value ar senv e.tags st "level".toList).bind fun v => (toInt32 v).bind fun level =>
    (getWidth ar senv box e.tags st).bind fun width => .ok ⟨l.1, level, width, l.2⟩
  | .area .. => (value ar senv e.tags st "level".toList).bind fun v => (toInt32 v).bind fun level => .ok ⟨l.1, level, 0, l.2⟩
  | _ => .ok ⟨l.1, 0, 0, l.2⟩

/-- What the canvas says: the size of cells (TerraGenerator.cpp:27-31, `cell` is the tile at zero of this level of detail) and the background (SurfaceGenerator.cpp:53). -/
noncomputable def readCanvas (ar : Arith ℝ) (senv : Style.Env ℝ) (brush : Brush) (box cell : Bbox ℝ) (st : Style.Style) : Outcome (ℝ × Context ℝ) :=
  (valueBox ar senv [] st "grid-cell-size".toList cell).bind fun step =>
  (readContext ar senv brush box [] st []).bind fun c => .ok (step, c)

/-- What the canvas says about a layer with this name (TerraBuilder.cpp:163-167). -/
noncomputable def readNamed (ar : Arith ℝ) (senv : Style.Env ℝ) (brush : Brush) (box : Bbox ℝ) (st : Style.Style) (name : Str) : Outcome (Int × Context ℝ) :=
  (value ar senv [] st (name ++ ['-'] ++ "sort-order".toList)).bind fun v => (toInt32 v).bind fun order =>
  (readContext ar senv brush box [] st (name ++ ['-'])).bind fun c => .ok (order, c)

/-- The value, or another one for an exception. -/
def orElse {A : Type} (o : Outcome A) (a : A) : A :=
  match o with
  | .ok x => x
  | _ => a

mutual
/-- The elements whose styles are asked when an element is visited (TerraBuilder.cpp:90-151): members have the tags of a relation if they have none. -/
def asked (hasStyle : El → Bool) (tags : List Tag) : El → List El
  | .node .. => []
  | .way id t cs => [Terrain.withTags tags (.way id t cs)]
  | .area id t cs => [Terrain.withTags tags (.area id t cs)]
  | .relation id t ms => askedMembers hasStyle (if t.isEmpty then tags else t) ms ++
      if ms.any (fun m => (match m with | .area .. => true | _ => false) && hasStyle (Terrain.withTags (if t.isEmpty then tags else t) m)) then
        [Terrain.withTags tags (.relation id t ms)] else []

/-- TerraBuilder.cpp:132-139: areas are added to the relation. -/
def askedMembers (hasStyle : El → Bool) (tags : List Tag) : List El → List El
  | [] => []
  | .way id t cs :: ms => (if hasStyle (Terrain.withTags tags (.way id t cs)) then asked hasStyle tags (.way id t cs) else []) ++ askedMembers hasStyle tags ms
  | .relation id t rs :: ms =>
    (if hasStyle (Terrain.withTags tags (.relation id t rs)) then asked hasStyle tags (.relation id t rs) else []) ++ askedMembers hasStyle tags ms
  | .node .. :: ms => askedMembers hasStyle tags ms
  | .area .. :: ms => askedMembers hasStyle tags ms
end

/-- Reads one after the other. -/
def readAll {A B : Type} (f : A → Outcome B) : List A → Outcome (List B)
  | [] => .ok []
  | a :: as => (f a).bind fun b => (readAll f as).bind fun bs => .ok (b :: bs)

/-- TerraBuilder.cpp:72-88 with TerraGenerator.cpp:21-24: the tile and its corners, the size of cells and the background. -/
noncomputable def generatorOf (base : Terrain.Env ℝ) (box : Bbox ℝ) (canvas : ℝ × Context ℝ) : Terrain.Env ℝ :=
  { base with
    step := canvas.1
    background := canvas.2
    tileRect := Terrain.toPath [⟨box.lo.lat, box.lo.lon⟩, ⟨box.lo.lat, box.hi.lon⟩, ⟨box.hi.lat, box.hi.lon⟩, ⟨box.hi.lat, box.lo.lon⟩]
    rect := ⟨box.lo.lon, box.lo.lat, box.hi.lon, box.hi.lat⟩ }

/-- The context of the builder for a tile: `base` has what does not depend on styles. What cannot be read is replaced, see `deliver`. -/
noncomputable def builderEnv (ar : Arith ℝ) (senv : Style.Env ℝ) (brush : Brush) (base : Terrain.Env ℝ) (sortRegions : List (Terrain.Region ℝ) → List (Terrain.Region ℝ))
    (sortLayers : List (Terrain.Layer ℝ) → List (Terrain.Layer ℝ)) (fc : Style.FilterCollection) (lod : ℤ) (box : Bbox ℝ) (canvas : ℝ × Context ℝ) : Terrain.BuilderEnv ℝ where
  generator := generatorOf base box canvas
  style e := orElse (readElement ar senv brush box canvas.2 fc lod e) ⟨none, 0, 0, canvas.2⟩
  hasStyle e := Style.hasStyle senv fc e lod.toNat
  layerOrder name := (orElse (readNamed ar senv brush box (Style.forCanvas senv fc lod.toNat) name.toList) (0, canvas.2)).1
  layerContext name := (orElse (readNamed ar senv brush box (Style.forCanvas senv fc lod.toNat) name.toList) (0, canvas.2)).2
  sortRegions := sortRegions
  sortLayers := sortLayers

/-- The builder for all elements of a tile: what it asks of the canvas, of elements and of the layers they name can be read, else the exception goes up; then the meshes are
built. -/
noncomputable def deliver (ar : Arith ℝ) (senv : Style.Env ℝ) (brush : Brush) (base : Terrain.Env ℝ) (sortRegions : List (Terrain.Region ℝ) → List (Terrain.Region ℝ))
    (sortLayers : List (Terrain.Layer ℝ) → List (Terrain.Layer ℝ)) (fc : Style.FilterCollection) (q : QuadKey) (calls : List El) : Outcome (Terrain.State ℝ) :=
  let box := Mercator.tileBox q
  let canvasStyle := Style.forCanvas senv fc q.lod.toNat
  (readCanvas ar senv brush box (Mercator.tileBox (Mercator.toQuadKey ⟨0, 0⟩ q.lod)) canvasStyle).bind fun canvas =>
  (readAll (readElement ar senv brush box canvas.2 fc q.lod) (calls.flatMap (asked (fun e => Style.hasStyle senv fc e q.lod.toNat) []))).bind fun styles =>
  (readAll (fun name : String => readNamed ar senv brush box canvasStyle name.toList) ((styles.filterMap Terrain.Style.layer).filter (· ≠ ""))).bind fun _ =>
  Terrain.build (builderEnv ar senv brush base sortRegions sortLayers fc q.lod box canvas) calls

end Verif.TerrainSheet
