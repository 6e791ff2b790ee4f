import Verif.Props.OsmWordsSpec
import Verif.Props.RoofColorsSpec
import Verif.Props.BarrierSheetSpec
import Verif.Props.PlantSheetSpec
import Verif.Props.TerrainSheetSpec
import Verif.Props.DirectLoadSpec

/-! # Specification of all what is drawn in a tile (C121) -/
namespace Verif.SceneSpec
open Verif.Clipper (El)
open Verif.Style (Rule FilterCollection Str)
open Verif.StyleSpec Verif.LoadTileSpec Verif.QuadKeyBuilderSpec Verif.PaletteSpec
open Verif.StyleEval (Arith)
open Verif.BuildingSheetSpec (Within Word)
open Verif.Palette (paintOf)

/-- The libraries and parameters of the builders. -/
structure Studio where
  senv : Style.Env ℝ
  ar : Arith ℝ
  cast : List Char → Option ℝ
  outside : Nat × Nat × Nat × Nat
  lib : Roofs.Library ℝ
  houses : Building.Env ℝ
  brush : TerrainSheet.Brush
  ground : Terrain.Env ℝ
  sortRegions : List (Terrain.Region ℝ) → List (Terrain.Region ℝ)
  sortLayers : List (Terrain.Layer ℝ) → List (Terrain.Layer ℝ)
  elevation : QuadKey → Geo ℝ → ℝ
  epsilon : ℝ

/-- What is known about them: numbers are read as they are written, the triangle library returns indices of points, sorting sorts. -/
structure Studio.Ready (S : Studio) : Prop where
  zero : S.ar.zero = 0
  sane : StyleEvalSpec.Sane S.ar
  reads : GradientSpec.Reads S.cast
  standard : RoofsSpec.Standard S.lib
  triangulates : TerrainSheetSpec.Triangulates S.brush
  sorts : TerrainSpec.Sorts S.sortRegions S.sortLayers
  positive : 0 < S.epsilon
  small : S.epsilon ≤ 1 / 2

/-- The keys of declarations which the builders ask for. -/
def keys : List Str := BuildingSheetSpec.words ++ BuildingSheetSpec.amounts ++ TerrainSheetSpec.elementKeys ++ ["grid-cell-size".toList] ++ BarrierSheetSpec.keys ++ PlantSheetSpec.keys

/-- Every building among the elements gets a mesh with the declared roof, walls, colors and textures, if its declarations can be understood and its outlines be drawn. -/
def Houses (S : Studio) (rules : List Rule) (fc : FilterCollection) (xs : List Atlas.Text) (pal : Palette.Palette) (q : QuadKey) (l : List El) (t : List (QuadKeyBuilder.Event (Geo ℝ))) : Prop :=
  (∀ e ∈ l.flatMap parts, ∀ x, Within x e → BuildingSheetSpec.Clear S.ar S.senv (decls S.senv rules q.lod x) x.tags ∧
    (Word S.ar S.senv x.tags (lastValue (decls S.senv rules q.lod x) "building".toList) "true".toList →
      Showable S.ar S.senv (decls S.senv rules q.lod x) x.tags "roof-".toList ∧ Showable S.ar S.senv (decls S.senv rules q.lod x) x.tags "facade-".toList)) →
  ∃ style, (∀ e ∈ buildWith S.senv rules q.lod "building".toList l, ∀ x, Within x e → BuildingSheetSpec.Told S.ar S.senv (paintOf pal) (decls S.senv rules q.lod x) (style x) x) ∧
    ((∀ e ∈ buildWith S.senv rules q.lod "building".toList l, BuildingSpec.Fine style e ∧ ∀ part ∈ BuildingSpec.parts style e, RoofSheetSpec.Able S.lib { S.houses with style := style } part) →
      ∃ ms shown, BuildingSheet.deliver S.ar S.senv (paintOf pal) (Roofs.complete S.lib S.houses) fc q.lod (visited "building".toList t) = .ok ms ∧
        shown.Perm ((buildWith S.senv rules q.lod "building".toList l).filter (BuildingSpec.Delivered style)) ∧
        List.Forall₂ (fun e m => RoofSheetSpec.IsHouse S.lib { S.houses with style := style } e m ∧
          RoofColorsSpec.ShowsHouse S.ar S.senv xs (decls S.senv rules q.lod) S.lib { S.houses with style := style } e m) shown ms)

/-- The ground is that of the layers which are declared for its elements and for the canvas. Without such elements the terrain builder is not called. -/
def Ground (S : Studio) (rules : List Rule) (P : Str → Prop) (fc : FilterCollection) (q : QuadKey) (l : List El) (t : List (QuadKeyBuilder.Event (Geo ℝ))) : Prop :=
  ∀ es, es = buildWith S.senv rules q.lod "terrain".toList l → TerrainSheetSpec.Clear S.ar S.senv S.brush rules P q es →
    ∃ calls benv, calls.Perm es ∧
      callsOf "terrain".toList t = (if es = [] then [] else .prepare "terrain".toList :: calls.map (.visit "terrain".toList) ++ [.complete "terrain".toList]) ∧
      TerrainSheetSpec.Follows S.ar S.senv S.brush rules S.ground q es benv ∧
      TerrainSheet.deliver S.ar S.senv S.brush S.ground S.sortRegions S.sortLayers fc q calls = Terrain.build benv calls ∧
      ∀ s, Terrain.build benv calls = .ok s → ∀ (X : Type) (wind : Terrain.Path → X → Int), TerrainSpec.Exact S.ground.library wind → TerrainSheetSpec.IsGround wind benv es s

/-- The barriers among the elements become the declared pillars and walls in the declared colors and textures. -/
def Fences (S : Studio) (rules : List Rule) (fc : FilterCollection) (xs : List Atlas.Text) (pal : Palette.Palette) (q : QuadKey) (l : List El) (t : List (QuadKeyBuilder.Event (Geo ℝ))) : Prop :=
  (∀ e ∈ buildWith S.senv rules q.lod "barrier".toList l, BarrierSheetSpec.Clear S.ar S.senv (paintOf pal) (Mercator.tileBox q) (decls S.senv rules q.lod e) e.tags ∧
    Showable S.ar S.senv (decls S.senv rules q.lod e) e.tags []) →
  ∃ style shown, shown.Perm (buildWith S.senv rules q.lod "barrier".toList l) ∧
    (∀ e ∈ shown, BarrierSheetSpec.Told S.ar S.senv (paintOf pal) (Mercator.tileBox q) (decls S.senv rules q.lod e) e.tags (style e)) ∧
    ((∀ j ∈ BarrierSpec.jobs shown, BarrierSheetSpec.Sensible (BarrierSheetSpec.inTile (S.elevation q) S.epsilon q style) j) →
      ∃ dss, BarrierSheet.deliver S.ar S.senv (paintOf pal) (S.elevation q) S.epsilon fc q (visited "barrier".toList t) = .ok dss.flatten ∧
        List.Forall₂ (fun j out => BarrierSpec.Barriers (BarrierSheetSpec.inTile (S.elevation q) S.epsilon q style) j out ∧
          ∀ d ∈ out, BarrierSheetSpec.Colored S.ar S.senv xs j.2.1 (decls S.senv rules q.lod j.1) j.1.tags d.mesh) (BarrierSpec.jobs shown) dss)

/-- Trees, or lamps, grow where the elements are, as the L-systems and declarations say. -/
def Plants (S : Studio) (rules : List Rule) (fc : FilterCollection) (systems : Assoc Str LsysText.System) (xs : List Atlas.Text) (pal : Palette.Palette) (q : QuadKey) (l : List El)
    (t : List (QuadKeyBuilder.Event (Geo ℝ))) (kind : Along.Kind) : Prop :=
  ∀ (G : Type) (n : PlantSheet.Nursery G) (rank : Option Lsys.Op → Nat), (∀ a b, rank a = rank b → a = b) → n.palette = pal → n.systems = systems → n.lt = Lsys.ruleLt rank →
    LsysSpec.PicksOne n.pick → ∀ plant : El → PlantSheetSpec.Plant,
    (∀ e ∈ AlongSpec.leavesIn (buildWith S.senv rules q.lod (PlantSheetSpec.builderName kind) l),
      PlantSheetSpec.Clear S.ar S.senv n (Mercator.tileBox q) (decls S.senv rules q.lod e) kind e (plant e)) →
    ∃ (style : El → Along.PlantStyle ℝ) (shown : List El), shown.Perm (buildWith S.senv rules q.lod (PlantSheetSpec.builderName kind) l) ∧
      (∀ e ∈ AlongSpec.leavesIn shown, PlantSheetSpec.IsWay e →
        PlantSheetSpec.Spaced S.ar S.senv (Mercator.tileBox q) (decls S.senv rules q.lod e) e.tags kind (style e)) ∧
      ((∀ e ∈ AlongSpec.leavesIn shown, PlantSheetSpec.Sensible (PlantSheet.worldOf (S.elevation q) S.epsilon q) kind (style e) e) →
        ∃ dss, PlantSheet.deliver S.ar S.senv n (S.elevation q) S.epsilon fc q kind (visited (PlantSheetSpec.builderName kind) t) = .ok dss.flatten ∧
          List.Forall₂ (fun e out => PlantSheetSpec.Grown xs S.epsilon (PlantSheet.worldOf (S.elevation q) S.epsilon q) kind (plant e) (style e) e out) (AlongSpec.leavesIn shown) dss)

/-- All what is drawn in a tile. -/
structure Scene (S : Studio) (rules : List Rule) (P : Str → Prop) (fc : FilterCollection) (systems : Assoc Str LsysText.System) (xs : List Atlas.Text) (pal : Palette.Palette) (q : QuadKey)
    (l : List El) (t : List (QuadKeyBuilder.Event (Geo ℝ))) : Prop where
  houses : Houses S rules fc xs pal q l t
  ground : Ground S rules P fc q l t
  fences : Fences S rules fc xs pal q l t
  plants : ∀ kind, Plants S rules fc systems xs pal q l t kind

/-- A stylesheet was read: `systems` are its L-systems, each with the text of its file, and `texts` the texts of its atlases, which are written `xs`. -/
structure Sheet (T : MapCss.Tools Atlas.TextureAtlas LsysText.System) (S : Studio) (css : List Char) (entries : List (MapCssSpec.Entry Atlas.TextureAtlas LsysText.System))
    (fc : FilterCollection) (systems : Assoc Str LsysText.System) (texts : List (List Char)) (xs : List Atlas.Text) : Prop where
  opened : DirectLoadSpec.Opened T S.senv css fc
  parsed : ∃ sheet depth, MapCss.parse T depth css = .ok sheet ∧ sheet.lsystems = systems
  named : ∀ name, systems.find name = entries.findSome? (MapCssSpec.Entry.lsystem? name)
  described : ∀ name s, systems.find name = some s → PlantSheetSpec.Described T.file name s
  files : ∀ t ∈ texts, ∃ f, T.file f = some t
  atlases : AtlasTexts xs texts

/-- When the tile is loaded, it is drawn with all elements `old` which were there before and `new`. The strings of the elements `old` have to be known, and no id is there twice. The colors
and textures are those of the atlases. -/
def Drawn {K St Q : Type} [LinearOrder K] (I : GeoStore.Iface St El Q) (S : Studio) (entries : List (MapCssSpec.Entry Atlas.TextureAtlas LsysText.System)) (P : Str → Prop)
    (fc : FilterCollection) (systems : Assoc Str LsysText.System) (texts : List (List Char)) (xs : List Atlas.Text) (m : GeoStore.Map K St) (q : QuadKey) (old new : List El) : Prop :=
  ∃ pal, Palette.palette S.cast S.outside texts q = .ok pal ∧ pal.textures = Atlas.provide S.outside (entries.filterMap MapCssSpec.Entry.texture?) ∧
    ((∀ e ∈ old.flatMap parts, OsmWordsSpec.AllReadable S.senv P e) → DistinctIds S.senv (LoadTileSpec.rulesOf entries) q.lod (old ++ new) →
      ∀ sorted order : List (List Char) → List (List Char), (∀ l, (sorted l).Perm l) → (∀ l, (order l).Perm l) →
        ∃ t, LoadTile.loadTile I S.senv fc sorted order m q = .ok t ∧ Scene S (LoadTileSpec.rulesOf entries) P fc systems xs pal q (old ++ new) t)

end Verif.SceneSpec
