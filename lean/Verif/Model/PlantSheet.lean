import Verif.Model.BarrierSheet
import Verif.Model.LsysDraw
import Verif.Model.LsysText
import Verif.Model.Palette

/-! # Trees and lamps from a stylesheet

Models how builders/poi/TreeBuilder.cpp, builders/misc/LampBuilder.cpp and builders/generators/LSystemGenerator.cpp ask the style of an element and the style provider, so that
the parameters of `Verif.Along` and `Verif.LsysDraw` are no parameters.

Simplifications: a step or width which cannot be read is replaced by zero, although an exception goes up then; theorems are about those which can be read. They are read for
nodes, too, where the code does not ask for them. The random numbers of a tree are given by its element. -/
namespace Verif.PlantSheet
open Verif.Clipper (El)
open Verif.Style (Str)
open Verif.StyleEval (Arith getString)
open Verif.StyleValue (value valueBox)
open Verif.TerrainSheet (orElse)
open Verif.Palette (Palette lookOf textureOf)
open Verif.LsysText (System)
open Verif.Lsys (Rule)

/-- What is used besides the style of an element: the palette of the style provider and its L-systems (StyleProvider.cpp:276-278), `lexicalCast` for numbers of textures and
for scales (CoreUtils.hpp:44-47), the comparison of rules and the random numbers (lsys/Turtle.cpp:10-31). -/
structure Nursery (G : Type) where
  palette : Palette
  systems : Assoc Str System
  toIndex : List Char → Outcome Nat
  toScale : List Char → Outcome ℝ
  lt : Rule → Rule → Bool
  pick : G → List ℚ → Nat × G
  random : El → G

/-- LSystemGenerator.cpp:34-39: no color noise, and the first texture of the group. -/
noncomputable def appearanceOf (p : Palette) (color : List Char) (index : Nat) (type : List Char) (scale : ℝ) : Outcome (Building.Look ℝ) :=
  (Gradient.loadGradient p.cast color).bind fun colors =>
  (Atlas.getTexture p.textures index type).bind fun group =>
  (Atlas.random group 0).bind fun region =>
  .ok (lookOf p.tile ⟨colors, 0, !region.isEmpty, scale⟩ (textureOf index region))

/-- What `createAppearances` uses (LSystemGenerator.cpp:23-43). -/
noncomputable def providerOf {G : Type} (n : Nursery G) : LsysDraw.Provider ℝ := ⟨n.toIndex, n.toScale, appearanceOf n.palette⟩

/-- StyleProvider.cpp:308-314 -/
def getLsystem {G : Type} (n : Nursery G) (key : Str) : Outcome System :=
  match n.systems.find key with
  | some s => .ok s
  | none => .throw "MapCssException"

/-- The functions of the standard library; drawing L-systems does not use the conversion of texts, the distance and the clipping library. -/
noncomputable def library : Roofs.Library ℝ := Roofs.realLibrary (fun _ => 0) Geodesy.distance (fun _ _ => [])

/-- LSystemGenerator.cpp:25-28 -/
def readTexts (ar : Arith ℝ) (senv : Style.Env ℝ) (tags : List Tag) (st : Style.Style) : Outcome LsysDraw.Texts :=
  (getString ar senv tags st "lsys-colors".toList).bind fun colors =>
  (getString ar senv tags st "lsys-texture-indices".toList).bind fun indices =>
  (getString ar senv tags st "lsys-texture-types".toList).bind fun types =>
  (getString ar senv tags st "lsys-texture-scales".toList).bind fun scales =>
  .ok ⟨colors, indices, types, scales⟩

/-- LSystemGenerator.cpp:177-197 with the constructor in lines 54-82: the mesh which is drawn at a place. The size is read before the appearances are created, which only decides
which exception is seen first. -/
noncomputable def draw {G : Type} (ar : Arith ℝ) (senv : Style.Env ℝ) (n : Nursery G) (epsilon : ℝ) (tags : List Tag) (st : Style.Style) (g : G) (position : Geo ℝ) (elevation : ℝ) :
    Outcome (MeshBuilder.Mesh ℝ) :=
  (getString ar senv tags st "lsys".toList).bind fun key =>
  (getLsystem n key).bind fun s =>
  (readTexts ar senv tags st).bind fun texts =>
  (value ar senv tags st "lsys-size".toList).bind fun size =>
  LsysDraw.generate library epsilon (providerOf n) n.lt n.pick texts size (s.angle : ℝ) (s.scale : ℝ) (s.toLSystem n.lt) g position elevation {}

/-- The key of the distance between copies: TreeBuilder.cpp:20, LampBuilder.cpp:19. -/
def stepKey : Along.Kind → Str
  | .tree => "tree-step".toList
  | .lamp => "lamp-step".toList

/-- TreeBuilder.cpp:25-29, 39-44, LampBuilder.cpp:23-29, 36-45 -/
noncomputable def styleOf {G : Type} (ar : Arith ℝ) (senv : Style.Env ℝ) (n : Nursery G) (epsilon : ℝ) (box : Bbox ℝ) (fc : Style.FilterCollection) (lod : ℤ) (kind : Along.Kind)
    (e : El) : Along.PlantStyle ℝ :=
  let st := Style.forElement senv fc e lod.toNat
  ⟨orElse (value ar senv e.tags st (stepKey kind)) 0, orElse (valueBox ar senv e.tags st "width".toList box) 0, draw ar senv n epsilon e.tags st (n.random e)⟩

/-- The builder context of a tile (QuadKeyBuilder.cpp:114-116, BuilderContext.hpp): its box, GeoUtils.hpp:117-132 and the square root. `elevation` is `getElevation` for the tile. -/
noncomputable def worldOf (elevation : Geo ℝ → ℝ) (epsilon : ℝ) (q : QuadKey) : Along.World ℝ := ⟨Geodesy.distance, elevation, Real.sqrt, epsilon, (Mercator.tileBox q).center⟩

/-- QuadKeyBuilder.cpp:62-64: the calls which the builder gets for a tile, and the meshes which the callback gets then. -/
noncomputable def deliver {G : Type} (ar : Arith ℝ) (senv : Style.Env ℝ) (n : Nursery G) (elevation : Geo ℝ → ℝ) (epsilon : ℝ) (fc : Style.FilterCollection) (q : QuadKey)
    (kind : Along.Kind) (calls : List El) : Outcome (List (Along.Delivered ℝ)) :=
  Along.visitAll (worldOf elevation epsilon q) kind (styleOf ar senv n epsilon (Mercator.tileBox q) fc q.lod kind) [] calls

end Verif.PlantSheet
