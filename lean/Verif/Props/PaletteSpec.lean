import Verif.Model.Palette
import Verif.Props.AtlasSpec
import Verif.Props.BuildingSheetSpec
import Verif.Props.GradientSpec
import Verif.Props.SurfaceSpec
import Verif.Props.TerrainSheetSpec

/-! # Specification of looks from the texts of a stylesheet (C113) -/
namespace Verif.PaletteSpec
open Verif.Clipper (El)
open Verif.Style (Declaration Str)
open Verif.StyleSpec Verif.GradientSpec Verif.ColorSpec Verif.SurfaceSpec Verif.AtlasSpec Verif.ShownSpec
open Verif.Color (Color)
open Verif.StyleEval (Arith)
open Verif.MeshBuilder (Texture)
open Verif.BuildingSheetSpec (Amount Word)

/-- A color, or a gradient of colors whose last one is at this percentage or later. -/
def Legible (percent : Nat) (text : Str) : Prop :=
  (∃ s : Stop, s.Good ∧ ¬ ['g', 'r', 'a', 'd', 'i', 'e', 'n', 't'] <+: s.text ∧ text = s.write) ∨
  ∃ blanks l, l ≠ [] ∧ (∀ s ∈ l, s.Good) ∧ (1 < l.length → ∀ s, l.getLast? = some s → ∀ ds, s.percent = some ds → percent ≤ number ds) ∧ text = write blanks l

/-- The color in the middle of a gradient: of its only color, of the first one if it is in the second half, or between the two neighbours of the middle. -/
inductive Middle : List Stop → Color → Prop
  | one (s : Stop) : Middle [s] s.color
  | first (s : Stop) (l : List Stop) : (1 / 2 : ℝ) ≤ s.time true → Middle (s :: l) s.color
  | between (l : List Stop) (j : Nat) (A B : Stop) (c : Color) : l[j]? = some A → l[j + 1]? = some B → (A.time (decide (j = 0)) : ℝ) < 1 / 2 → (1 / 2 : ℝ) ≤ B.time false →
      Between 1 A.color B.color c → Middle l c

/-- The color which a text stands for if there is no noise: the color, or the one in the middle of the gradient. -/
def Hue (text : Str) (c : Color) : Prop :=
  (∃ s : Stop, text = s.write ∧ s.Good ∧ c = s.color) ∨ ∃ blanks l, text = write blanks l ∧ (∀ s ∈ l, s.Good) ∧ Middle l c

/-- A color which the text names, or one between two neighbours of the gradient. -/
def Tone (text : Str) (c : Color) : Prop :=
  (∃ s : Stop, text = s.write ∧ s.Good ∧ c = s.color) ∨ ∃ blanks l, text = write blanks l ∧ (∀ s ∈ l, s.Good) ∧
    ((∃ s, l[0]? = some s ∧ c = s.color) ∨ ∃ j A B, l[j]? = some A ∧ l[j + 1]? = some B ∧ Between 1 A.color B.color c)

/-- The texture is this region of an atlas with this number. -/
def IsRegion (index : Int) (r : Atlas.TextureRegion) (t : Texture) : Prop :=
  t.id = index ∧ t.atlasWidth = r.atlasWidth ∧ t.atlasHeight = r.atlasHeight ∧ t.x = r.x ∧ t.y = r.y ∧ t.width = r.width ∧ t.height = r.height

/-- The texture with this number, type and seed in these atlases: from the first atlas with the number, or nothing. -/
def Textured (xs : List Atlas.Text) (index : Int) (type : Str) (seed : Nat) (t : Texture) : Prop :=
  (∃ before x after r, xs = before ++ x :: after ∧ x.id % 2 ^ 16 = index ∧ (∀ b ∈ before, b.id % 2 ^ 16 ≠ index) ∧ Chosen x type seed r ∧ IsRegion index r t) ∨
  ((∀ x ∈ xs, x.id % 2 ^ 16 ≠ index) ∧ t.id = index ∧ t.atlasWidth = 0 ∧ t.atlasHeight = 0)

/-- These are the texts of the atlases. -/
def AtlasTexts (xs : List Atlas.Text) (texts : List (List Char)) : Prop :=
  List.Forall₂ (fun x text => ∃ w u, text = w ++ u ∧ PrintsAtlas x w ∧ Stops u ∧ ∀ r ∈ x.regions, Fits r) xs texts

/-- What is declared with this prefix can be shown: the color is legible, the last one of a gradient is in its second half, and the number of the texture is one of 16 bits (without 65535, which is never found). -/
def Showable (ar : Arith ℝ) (senv : Style.Env ℝ) (ds : List Declaration) (tags : List Tag) (pre : Str) : Prop :=
  (∀ g, Word ar senv tags (lastValue ds (pre ++ "color".toList)) g → Legible 50 g) ∧
  ∀ v, Amount ar senv tags (lastValue ds (pre ++ "texture-index".toList)) v → ∃ i, TerrainSheetSpec.IsWhole v i ∧ 0 ≤ i ∧ i < 65535

/-- A look of one color. -/
structure Plainly (look : Building.Look ℝ) (color : Int) : Prop where
  point : ∀ q, look.pointColor q = color
  plane : ∀ v, look.planeColor v = color
  triangle : ∀ v, look.triangleColor v = color

/-- All triangles have this color and this texture. -/
def Uniform (color : Int) (texture : Texture) (faces : List (Triangle ℝ × Texture)) : Prop :=
  ∀ f ∈ faces, f.2 = texture ∧ f.1.1.color = color ∧ f.1.2.1.color = color ∧ f.1.2.2.color = color

/-- The color and the texture of what is declared with this prefix. -/
def Dress (ar : Arith ℝ) (senv : Style.Env ℝ) (xs : List Atlas.Text) (seed : Nat) (ds : List Declaration) (tags : List Tag) (pre : Str) (color : Int) (texture : Texture) : Prop :=
  ∃ g v i type c, Word ar senv tags (lastValue ds (pre ++ "color".toList)) g ∧ Amount ar senv tags (lastValue ds (pre ++ "texture-index".toList)) v ∧
    Word ar senv tags (lastValue ds (pre ++ "texture-type".toList)) type ∧ TerrainSheetSpec.IsWhole v i ∧
    Hue g c ∧ Packed c color ∧ Textured xs i type seed texture

/-- The faces of a part of a building: first roof and floor, then the walls, in the colors and textures which are declared for them. -/
def Dressed (ar : Arith ℝ) (senv : Style.Env ℝ) (xs : List Atlas.Text) (seed : Nat) (ds : List Declaration) (tags : List Tag) (faces : List (Triangle ℝ × Texture)) : Prop :=
  ∃ tops walls roofColor roofTexture wallColor wallTexture, faces = tops ++ walls ∧
    Uniform roofColor roofTexture tops ∧ Dress ar senv xs seed ds tags "roof-".toList roofColor roofTexture ∧
    Uniform wallColor wallTexture walls ∧ Dress ar senv xs seed ds tags "facade-".toList wallColor wallTexture

/-- The mesh shows the parts of a building, each one in the colors and textures which are declared for an element of the building. -/
def ShowsColors (ar : Arith ℝ) (senv : Style.Env ℝ) (xs : List Atlas.Text) (decls : El → List Declaration) (env : Building.Env ℝ) (e : El)
    (m : UInt64 × MeshBuilder.Mesh ℝ) : Prop :=
  ∃ faces, List.Forall₂ (fun part fs => BuildingSheetSpec.PartFaces env e.id part fs ∧
      ∃ x, BuildingSheetSpec.Within x e ∧ part.style = env.style x ∧ Dressed ar senv xs e.id.toNat (decls x) x.tags fs)
    (BuildingSpec.parts env.style e) faces ∧ Paints m.2 faces.flatten []

end Verif.PaletteSpec
