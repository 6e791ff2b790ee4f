import Verif.Model.Building
import Verif.Model.LoadTile
import Verif.Model.StyleValue

/-! # Buildings from a stylesheet

Models how builders/buildings/BuildingBuilder.cpp and builders/MeshContext.hpp ask the style of an element, so that `Building.Env.style` is no parameter.

Simplifications: what gradients and textures are found for the texts of a style is one parameter (`Paint`), and finding them does not fail. A style whose
values cannot be read is taken for one which is no building, although an exception goes up then; theorems are about styles which can be read. -/
namespace Verif.BuildingSheet
open Verif.Clipper (El)
open Verif.Style (Str)
open Verif.StyleEval (Arith getString)
open Verif.StyleValue (value)

/-- What is drawn for the text of a gradient, the number and the type of a texture, its scale, and a seed: StyleProvider.cpp `getGradient`, `getTexture` with
`random` (MeshContext.hpp:59-66). -/
abbrev Paint := Str → ℝ → Str → ℝ → UInt64 → Building.Look ℝ

/-- MeshContext.hpp:50-69 with the keys which begin with this prefix (BuildingBuilder.cpp:31-46). -/
noncomputable def readLook (ar : Arith ℝ) (senv : Style.Env ℝ) (paint : Paint) (tags : List Tag) (st : Style.Style) (pre : Str) : Outcome (UInt64 → Building.Look ℝ) :=
  (value ar senv tags st (pre ++ "texture-index".toList)).bind fun index =>
  (getString ar senv tags st (pre ++ "color".toList)).bind fun gradient =>
  (getString ar senv tags st (pre ++ "texture-type".toList)).bind fun type =>
  (value ar senv tags st (pre ++ "texture-scale".toList)).bind fun scale =>
  .ok (paint gradient index type scale)

/-- BuildingBuilder.cpp:259-346: what is asked when a part is drawn. -/
noncomputable def readPart (ar : Arith ℝ) (senv : Style.Env ℝ) (paint : Paint) (tags : List Tag) (st : Style.Style) (multipolygon : Bool) : Outcome (Building.Style ℝ) :=
  (value ar senv tags st "height".toList).bind fun height =>
  (value ar senv tags st "min-height".toList).bind fun minHeight =>
  (readLook ar senv paint tags st "roof-".toList).bind fun roofLook =>
  (getString ar senv tags st "roof-type".toList).bind fun roofType =>
  (value ar senv tags st "roof-height".toList).bind fun roofHeight =>
  (getString ar senv tags st "roof-direction".toList).bind fun direction =>
  (readLook ar senv paint tags st "facade-".toList).bind fun facadeLook =>
  (getString ar senv tags st "facade-type".toList).bind fun facadeType =>
  .ok ⟨true, multipolygon, height, minHeight, String.ofList roofType, roofHeight, String.ofList direction, String.ofList facadeType, roofLook, facadeLook⟩

/-- Nothing is drawn for an element with this style. -/
noncomputable def noPart (paint : Paint) : Building.Style ℝ := ⟨false, false, 0, 0, "", 0, "", "", paint [] 0 [] 0, paint [] 0 [] 0⟩

/-- BuildingBuilder.cpp:186-225, 251-257: areas are asked whether they are a building, relations whether they are a multipolygon, too. -/
noncomputable def readElement (ar : Arith ℝ) (senv : Style.Env ℝ) (paint : Paint) (fc : Style.FilterCollection) (lod : ℤ) (e : El) : Outcome (Building.Style ℝ) :=
  let st := Style.forElement senv fc e lod.toNat
  match e with
  | .area .. =>
    (getString ar senv e.tags st "building".toList).bind fun b =>
    if b = "true".toList then readPart ar senv paint e.tags st false else .ok (noPart paint)
  | .relation .. =>
    (getString ar senv e.tags st "multipolygon".toList).bind fun m =>
    if m = "true".toList then
      (getString ar senv e.tags st "building".toList).bind fun b =>
      if b = "true".toList then readPart ar senv paint e.tags st true else .ok (noPart paint)
    else .ok (noPart paint)
  | _ => .ok (noPart paint)

/-- The styles of the elements at this level of detail. -/
noncomputable def styleOf (ar : Arith ℝ) (senv : Style.Env ℝ) (paint : Paint) (fc : Style.FilterCollection) (lod : ℤ) (e : El) : Building.Style ℝ :=
  match readElement ar senv paint fc lod e with
  | .ok s => s
  | _ => noPart paint

/-- QuadKeyBuilder.cpp:62-64: the calls which the builder gets for a tile, and the meshes which the callback gets then. `base` is the rest of the builder context. -/
noncomputable def deliver (ar : Arith ℝ) (senv : Style.Env ℝ) (paint : Paint) (base : Building.Env ℝ) (fc : Style.FilterCollection) (lod : ℤ) (calls : List El) :
    Outcome (List (UInt64 × MeshBuilder.Mesh ℝ)) :=
  (Building.topAll { base with style := styleOf ar senv paint fc lod } {} calls).bind fun s => .ok s.delivered

end Verif.BuildingSheet
