import Verif.Props.RoofSheetSpec
import Verif.Props.PaletteSpec

/-! # Specification of the colors of buildings with any roof and any walls (C117) -/
namespace Verif.RoofColorsSpec
open Verif.Clipper (El)
open Verif.Style (Declaration)
open Verif.StyleEval (Arith)
open Verif.ShownSpec

/-- The mesh shows the parts of a building, each one in the colors and textures which are declared for an element of the building. -/
def ShowsHouse (ar : Arith ℝ) (senv : Style.Env ℝ) (xs : List Atlas.Text) (decls : El → List Declaration) (lib : Roofs.Library ℝ) (env : Building.Env ℝ) (e : El)
    (m : UInt64 × MeshBuilder.Mesh ℝ) : Prop :=
  ∃ faces, List.Forall₂ (fun part fs => RoofSheetSpec.PartShape lib env e.id part fs ∧
      ∃ x, BuildingSheetSpec.Within x e ∧ part.style = env.style x ∧ PaletteSpec.Dressed ar senv xs e.id.toNat (decls x) x.tags fs)
    (BuildingSpec.parts env.style e) faces ∧ Paints m.2 faces.flatten []

end Verif.RoofColorsSpec
