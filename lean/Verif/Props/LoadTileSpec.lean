import Verif.Model.LoadTile
import Verif.Props.ImportRelationsSpec
import Verif.Props.StyleSpec
import Verif.Props.MapCssSpec
import Verif.Props.QuadKeyBuilderSpec

/-! # Specification of loading a tile (C98)

What builders get, told from the rules of the stylesheet. -/
namespace Verif.LoadTileSpec
open Verif.Clipper (El)
open Verif.Style (Rule Declaration Str kindOfElement)
open Verif.StyleSpec

variable {D : Type}

/-- The rules which are written in a stylesheet, in their order, those of imported files in the place of the import. -/
def rulesOf {A L : Type} (entries : List (MapCssSpec.Entry A L)) : List Rule :=
  (entries.filterMap MapCssSpec.Entry.rule?).map fun r =>
    ⟨r.selectors.map fun s => ⟨s.names, ⟨s.zoom.first, s.zoom.last⟩, s.conditions.map fun c => ⟨c.key, c.operation, c.value⟩⟩,
      r.declarations.map fun d => ⟨d.key, d.value⟩⟩

/-- The declarations which are for an element: those of the first rule for its id, else those of all rules which apply. -/
noncomputable def decls (senv : Style.Env D) (rules : List Rule) (lod : ℤ) (e : El) : List Declaration :=
  match idRules senv lod.toNat e.id rules with
  | ds :: _ => ds
  | [] => declared senv (kindOfElement e) lod.toNat e.tags rules

open Classical in
/-- What the rules say about storing: nothing; `skip: true`; `clip: true`. -/
noncomputable def wanted (senv : Style.Env D) (rules : List Rule) (e : El) (lod : ℤ) : ElementStore.StyleInfo :=
  ⟨decide (decls senv rules lod e = []), decide (lastValue (decls senv rules lod e) "skip".toList = some "true".toList),
    decide (lastValue (decls senv rules lod e) "clip".toList = some "true".toList)⟩

/-- The strings of an element's tags are in the string table, and the tags can be searched. -/
def Readable (senv : Style.Env D) (P : Str → Prop) (e : El) : Prop := Interned senv P e.tags ∧ SortedFor senv P e.tags

/-- Among the parts which get a style no id is there twice, and none is the one of an element which was cut. Parts of cut elements have no id. -/
def DistinctIds (senv : Style.Env D) (rules : List Rule) (lod : ℤ) (found : List El) : Prop :=
  ((found.flatMap QuadKeyBuilderSpec.parts).Pairwise fun a e =>
    decls senv rules lod a ≠ [] → decls senv rules lod e ≠ [] → (a.id ≠ 0 ∨ e.id ≠ 0) → a.id ≠ e.id) ∧
  ∀ e ∈ found.flatMap QuadKeyBuilderSpec.parts, decls senv rules lod e ≠ [] → e.id ≠ 0 → e.id ∉ QuadKeyBuilderSpec.clippedIds found

open Classical in
/-- The parts for which the rules name this builder. -/
noncomputable def buildWith (senv : Style.Env D) (rules : List Rule) (lod : ℤ) (b : List Char) (found : List El) : List El :=
  (found.flatMap QuadKeyBuilderSpec.parts).filter fun e => decide (⟨"builder".toList, b⟩ ∈ decls senv rules lod e)

end Verif.LoadTileSpec
