import Verif.Props.PlantSheet

/-! # Trees and lamps whose L-system is not known (C115) -/
namespace Verif.Props
open Verif.Clipper (El)
open Verif.Style (Declaration FilterCollection Str)
open Verif.StyleSpec Verif.LoadTileSpec Verif.PlantSheet Verif.PlantSheetSpec
open Verif.StyleEval (Arith)
open Verif.BuildingSheetSpec (Word)

/-- C115: if the stylesheet has no L-system of the name which is said for an element, the tree or lamp is refused with an exception, at every place. -/
theorem C115_unknown (ar : Arith ℝ) (hs : StyleEvalSpec.Sane ar) (senv : Style.Env ℝ) {rules : List Style.Rule} {fc : FilterCollection}
    (hok : Style.build senv rules = .ok fc) {P : Str → Prop} (hm : Mentions rules P) (hk : ∀ k ∈ keys, P k) (epsilon : ℝ) (q : QuadKey) {G : Type} (n : Nursery G) (e : El)
    (hread : Readable senv P e) {name : Str} (hn : Word ar senv e.tags (lastValue (decls senv rules q.lod e) "lsys".toList) name) (hnone : n.systems.find name = none)
    (kind : Along.Kind) (place : Geo ℝ) (elevation : ℝ) :
    (styleOf ar senv n epsilon (Mercator.tileBox q) fc q.lod kind e).generate place elevation = .throw "MapCssException" := by
  obtain ⟨h3, -, -, -⟩ := LoadTileProof.style_of hok hm hread q.lod
  have hst : ∀ k ∈ keys, (Style.forElement senv fc e q.lod.toNat).declarations.find (senv.getId k) = lastValue (decls senv rules q.lod e) k := fun k hk' => h3 k (hk k hk')
  simp only [styleOf, draw, BuildingSheetProof.string_of hs hn (hst _ (by decide)), Outcome.bind, getLsystem, hnone]

/-- A lamp of a stylesheet without L-systems. -/
example (q : QuadKey) (hq : q.lod = 1) (pal : Palette.Palette) : ∃ fc, Style.build PlantSheetProof.Sample.strings [PlantSheetProof.Sample.rule PlantSheetProof.Sample.lamps] = .ok fc ∧
    (styleOf PlantSheetProof.Sample.arith PlantSheetProof.Sample.strings { PlantSheetProof.Sample.nursery pal with systems := [] } (1 / 2 ^ 52) (Mercator.tileBox q) fc q.lod .lamp
      PlantSheetProof.Sample.street).generate ⟨0, 0⟩ 0 = .throw "MapCssException" := by
  open PlantSheetProof.Sample in
  refine ⟨_, rfl, ?_⟩
  have hs : StyleEvalSpec.Sane arith := fun _ => ⟨rfl, rfl⟩
  have hdecls : decls strings [rule lamps] q.lod street = lamps := by
    rw [hq]
    exact street_decls lamps
  refine C115_unknown arith hs strings (rules := [rule lamps]) rfl (P := (· ∈ table)) (by unfold Mentions; decide) (by decide) _ q _ street readable (name := "lamp".toList) ?_ rfl _ _ _
  rw [hdecls]
  exact .plain _ (BuildingSheetProof.Sample.plain 'l' "amp".toList (by decide) (by decide))

end Verif.Props
