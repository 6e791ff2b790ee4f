import Verif.Model.DirectImport
import Verif.Props.JsonSpec
import Verif.Props.ImportSpec

/-! # Specification of importing GeoJSON files (C104)

What is found in a tile after a file was imported, told from the features which are written in the file. -/
namespace Verif.JsonImportSpec
open Verif.Json Verif.JsonSpec Verif.BboxSpec
open Verif.Clipper (El)

/-- All positions of a geometry, as longitude and latitude. -/
def positions : Geometry ℝ → List (ℝ × ℝ)
  | .point p => [p]
  | .line ps => ps
  | .polygon rings => rings.flatten
  | .multiLine lines => lines.flatten
  | .multiPolygon polygons => polygons.flatten.flatten

/-- Everything is on the globe. -/
def OnEarth (f : Feature ℝ) : Prop := ∀ p ∈ positions f.geometry, OnGlobe (⟨p.2, p.1⟩ : Geo ℝ)

/-- Collections of features by name; every name stands for itself and is used once; every id is a number; everything is on the globe. -/
structure Proper (toId : List Char → Option UInt64) (cs : List (String × List (Feature ℝ))) : Prop where
  plain : ∀ c ∈ cs, Plain c.1
  distinct : (cs.map Prod.fst).Nodup
  ids : ∀ c ∈ cs, ∀ f ∈ c.2, ∃ id, IdOf toId f.properties id
  earth : ∀ c ∈ cs, ∀ f ∈ c.2, OnEarth f

/-- The features with the names of their collections, in the order of the file. -/
def features (cs : List (String × List (Feature ℝ))) : List (String × Feature ℝ) := cs.flatMap fun c => c.2.map fun f => (c.1, f)

/-- The element of a feature: as it is delivered (C58), with coordinates of latitude and longitude. -/
def Shows (T : Tools ℝ) (x : String × Feature ℝ) (e : El) : Prop :=
  ∃ id tags d, IdOf T.toId x.2.properties id ∧ TagsOf T.getId x.1 x.2.properties tags ∧ Delivered T.same id tags x.2.geometry d ∧
    e = DiskImport.mapCoords (fun c => ⟨c.1, c.2⟩) d

/-- The file breaks off: `cs` are its collections up to a tree which is no feature, the last of them with the name `name` is the one with this tree. -/
structure Broken (toDouble : String → Option ℝ) (t : Tree) (cs : List (String × List (Feature ℝ))) (name : String) (fs : List (Feature ℝ)) : Prop where
  tree : ∃ d before c after, t = .mk d (before ++ (name, c) :: after) ∧ IsDocument toDouble (.mk d before) cs ∧
    ∃ l good bad rest, Has c "features" l ∧ l.children = good ++ bad :: rest ∧ List.Forall₂ (fun c f => IsFeature toDouble c.2 f) good fs ∧
      ¬ ∃ f, IsFeature toDouble bad.2 f

end Verif.JsonImportSpec
