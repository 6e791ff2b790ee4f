import Verif.Props.DiskImportSpec
import Verif.Props.JsonImportSpec
import Verif.Props.ShapeImportSpec

/-! # Specification of loading tiles with imported GeoJSON and shape files (C118) -/
namespace Verif.DirectLoadSpec
open Verif.Clipper (El)
open Verif.Style (Rule Str FilterCollection)
open Verif.StyleSpec Verif.LoadTileSpec Verif.QuadKeyBuilderSpec
open Verif.DirectImport (FieldType)
open Verif.ShapeImportSpec (Figure)

variable {D : Type}

/-- When the tile is loaded, every builder is prepared and completed once, and between gets exactly those of these elements for which the rules name it. The strings of the elements
`old` which were there before have to be known, and no id is there twice. -/
def Loaded {K S Q : Type} [LinearOrder K] (I : GeoStore.Iface S El Q) (senv : Style.Env D) (rules : List Rule) (fc : FilterCollection) (P : Str → Prop) (m : GeoStore.Map K S) (q : QuadKey)
    (old new : List El) : Prop :=
  (∀ e ∈ old.flatMap parts, Readable senv P e) → DistinctIds senv rules q.lod (old ++ new) →
    ∀ sorted order : List (List Char) → List (List Char), (∀ l, (sorted l).Perm l) → (∀ l, (order l).Perm l) →
      ∃ t, LoadTile.loadTile I senv fc sorted order m q = .ok t ∧ ∀ b, LifeCycle b t ∧ (visited b t).Perm (buildWith senv rules q.lod b (old ++ new))

/-- A stylesheet was read. -/
def Opened {A L : Type} (T : MapCss.Tools A L) (senv : Style.Env D) (css : List Char) (fc : FilterCollection) : Prop :=
  ∃ depth, ∀ n ≥ depth, LoadTile.openSheet T senv n css = .ok fc

/-- The string table gives back the strings of `P` and those which are written in the collections; a feature has no property twice, and none with the name `feature`. -/
structure JsonWords (senv : Style.Env D) (P : Str → Prop) (cs : List (String × List (JsonSpec.Feature ℝ))) : Prop where
  back : ∀ s, P s → senv.getString (senv.getId s) = s
  feature : senv.getString (senv.getId "feature".toList) = "feature".toList
  names : ∀ c ∈ cs, senv.getString (senv.getId c.1.toList) = c.1.toList
  properties : ∀ c ∈ cs, ∀ f ∈ c.2, ∀ p ∈ f.properties, senv.getString (senv.getId p.1.toList) = p.1.toList ∧ senv.getString (senv.getId p.2.toList) = p.2.toList
  once : ∀ c ∈ cs, ∀ f ∈ c.2, (f.properties.map Prod.fst).Nodup ∧ "feature" ∉ f.properties.map Prod.fst

/-- The string table gives back the strings of `P`, the names of the fields and the values; no field is there twice. -/
structure ShapeWords (senv : Style.Env D) (P : Str → Prop) (fields : List (String × FieldType)) (entries : List (Option (Figure × List (Option String)))) : Prop where
  back : ∀ s, P s → senv.getString (senv.getId s) = s
  keys : ∀ f ∈ fields, senv.getString (senv.getId f.1.toList) = f.1.toList
  values : ∀ f, some f ∈ entries → ∀ v, some v ∈ f.2 → senv.getString (senv.getId v.toList) = v.toList
  once : (fields.map Prod.fst).Nodup

end Verif.DirectLoadSpec
