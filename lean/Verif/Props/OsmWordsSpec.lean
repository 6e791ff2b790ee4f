import Verif.Props.DirectLoadSpec
import Verif.Props.BuildingSheetSpec

/-! # Specification of OSM files whose strings the table gives back (C119) -/
namespace Verif.OsmWordsSpec
open Verif.Style (Str)
open Verif.OsmXmlSpec (Doc)
open Verif.Clipper (El)
open Verif.LoadTileSpec Verif.BuildingSheetSpec

variable {D : Type}

/-- The tags of every node, way and relation of the file. -/
def written (d : Doc) : List (List OsmXml.Tag) := d.nodes.map (·.tags) ++ d.ways.map (·.tags) ++ d.relations.map (·.tags)

/-- The string table gives back the strings of `P` and those which are written in the file, none has the number of the mark of building parts, and that number has no string; nothing in the
file has a key twice. -/
structure OsmWords (senv : Style.Env D) (P : Str → Prop) (d : Doc) : Prop where
  back : ∀ s, P s → senv.getString (senv.getId s) = s
  mark : senv.getString 0xFFFFFFFF = []
  strings : ∀ tags ∈ written d, ∀ t ∈ tags, senv.getString (senv.getId t.key) = t.key ∧ senv.getString (senv.getId t.value) = t.value ∧ senv.getId t.key ≠ 0xFFFFFFFF
  once : ∀ tags ∈ written d, (tags.map (·.key)).Nodup

/-- The tags of the element, and those of all its members, can be read and searched. -/
def AllReadable (senv : Style.Env D) (P : Str → Prop) (e : El) : Prop := ∀ x, Within x e → Readable senv P x

end Verif.OsmWordsSpec
