import Verif.Model.Import
import Verif.Props.OsmXmlSpec
import Verif.Props.OsmSpec
import Verif.Props.ElementStoreSpec
import Verif.Props.GeoStoreSpec

/-! # Specification of importing OSM files in XML (C95)

What is found in a tile after a file was imported, told from the nodes and ways which are written in the file. -/
namespace Verif.ImportSpec
open Verif.Clipper (El Engine)
open Verif.ElementStore (StyleInfo)
open Verif.ElementStoreSpec Verif.BboxSpec
open Verif.OsmSpec (Coincide doubleArea)
open Verif.OsmXmlSpec (Doc)
open Verif.Import (Target)
open Verif.OsmXml (Node Way)

/-- A node or a way which is written in a file. -/
inductive Item
  | node (n : Node)
  | way (w : Way)

def items (d : Doc) : List Item := d.nodes.map .node ++ d.ways.map .way

/-- The tags which are written, by their numbers, sorted by key. -/
def Tagged (getId : String → UInt32) (raw : List OsmXml.Tag) (tags : List Tag) : Prop :=
  tags.Perm (raw.map fun t => ⟨getId (String.ofList t.key), getId (String.ofList t.value)⟩) ∧ tags.Pairwise (fun a b => a.key ≤ b.key)

noncomputable def place (n : Node) : Geo ℝ := ⟨n.lat, n.lon⟩

/-- The line ends where it begins and has more than three points. -/
def Ring (eps : ℝ) (cs : List (Geo ℝ)) : Prop := 3 < cs.length ∧ ∃ a z, cs.head? = some a ∧ cs.getLast? = some z ∧ Coincide eps a z

/-- The element for a node or a way: a way is a line through the places of its nodes, or the area inside, counter-clockwise. -/
def Shows (eps : ℝ) (getId : String → UInt32) (d : Doc) : Item → El → Prop
  | .node n, e => ∃ tags, Tagged getId n.tags tags ∧ e = .node (UInt64.ofNat n.id) tags (place n)
  | .way w, e => ∃ tags cs, Tagged getId w.tags tags ∧ List.Forall₂ (fun i c => ∃ n ∈ d.nodes, n.id = i ∧ c = place n) w.refs cs ∧
      ((¬ Ring eps cs ∧ e = .way (UInt64.ofNat w.id) tags cs) ∨
       (Ring eps cs ∧ ∃ ps, e = .area (UInt64.ofNat w.id) tags ps ∧ (ps = cs.dropLast ∨ ps = cs.dropLast.reverse) ∧ 0 ≤ doubleArea ps))

/-- Every node of a way is in the file. -/
def Whole (d : Doc) : Prop := ∀ w ∈ d.ways, ∀ i ∈ w.refs, ∃ n ∈ d.nodes, n.id = i

/-- No number is used twice, every way has its nodes, everything is on the globe. -/
structure Sound (d : Doc) : Prop where
  nodes : (d.nodes.map (·.id)).Nodup
  ways : (d.ways.map (·.id)).Nodup
  whole : Whole d
  globe : ∀ n ∈ d.nodes, OnGlobe (place n)

/-- The import is for this tile. -/
def Wanted (t : Target) (e : El) (q : QuadKey) : Prop :=
  match t with
  | .range r => r.start ≤ q.lod ∧ q.lod ≤ r.stop
  | .tile p => q = p
  | .box b r => (r.start ≤ q.lod ∧ q.lod ≤ r.stop) ∧ MeetsBox e b

/-- Levels which exist. -/
def Sensible : Target → Prop
  | .range r => 0 ≤ r.start ∧ r.stop ≤ 19
  | .tile p => TilesSpec.Valid p ∧ 1 ≤ p.lod ∧ p.lod ≤ 19
  | .box b r => b.isValid = true ∧ 0 ≤ r.start ∧ r.stop ≤ 19

open Classical in
/-- What is seen of an element in a tile: nothing if the tile is not wanted, if the stylesheet does not want the element, or if it does not meet the tile; else the
element, or what the clipping library leaves of it if the stylesheet wants that. -/
noncomputable def seen (eng : Engine) (style : El → ℤ → StyleInfo) (t : Target) (q : QuadKey) (e : El) : Option El :=
  if Wanted t e q ∧ Styled (style e q.lod) ∧ Meets e q then
    if (style e q.lod).clip = true then Clipper.clip eng (Mercator.tileBox q) e else some e
  else none

/-- Every store has been made empty and then used. -/
def Used {K E : Type} (tokens : E → List UInt32) (A : GeoStoreSpec.Stores K (MemStore.Store E)) : Prop :=
  ∀ k s, A k = some s → ∃ ops, s = (MemStore.run tokens MemStore.init ops).1

end Verif.ImportSpec
