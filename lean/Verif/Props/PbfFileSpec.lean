import Verif.Model.PbfFile
import Verif.Props.PbfSpec
import Verif.Props.ImportSpec

/-! # Specification of OSM files in PBF (C103)

From the description of the format (fileformat.proto, osmformat.proto): a file is a row of parts, each with the size of its header, the header and a blob; the blob holds a compressed
block, a block has groups of objects. -/
namespace Verif.PbfFileSpec
open Verif.PbfFile (Tools Group)
open Verif.Pbf (Block)
open Verif.PbfSpec
open Verif.OsmXmlSpec (Doc)
open Verif.ImportSpec (Item items)

/-- A number in four bytes, the highest byte first. -/
def bigEndian (n : Nat) : Bytes := [UInt8.ofNat (n / 2 ^ 24), UInt8.ofNat (n / 2 ^ 16), UInt8.ofNat (n / 2 ^ 8), UInt8.ofNat n]

/-- A part of the file with this type and this content. -/
def Part (T : Tools) (type : String) (content bytes : Bytes) : Prop :=
  ∃ h b z, T.header h = some ⟨type, b.length⟩ ∧ h.length ≤ 65536 ∧ b.length ≤ 33554432 ∧ T.blob b = some ⟨none, content.length, some z, none⟩ ∧
    T.inflate z = (content, true) ∧ content.length ≤ 33554432 ∧ bytes = bigEndian h.length ++ (h ++ b)

/-- The tags of the map. -/
def texts (tags : List (String × String)) : List OsmXml.Tag := tags.map fun t => ⟨t.1.toList, t.2.toList⟩

/-- A node of the map and the numbers which stand for it in the block. -/
def NodeOf (b : Block) (n : OsmXml.Node) (s : Source) : Prop :=
  n = ⟨unsigned s.id, degrees b.latOffset b.granularity s.lat, degrees b.lonOffset b.granularity s.lon, texts s.tags⟩

/-- A way of the map and the message for it. -/
def WayOf (b : Block) (index : String → Nat) (w : OsmXml.Way) (x : Pbf.Way) : Prop :=
  ∃ id refs tags, Indexed b index tags ∧ w = ⟨unsigned id, refs.map unsigned, texts tags⟩ ∧
    x = ⟨id, deltas 0 refs, tags.map fun t => index t.1, tags.map fun t => index t.2⟩

/-- A member of a relation of the map, and its id, kind and role in the message: 0 node, 1 way, 2 relation. -/
def MemberOf (m : OsmXml.Member) (x : Int × Nat × String) : Prop :=
  m.ref = unsigned x.1 ∧ m.role = x.2.2.toList ∧
    ((m.type = ['n', 'o', 'd', 'e'] ∧ x.2.1 = 0) ∨ (m.type = ['w', 'a', 'y'] ∧ x.2.1 = 1) ∨ (m.type = ['r', 'e', 'l', 'a', 't', 'i', 'o', 'n'] ∧ x.2.1 = 2))

/-- A relation of the map and the message for it. -/
def RelationOf (b : Block) (index : String → Nat) (r : OsmXml.Relation) (x : Pbf.Relation) : Prop :=
  ∃ id members tags, Indexed b index tags ∧ (∀ m ∈ members, b.strings[index m.2.2]? = some m.2.2) ∧ r.id = unsigned id ∧ List.Forall₂ MemberOf r.members members ∧ r.tags = texts tags ∧
    x = ⟨id, deltas 0 (members.map Prod.fst), members.map fun m => m.2.1, members.map fun m => index m.2.2, tags.map fun t => index t.1, tags.map fun t => index t.2⟩

/-- What a group holds. -/
structure Content where
  nodes : List OsmXml.Node
  ways : List OsmXml.Way
  relations : List OsmXml.Relation

/-- A group with this content: some nodes are written one by one, the others densely. Blocks with dense nodes have no offset (C49_violated_offset). -/
def GroupOf (b : Block) (index : String → Nat) (c : Content) (g : Group) : Prop :=
  (∃ plain dense : List Source, List.Forall₂ (NodeOf b) c.nodes (plain ++ dense) ∧ (∀ s ∈ plain, Indexed b index s.tags) ∧
    g.nodes = plain.map (fun s => ⟨s.id, s.lat, s.lon, s.tags.map fun t => index t.1, s.tags.map fun t => index t.2⟩) ∧
    ((g.dense = none ∧ dense = []) ∨ ∃ d, g.dense = some d ∧ Encodes b index dense d ∧ b.latOffset = 0 ∧ b.lonOffset = 0)) ∧
  List.Forall₂ (WayOf b index) c.ways g.ways ∧ List.Forall₂ (RelationOf b index) c.relations g.relations

/-- A file with this content, group by group. Parts which are not data, such as the header, may be anywhere. -/
inductive FileOf (T : Tools) : List Content → Bytes → Prop
  | nil : FileOf T [] []
  | other {type content bytes cs rest} : Part T type content bytes → type ≠ "OSMData" → FileOf T cs rest → FileOf T cs (bytes ++ rest)
  | data {content bytes p index gs cs rest} : Part T "OSMData" content bytes → T.block content = some p → List.Forall₂ (GroupOf p.block index) gs p.groups → FileOf T cs rest →
      FileOf T (gs ++ cs) (bytes ++ rest)

/-- The groups hold the map: its nodes and then its ways, and its relations anywhere. -/
def Holds (d : Doc) (cs : List Content) : Prop :=
  (cs.flatMap fun c => c.nodes.map Item.node ++ c.ways.map Item.way) = items d ∧ (cs.flatMap fun c => c.relations) = d.relations

end Verif.PbfFileSpec
