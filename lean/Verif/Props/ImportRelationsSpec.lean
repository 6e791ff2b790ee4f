import Verif.Props.ImportSpec
import Verif.Props.ResolveSpec

/-! # Specification of importing OSM files with relations (C97)

What the maps of the visitor have to hold when a file is read, told from what is written in the file. -/
namespace Verif.ImportRelationsSpec
open Verif.Clipper (El)
open Verif.OsmXmlSpec (Doc)
open Verif.ImportSpec

/-- The nodes, lines and areas of the maps as elements. -/
def plain (x : Resolve.Data ℝ) : List El :=
  x.ctx.nodeMap.map (fun n => .node n.1 n.2.tags n.2.coordinate) ++ x.ctx.wayMap.map (fun w => .way w.1 w.2.tags w.2.coordinates) ++
    x.ctx.areaMap.map fun a => .area a.1 a.2.tags a.2.coordinates

/-- The member of a relation: its kind is told by one letter. -/
def MemberOf (m : OsmXml.Member) (y : Resolve.Member) : Prop :=
  y.refId = UInt64.ofNat m.ref ∧ y.role = String.ofList m.role ∧
    ((m.type = "node".toList ∧ y.type = "n") ∨ (m.type = "way".toList ∧ y.type = "w") ∨ (m.type ≠ "node".toList ∧ m.type ≠ "way".toList ∧ y.type = "r"))

/-- The maps hold what is written in the file: every node, way and relation once, and nothing else. -/
structure Describes (eps : ℝ) (getId : String → UInt32) (d : Doc) (x : Resolve.Data ℝ) : Prop where
  elements : ∃ els, List.Forall₂ (Shows eps getId d) (items d) els ∧ els.Perm (plain x)
  relations : ∃ rs, List.Forall₂ (fun (r : OsmXml.Relation) (y : UInt64 × List Tag × List Resolve.Member) =>
    y.1 = UInt64.ofNat r.id ∧ Tagged getId r.tags y.2.1 ∧ List.Forall₂ MemberOf r.members y.2.2) d.relations rs ∧ rs.Perm x.relations

end Verif.ImportRelationsSpec
