import Verif.Props.OsmIdsSpec
import Mathlib.Logic.Relation

/-! # Specification of OSM files whose relations can be resolved, told from what is written (C123) -/
namespace Verif.OsmTidySpec
open Verif.OsmXml (Relation)
open Verif.OsmXmlSpec (Doc)

/-- A tag says what kind of relation this is. -/
def Says (r : Relation) (kind : List Char) : Prop := ∃ t ∈ r.tags, t.key = "type".toList ∧ t.value = kind

def Multipolygon (r : Relation) : Prop := Says r "multipolygon".toList

def Building (r : Relation) : Prop := ¬ Multipolygon r ∧ Says r "building".toList

/-- The relation with number `a`, which is not a multipolygon, names the relation with number `b`, and both are in the file. -/
def Contains (d : Doc) (a b : UInt64) : Prop :=
  ∃ r ∈ d.relations, ∃ m ∈ r.members, ∃ r' ∈ d.relations, UInt64.ofNat r.id = a ∧ UInt64.ofNat m.ref = b ∧ UInt64.ofNat r'.id = b ∧ ¬ Multipolygon r ∧
    m.type ≠ "node".toList ∧ m.type ≠ "way".toList

/-- The members of the multipolygon are closed ways which are in the file, one of them the outer one, the others inner ones. -/
def Simple (d : Doc) (r : Relation) : Prop :=
  (∀ m ∈ r.members, m.type = "way".toList ∧ (m.role = "outer".toList ∨ m.role = "inner".toList) ∧
    ∃ w ∈ d.ways, UInt64.ofNat w.id = UInt64.ofNat m.ref ∧ 4 ≤ w.refs.length ∧ w.refs.head? = w.refs.getLast?) ∧
  r.members.countP (fun m => decide (m.role = "outer".toList)) = 1

/-- The members of the building are ways and relations which are in the file, and none of them is the outline. -/
def Whole (d : Doc) (r : Relation) : Prop :=
  ∀ m ∈ r.members, m.role ≠ "outline".toList ∧
    ((m.type = "way".toList ∧ ∃ w ∈ d.ways, UInt64.ofNat w.id = UInt64.ofNat m.ref) ∨
     (m.type ≠ "node".toList ∧ m.type ≠ "way".toList ∧ ∃ r' ∈ d.relations, UInt64.ofNat r'.id = UInt64.ofNat m.ref))

/-- What is asked of the relations of a file. -/
structure Tidy (d : Doc) : Prop where
  /-- No relation contains itself, directly or through others. -/
  acyclic : ∀ a, ¬ Relation.TransGen (Contains d) a a
  /-- The ways which a multipolygon names are in the file, or at least there is no relation with such a number. -/
  apart : ∀ r ∈ d.relations, Multipolygon r → ∀ m ∈ r.members, m.type = "way".toList →
    (∃ w ∈ d.ways, UInt64.ofNat w.id = UInt64.ofNat m.ref) ∨ ∀ r' ∈ d.relations, UInt64.ofNat r'.id ≠ UInt64.ofNat m.ref
  /-- A relation which is in another one is neither multipolygon nor building, or it is a simple multipolygon or a whole building. -/
  nested : ∀ r ∈ d.relations, (∃ a, Contains d a (UInt64.ofNat r.id)) →
    (¬ Multipolygon r ∧ ¬ Building r) ∨ (Multipolygon r ∧ Simple d r) ∨ (Building r ∧ Whole d r)
  /-- Outer ways of a multipolygon with at most one tag are not named by building relations. -/
  unmixed : ∀ r ∈ d.relations, Multipolygon r → r.tags.length < 2 → ∀ m ∈ r.members, m.type = "way".toList → m.role = "outer".toList →
    ∀ b ∈ d.relations, Building b → ∀ m' ∈ b.members, m'.type = "way".toList → UInt64.ofNat m'.ref ≠ UInt64.ofNat m.ref

/-- The words which tell the kind of a relation are in the string table. -/
structure Kinds {D : Type} (senv : Style.Env D) : Prop where
  type : senv.getString (senv.getId "type".toList) = "type".toList
  multipolygon : senv.getString (senv.getId "multipolygon".toList) = "multipolygon".toList
  building : senv.getString (senv.getId "building".toList) = "building".toList

end Verif.OsmTidySpec
