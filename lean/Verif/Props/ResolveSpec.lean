import Verif.Model.Resolve
import Mathlib.Logic.Relation
import Mathlib.Data.List.Forall2

/-! # Specification of what becomes of the relations of an OSM file (C96)

Told from the elements and members which are written in the file, without any order in which relations are resolved. -/
namespace Verif.ResolveSpec
open Verif.Resolve (Data Key Ref Env Member)
open Verif.Multipolygon (NewArea Found)

variable {K : Type} [Field K] [LinearOrder K]

/-- The element which a member names is there. -/
def Names (d : Data K) (m : Member) (k : Key) : Prop :=
  (m.type = "n" ∧ k = .node m.refId ∧ (d.ctx.nodeMap.find m.refId).isSome) ∨
  (m.type = "w" ∧ k = .area m.refId ∧ (d.ctx.areaMap.find m.refId).isSome) ∨
  (m.type = "w" ∧ k = .way m.refId ∧ d.ctx.areaMap.find m.refId = none ∧ (d.ctx.wayMap.find m.refId).isSome) ∨
  (m.type ≠ "n" ∧ m.type ≠ "w" ∧ k = .relation m.refId ∧ (d.relations.find m.refId).isSome)

inductive Kind | multipolygon | building | plain

/-- The kind of a relation is written in its tags. -/
def IsKind (getId : String → UInt32) (own : List Tag) : Kind → Prop
  | .multipolygon => ⟨getId "type", getId "multipolygon"⟩ ∈ own
  | .building => ⟨getId "type", getId "multipolygon"⟩ ∉ own ∧ ⟨getId "type", getId "building"⟩ ∈ own
  | .plain => ⟨getId "type", getId "multipolygon"⟩ ∉ own ∧ ⟨getId "type", getId "building"⟩ ∉ own

/-- `k` is a relation which has a member with the number `a`. -/
def NamesBack (d : Data K) (a : UInt64) (k : Key) : Prop := ∃ i own ms, k = .relation i ∧ d.relations.find i = some (own, ms) ∧ ∃ m ∈ ms, m.refId = a

/-- Relation `b` is reached from relation `a`. -/
def Follows (getId : String → UInt32) (d : Data K) (a b : UInt64) : Prop :=
  ∃ own ms m, d.relations.find a = some (own, ms) ∧ m ∈ ms ∧ m.refId = b ∧ (d.relations.find b).isSome ∧
    ((IsKind getId own .multipolygon ∧ m.type = "w" ∧ d.ctx.wayMap.find b = none ∧ d.ctx.areaMap.find b = none) ∨
     (IsKind getId own .building ∧ m.type ≠ "n" ∧ m.type ≠ "w") ∨
     (IsKind getId own .plain ∧ m.type ≠ "n" ∧ m.type ≠ "w" ∧ ¬ NamesBack d a (.relation b)))

/-- No relation contains itself, directly or through others. -/
def Acyclic (getId : String → UInt32) (d : Data K) : Prop := ∀ a, ¬ Relation.TransGen (Follows getId d) a a

/-- The element is named by a building relation. -/
def PartOfBuilding (getId : String → UInt32) (d : Data K) (k : Key) : Prop :=
  ∃ i own ms, d.relations.find i = some (own, ms) ∧ IsKind getId own .building ∧ ∃ m ∈ ms, Names d m k

open Classical in
/-- How often the element is named by building relations. -/
noncomputable def times (getId : String → UInt32) (d : Data K) (k : Key) : Nat :=
  (d.relations.map fun r => if IsKind getId r.2.1 .building then r.2.2.countP fun m => decide (Names d m k) else 0).sum

/-- The lines and areas which the members of type "w" name; relations and missing members are told apart. -/
def Finds (d : Data K) (m : Member) (r : Multipolygon.Member (Geo K)) : Prop :=
  r.refId = m.refId ∧ r.role = m.role ∧
    ((∃ w, d.ctx.wayMap.find m.refId = some w ∧ r.found = .way w.coordinates) ∨
     (d.ctx.wayMap.find m.refId = none ∧ ∃ a, d.ctx.areaMap.find m.refId = some a ∧ r.found = .area a.coordinates) ∨
     (d.ctx.wayMap.find m.refId = none ∧ d.ctx.areaMap.find m.refId = none ∧ (d.relations.find m.refId).isSome ∧ r.found = .relation) ∨
     (d.ctx.wayMap.find m.refId = none ∧ d.ctx.areaMap.find m.refId = none ∧ d.relations.find m.refId = none ∧ r.found = .missing))

/-- The areas which are assembled from the members; C36 tells which these are. -/
def Areas (env : Env K) (d : Data K) (ms : List Member) (areas : List (NewArea (Geo K))) : Prop :=
  ∃ rs, List.Forall₂ (Finds d) (ms.filter fun m => decide (m.type = "w")) rs ∧
    Multipolygon.process (Osm.geoEq env.eps) Osm.isClockwise env.contains rs = .ok areas

/-- The outer areas of a multipolygon. -/
def OuterArea (d : Data K) (ms : List Member) (i : UInt64) : Prop :=
  ∃ m ∈ ms, m.type = "w" ∧ m.role = "outer" ∧ m.refId = i ∧ d.ctx.wayMap.find i = none ∧ (d.ctx.areaMap.find i).isSome

/-- No member of type "w" is missing. -/
def Complete (d : Data K) (ms : List Member) : Prop :=
  ∀ m ∈ ms, m.type = "w" → (d.ctx.wayMap.find m.refId).isSome ∨ (d.ctx.areaMap.find m.refId).isSome ∨ (d.relations.find m.refId).isSome

open Classical in
/-- What a relation consists of. A multipolygon has the areas which are assembled from its lines; a building has its parts but the outlines; any other relation has the elements
it names, each number once and in order, but no relation which names it. -/
def Consists (env : Env K) (d : Data K) (id : UInt64) (own : List Tag) (ms : List Member) (refs : List (Ref K)) : Prop :=
  (IsKind env.getId own .multipolygon ∧ ∃ areas, Areas env d ms areas ∧ refs = areas.map .new) ∨
  (IsKind env.getId own .building ∧ ∃ ks, List.Forall₂ (Names d) (ms.filter fun m => decide (m.role ≠ "outline" ∧ ∃ k, Names d m k)) ks ∧ refs = ks.map .old) ∨
  (IsKind env.getId own .plain ∧ ∃ ks, (∃ sub, sub.Sublist ms ∧ List.Forall₂ (Names d) sub ks) ∧ (ks.map Key.id).Nodup ∧ (∀ k ∈ ks, ¬ NamesBack d id k) ∧
    (∀ m ∈ ms, ∀ k, Names d m k → ¬ NamesBack d id k → m.refId ∈ ks.map Key.id) ∧ refs = ks.map .old)

/-- The tags of a relation: its own ones, but a multipolygon with at most one tag has those of its outer areas, too, one for each key. -/
def Tagged (env : Env K) (d : Data K) (own : List Tag) (ms : List Member) (tags : List Tag) : Prop :=
  (¬ (IsKind env.getId own .multipolygon ∧ own.length < 2) ∧ tags = own) ∨
  ((IsKind env.getId own .multipolygon ∧ own.length < 2) ∧ tags.Pairwise (fun a b => a.key < b.key) ∧
    (∀ t ∈ tags, t ∈ own ∨ ∃ i, OuterArea d ms i ∧ t ∈ d.tags (.area i)) ∧
    (∀ t ∈ own, ∃ u ∈ tags, u.key = t.key) ∧
    (Complete d ms → ∀ i, OuterArea d ms i → ∀ t ∈ d.tags (.area i), ∃ u ∈ tags, u.key = t.key))

/-- The marks of an element, one for each time it is named by a building relation. -/
noncomputable def marks (getId : String → UInt32) (d : Data K) (k : Key) : List Tag := List.replicate (times getId d k) ⟨0xFFFFFFFF, 0⟩

/-- What is handed on for an element. -/
inductive Becomes (env : Env K) (d : Data K) : Ref K → Element (Geo K) → Prop
  | node {i n} (h : d.ctx.nodeMap.find i = some n) : Becomes env d (.old (.node i)) (.node i (n.tags ++ marks env.getId d (.node i)) n.coordinate)
  | way {i w} (h : d.ctx.wayMap.find i = some w) : Becomes env d (.old (.way i)) (.way i (w.tags ++ marks env.getId d (.way i)) w.coordinates)
  | area {i a} (h : d.ctx.areaMap.find i = some a) : Becomes env d (.old (.area i)) (.area i (a.tags ++ marks env.getId d (.area i)) a.coordinates)
  | relation {i own ms tags refs es} (h : d.relations.find i = some (own, ms)) (ht : Tagged env d own ms tags) (hc : Consists env d i own ms refs)
      (he : List.Forall₂ (Becomes env d) refs es) : Becomes env d (.old (.relation i)) (.relation i (tags ++ marks env.getId d (.relation i)) es)
  | new {a i} (h : ∀ j, a.id = some j → i = j) : Becomes env d (.new a) (.area i [] a.coordinates)

/-- Every element which is in the file. -/
def All (d : Data K) : List Key :=
  d.relations.map (fun r => .relation r.1) ++ d.ctx.nodeMap.map (fun n => .node n.1) ++ d.ctx.wayMap.map (fun w => .way w.1) ++ d.ctx.areaMap.map fun a => .area a.1

/-- Files whose relations can be resolved in any order. -/
structure Sound (env : Env K) (d : Data K) : Prop where
  /-- No number is used twice. -/
  nodes : (d.ctx.nodeMap.map (·.1)).Nodup
  ways : (d.ctx.wayMap.map (·.1)).Nodup
  areas : (d.ctx.areaMap.map (·.1)).Nodup
  relations : (d.relations.map (·.1)).Nodup
  /-- No relation contains itself. -/
  acyclic : Acyclic env.getId d
  /-- Every relation has one tag for each key; the numbers of strings are smaller than that of the mark. -/
  tags : ∀ r ∈ d.relations, (r.2.1.map Tag.key).Pairwise (· < ·) ∧ ∀ t ∈ r.2.1, t.key < 0xFFFFFFFF
  strings : env.getId "type" ≠ 0xFFFFFFFF ∧ env.getId "multipolygon" ≠ 0xFFFFFFFF ∧ env.getId "building" ≠ 0xFFFFFFFF
  /-- The areas of every multipolygon can be assembled. -/
  assembled : ∀ r ∈ d.relations, IsKind env.getId r.2.1 .multipolygon → ∃ areas, Areas env d r.2.2 areas
  /-- A building or multipolygon which is reached from other relations has as many elements as members. -/
  steady : ∀ a b own ms, Follows env.getId d a b → d.relations.find b = some (own, ms) → IsKind env.getId own .plain ∨ ∃ refs, Consists env d b own ms refs ∧ refs.length = ms.length
  /-- The outer areas whose tags a multipolygon takes are not named by building relations. -/
  unmixed : ∀ r ∈ d.relations, IsKind env.getId r.2.1 .multipolygon → r.2.1.length < 2 → ∀ i, OuterArea d r.2.2 i → ¬ PartOfBuilding env.getId d (.area i)

end Verif.ResolveSpec
