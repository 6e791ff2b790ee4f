import Verif.Model.OsmRelations

/-! # Specification for C35 and C61 -/
namespace Verif.OsmRelationsSpec
open Verif.OsmRelations

/-- Relation `a` names relation `b` as a member which can be reached from it: as a relation, or for a multipolygon as a way. A plain relation
does not look into relations which name it as a member. -/
def Follows (d : Data) (a b : UInt64) : Prop :=
  ∃ kind members m, d.relation a = some (kind, members) ∧ m ∈ members ∧ m.refId = b ∧ (d.relation b).isSome ∧
    match kind with
    | .multipolygon => m.type = .w
    | .building => m.type = .other
    | .plain => m.type = .other ∧ ∀ k ms, d.relation b = some (k, ms) → ∀ m' ∈ ms, m'.refId ≠ a

/-- No relation contains itself, directly or through others. -/
def Acyclic (d : Data) : Prop := ∀ a, ¬ Relation.TransGen (Follows d) a a

/-- Every relation is of the kind without special treatment. -/
def AllPlain (d : Data) : Prop := ∀ a kind members, d.relation a = some (kind, members) → kind = .plain

/-- The element a member names is present. -/
def Present (d : Data) (m : Member) (r : Ref) : Prop :=
  match m.type with
  | .n => d.node m.refId = true ∧ r = .node m.refId
  | .w => (d.area m.refId = true ∧ r = .area m.refId) ∨ (d.area m.refId = false ∧ d.way m.refId = true ∧ r = .way m.refId)
  | .other => (d.relation m.refId).isSome ∧ r = .relation m.refId

/-- `r` names `a` as one of its members. -/
def NamesBack (d : Data) (a : UInt64) (r : Ref) : Prop :=
  ∃ i kind members m, r = .relation i ∧ d.relation i = some (kind, members) ∧ m ∈ members ∧ m.refId = a

end Verif.OsmRelationsSpec
