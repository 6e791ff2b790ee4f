import Verif.Model.QuadKeyBuilder

/-! Specification of building a tile (C26). -/
namespace Verif.QuadKeyBuilderSpec
open Verif.QuadKeyBuilder

variable {C : Type}

/-- The builder which is called. -/
def target : Event C → Name
  | .prepare b => b
  | .visit b _ => b
  | .complete b => b

/-- The calls of one builder. -/
def callsOf (b : Name) (t : List (Event C)) : List (Event C) := t.filter (fun ev => target ev == b)

/-- A builder which is used at all is prepared once, then gets elements, then is completed once. -/
def LifeCycle (b : Name) (t : List (Event C)) : Prop :=
  callsOf b t = [] ∨ ∃ es, es ≠ [] ∧ callsOf b t = .prepare b :: es.map (.visit b) ++ [.complete b]

/-- The elements passed to a builder. -/
def visited (b : Name) (t : List (Event C)) : List (Element C) :=
  t.filterMap fun | .visit b' e => if b' = b then some e else none | _ => none

/-- What is to be built of an element which was found: the parts of a clipped element, which has no tags, or the element itself. -/
def parts : Element C → List (Element C)
  | .relation _ [] members => members
  | e => [e]

/-- Ids of clipped elements. -/
def clippedIds : List (Element C) → List UInt64
  | [] => []
  | .relation id [] _ :: l => id :: clippedIds l
  | _ :: l => clippedIds l

end Verif.QuadKeyBuilderSpec
