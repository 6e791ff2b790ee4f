import Verif.Props.StyleSpec

/-! # Specification of edits of conditions and of the names of elements in stylesheets (C28, C30) -/
namespace Verif.StyleTagSpec
open Verif.Style (Rule Selector Condition Str)

/-- The name of a kind of elements in stylesheets. -/
def nameOf {C : Type} : Element C → Str
  | .node .. => "node".toList
  | .way .. => "way".toList
  | .area .. => "area".toList
  | .relation .. => "relation".toList

/-- The operations of conditions. -/
def operations : List Str := [[], "=".toList, "!=".toList, "<".toList, ">".toList]

/-- `c'` is `c`, or the condition `b` in place of `a`. -/
def EditedCondition (a b c c' : Condition) : Prop := c' = c ∨ (c = a ∧ c' = b)

/-- The selector has other conditions; one which is for an id stays as it is. -/
def EditedSelector (a b : Condition) (s s' : Selector) : Prop :=
  s'.names = s.names ∧ s'.zoom = s.zoom ∧ List.Forall₂ (EditedCondition a b) s.conditions s'.conditions ∧ ("element".toList ∈ s.names → s' = s)

/-- The second stylesheet is the first one with the condition `a` replaced by `b` in any of its selectors. -/
def EditedConditions (a b : Condition) (rules rules' : List Rule) : Prop :=
  List.Forall₂ (fun r r' => List.Forall₂ (EditedSelector a b) r.selectors r'.selectors ∧ r'.declarations = r.declarations) rules rules'

end Verif.StyleTagSpec
