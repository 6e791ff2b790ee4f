import Verif.Props.StyleTagSpec

/-! # Specification of the stylesheets which are understood (C28) -/
namespace Verif.StyleRefuseSpec
open Verif.Style (Rule Selector Str Env)
open Verif.StyleTagSpec (operations)

/-- The names of selectors with conditions. -/
def names : List Str := ["node".toList, "way".toList, "area".toList, "relation".toList, "canvas".toList]

/-- The name of the selector is known; its conditions have known operations or, for an element with an id, the value of the first one is a number. -/
def Understood {D : Type} (env : Env D) (s : Selector) (n : Str) : Prop :=
  (n ∈ names ∧ ∀ c ∈ s.conditions, c.operation ∈ operations) ∨
    (n = "element".toList ∧ ∃ c cs id, s.conditions = c :: cs ∧ env.castId c.value = some id)

/-- All of the stylesheet is understood. -/
def AllUnderstood {D : Type} (env : Env D) (rules : List Rule) : Prop :=
  ∀ r ∈ rules, ∀ s ∈ r.selectors, ∀ n ∈ s.names, Understood env s n

/-- What the parser makes sure of (C60): each selector for an element with an id has a condition and each rule has a declaration. -/
def Parsed (rules : List Rule) : Prop :=
  ∀ r ∈ rules, r.declarations ≠ [] ∧ ∀ s ∈ r.selectors, "element".toList ∈ s.names → s.conditions ≠ []

/-- The values of conditions for elements with an id are numbers. -/
def Numbered {D : Type} (env : Env D) (rules : List Rule) : Prop :=
  ∀ r ∈ rules, ∀ s ∈ r.selectors, "element".toList ∈ s.names → ∀ c ∈ s.conditions, ∃ id, env.castId c.value = some id

end Verif.StyleRefuseSpec
