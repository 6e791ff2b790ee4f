import Verif.Props.OsmWordsSpec

/-! # Specification of OSM files whose ids are all different (C122) -/
namespace Verif.OsmIdsSpec
open Verif.OsmXmlSpec (Doc)
open Verif.Clipper (El)

/-- The ids of all nodes, ways and relations of the file. -/
def ids (d : Doc) : List UInt64 := (d.nodes.map (·.id) ++ d.ways.map (·.id) ++ d.relations.map (·.id)).map UInt64.ofNat

/-- No id is there twice, also not for things of different kinds; none is zero; every relation has tags. -/
structure OwnIds (d : Doc) : Prop where
  once : (ids d).Nodup
  positive : 0 ∉ ids d
  tagged : ∀ r ∈ d.relations, r.tags ≠ []

/-- The elements which are there have other ids. -/
def Foreign (old : List El) (d : Doc) : Prop :=
  (∀ e ∈ old.flatMap QuadKeyBuilderSpec.parts, e.id ∉ ids d) ∧ ∀ i ∈ QuadKeyBuilderSpec.clippedIds old, i ∉ ids d

/-- The ids of all nodes, ways and relations of the file which have tags. -/
def taggedIds (d : Doc) : List UInt64 :=
  ((d.nodes.filter fun n => !n.tags.isEmpty).map (·.id) ++ (d.ways.filter fun w => !w.tags.isEmpty).map (·.id) ++ (d.relations.filter fun r => !r.tags.isEmpty).map (·.id)).map UInt64.ofNat

/-- Among things with tags no id is there twice, also not for things of different kinds; none is zero. Nothing is said about things without tags, which are most nodes of a file. -/
structure OwnTaggedIds (d : Doc) : Prop where
  once : (taggedIds d).Nodup
  positive : 0 ∉ taggedIds d

/-- The elements which are there have other ids than the things with tags. -/
def ForeignTagged (old : List El) (d : Doc) : Prop :=
  (∀ e ∈ old.flatMap QuadKeyBuilderSpec.parts, e.id ∉ taggedIds d) ∧ ∀ i ∈ QuadKeyBuilderSpec.clippedIds old, i ∉ taggedIds d

/-- Every selector which is for elements has a condition on a key; no rule is for an element with a given id. -/
def Choosy (rules : List Style.Rule) : Prop :=
  ∀ r ∈ rules, ∀ s ∈ r.selectors, ∀ n ∈ s.names, n ≠ "element".toList ∧ (n = "canvas".toList ∨ ∃ c ∈ s.conditions, c.key ≠ [])

end Verif.OsmIdsSpec
