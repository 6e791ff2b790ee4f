import Verif.Model.OsmStream
import Verif.Props.OsmSpec

/-! # Specification of reading an OSM file (C72) -/
namespace Verif.OsmStreamSpec
open Verif.Osm Verif.OsmSpec Verif.OsmStream

variable {K : Type} [Field K] [LinearOrder K] [IsStrictOrderedRing K]

/-- The ids of the nodes of a file. -/
def nodeIds (file : List (Entry K)) : List UInt64 := file.filterMap fun e => match e with
  | .node id _ _ => some id
  | .way _ _ _ => none

/-- The ids of the ways of a file. -/
def wayIds (file : List (Entry K)) : List UInt64 := file.filterMap fun e => match e with
  | .node _ _ _ => none
  | .way id _ _ => some id

/-- Every way comes after the nodes it names. -/
def Complete (file : List (Entry K)) : Prop :=
  ∀ before id ids tags rest, file = before ++ .way id ids tags :: rest → ∀ n ∈ ids, ∃ c t, Entry.node n c t ∈ before

/-- The line ends where it begins and has more than three points. -/
def Encloses (eps : K) (cs : List (Geo K)) : Prop := 3 < cs.length ∧ ∃ a z, cs.head? = some a ∧ cs.getLast? = some z ∧ Coincide eps a z

/-- The element which a node or a way of the file stands for. -/
def Represents (eps : K) (getId : String → UInt32) (file : List (Entry K)) : Entry K → Added K → Prop
  | .node id c raw, e => ∃ n : Node K, e = .node n ∧ n.id = id ∧ n.coordinate = c ∧ TagsOf getId raw n.tags
  | .way id ids raw, e => ∃ cs, List.Forall₂ (fun n c => ∃ t, Entry.node n c t ∈ file) ids cs ∧ ∃ p : Path K, p.id = id ∧ TagsOf getId raw p.tags ∧
      ((Encloses eps cs ∧ e = .area p ∧ (p.coordinates = cs.dropLast ∨ p.coordinates = cs.dropLast.reverse) ∧ 0 ≤ doubleArea p.coordinates) ∨
       (¬ Encloses eps cs ∧ e = .way p ∧ p.coordinates = cs))

end Verif.OsmStreamSpec
