import Verif.Model.Clipper
import Verif.Props.BboxSpec

/-! Specification vocabulary for clipping (C27) and storing (C19). -/
namespace Verif.ClipperSpec
open Verif.Clipper (El)
open Verif.BboxSpec

mutual
/-- The nodes, ways and areas of an element. -/
def leaves : El → List El
  | .relation _ _ ms => leavesAll ms
  | e => [e]

def leavesAll : List El → List El
  | [] => []
  | m :: ms => leaves m ++ leavesAll ms
end

/-- The coordinates of a node, way or area. -/
def coords : El → List (Geo ℝ)
  | .node _ _ c => [c]
  | .way _ _ cs => cs
  | .area _ _ cs => cs
  | .relation .. => []

/-- All coordinates of an element. -/
def points (e : El) : List (Geo ℝ) := (leaves e).flatMap coords

mutual
/-- Every relation in the element has at least two members. -/
def Proper : El → Prop
  | .relation _ _ ms => 2 ≤ ms.length ∧ ProperAll ms
  | _ => True

def ProperAll : List El → Prop
  | [] => True
  | m :: ms => Proper m ∧ ProperAll ms
end

/-- The leaf keeps away from the box: a node or way has no vertex inside it and the way has a vertex; the smallest box around an
area on the globe has no point in it. -/
def Apart (b : Bbox ℝ) : El → Prop
  | .node _ _ c => ¬ Inside b c
  | .way _ _ cs => cs ≠ [] ∧ ∀ c ∈ cs, ¬ Inside b c
  | .area _ _ cs => cs ≠ [] ∧ (∀ c ∈ cs, OnGlobe c) ∧ ∃ b', (∀ c ∈ cs, In b' c) ∧ ∀ p, In b p → ¬ In b' p
  | .relation .. => False

/-- Same kind of leaf. -/
def SameKind : El → El → Prop
  | .node .., .node .. | .way .., .way .. | .area .., .area .. => True
  | _, _ => False

end Verif.ClipperSpec
