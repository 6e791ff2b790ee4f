import Verif.Model.LineGrid

/-! # Specification of splitting by a grid -/
namespace Verif.LineGridSpec
open Verif.Polygon (Vec)

variable {K : Type} [Field K] [LinearOrder K]

/-- The point of the segment from `s` to `e` with parameter `t`. -/
def along (s e : Vec K) (t : K) : Vec K := ⟨s.x + t * (e.x - s.x), s.y + t * (e.y - s.y)⟩

/-- `q` follows `p` in the list. -/
def Consecutive {α : Type} (l : List α) (p q : α) : Prop := ∃ before after, l = before ++ p :: q :: after

/-- `g` is strictly between `a` and `b`. -/
def Between (g a b : K) : Prop := (a < g ∧ g < b) ∨ (b < g ∧ g < a)

/-- The points of `l` go along the segment, and each grid line which separates neighbours is closer than epsilon to the first of them. -/
structure Splits (epsilon step : K) (s e : Vec K) (l : List (Vec K)) : Prop where
  first : l.head? = some s
  last : ∃ p, l.getLast? = some p ∧ |p.x - e.x| < epsilon ∧ |p.y - e.y| < epsilon
  onSegment : ∀ p ∈ l, ∃ t, 0 ≤ t ∧ t ≤ 1 ∧ p = along s e t
  ordered : ∀ p q, Consecutive l p q → ∃ t u, 0 ≤ t ∧ t < u ∧ u ≤ 1 ∧ p = along s e t ∧ q = along s e u
  columns : ∀ p q (k : Int), Consecutive l p q → Between ((k : K) * step) p.x q.x → |p.x - (k : K) * step| < epsilon
  rows : ∀ p q (k : Int), Consecutive l p q → Between ((k : K) * step) p.y q.y → |p.y - (k : K) * step| < epsilon

/-- The edges of a contour, the last one back to the first vertex. -/
def contourEdges {α : Type} (vertices : List α) : List (α × α) := vertices.zip (vertices.drop 1 ++ vertices.take 1)

/-- `p` and `q` differ by less than epsilon in both coordinates. -/
def Near (epsilon : K) (p q : Vec K) : Prop := |p.x - q.x| < epsilon ∧ |p.y - q.y| < epsilon

/-- `l` goes around the contour edge by edge, passes by all vertices, comes back to the first one, and is split by the grid. -/
structure Contour (epsilon step : K) (vertices l : List (Vec K)) : Prop where
  first : l.head? = vertices.head?
  closed : ∃ p v, l.getLast? = some p ∧ vertices.head? = some v ∧ Near epsilon p v
  pieces : ∃ pieces, List.Forall₂ (fun (edge : Vec K × Vec K) piece => ∀ p ∈ piece, ∃ t, 0 ≤ t ∧ t ≤ 1 ∧ p = along edge.1 edge.2 t)
    (contourEdges vertices) pieces ∧ l = pieces.flatten
  passes : ∀ v ∈ vertices, ∃ p ∈ l, Near epsilon p v
  columns : ∀ p q (k : Int), Consecutive l p q → Between ((k : K) * step) p.x q.x → |p.x - (k : K) * step| < epsilon
  rows : ∀ p q (k : Int), Consecutive l p q → Between ((k : K) * step) p.y q.y → |p.y - (k : K) * step| < epsilon

end Verif.LineGridSpec
