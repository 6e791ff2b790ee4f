import Mathlib.Algebra.Order.Field.Basic
import Verif.Model.Polygon

/-! # Specification of geometry helpers -/
namespace Verif.GeometrySpec
open Verif.Polygon (Vec)

variable {K : Type} [Field K] [LinearOrder K]

/-- A point of the segment from `a` to `b`. -/
def OnSegment (a b p : Vec K) : Prop := ∃ t, 0 ≤ t ∧ t ≤ 1 ∧ p.x = (1 - t) * a.x + t * b.x ∧ p.y = (1 - t) * a.y + t * b.y

/-- The segments have the same direction (or one of them has none). -/
def Parallel (a b c d : Vec K) : Prop := (b.x - a.x) * (d.y - c.y) = (b.y - a.y) * (d.x - c.x)

/-- Twice the signed area of a triangle; positive if `c` is on the left of the line from `a` to `b`. -/
def side (a b c : Vec K) : K := (b.x - a.x) * (c.y - a.y) - (b.y - a.y) * (c.x - a.x)

/-- The point is inside of the triangle and not on its border. -/
def InTriangle (a b c p : Vec K) : Prop :=
  (0 < side a b p ∧ 0 < side b c p ∧ 0 < side c a p) ∨ (side a b p < 0 ∧ side b c p < 0 ∧ side c a p < 0)

/-- The point is not in the triangle and not on its border: for one of the sides it is not where the triangle is. A triangle without area has no
points inside. -/
def OutTriangle (a b c p : Vec K) : Prop :=
  side a b c = 0 ∨
  (0 < side a b c ∧ (side a b p < 0 ∨ side b c p < 0 ∨ side c a p < 0)) ∨ (side a b c < 0 ∧ (0 < side a b p ∨ 0 < side b c p ∨ 0 < side c a p))

/-- The triangles from one point to the edges of a line. -/
def fan (o : Vec K) : List (Vec K) → List (Vec K × Vec K × Vec K)
  | a :: b :: rest => (o, a, b) :: fan o (b :: rest)
  | _ => []

/-- An odd number of them is true. -/
def odd : List Bool → Bool
  | [] => false
  | b :: rest => xor b (odd rest)

end Verif.GeometrySpec
