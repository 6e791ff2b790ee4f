import Mathlib.Data.List.Forall2
import Verif.Model.Polygon

/-! # Specification of polygons and rectangles -/
namespace Verif.PolygonSpec
open Verif.Polygon

variable {K : Type} [Field K] [LinearOrder K]

/-- The points of a ring: the closing point is dropped if it repeats the first one. -/
def opened (epsilon : K) (contour : List (Vec K)) : List (Vec K) :=
  match contour.head?, contour.getLast? with
  | some first, some last => if |first.x - last.x| < epsilon ∧ |first.y - last.y| < epsilon then contour.dropLast else contour
  | _, _ => contour

/-- The segments from index `lo` to index `hi` connect each point with the next one, and the last one with the first one. -/
def Cycle (segments : List Int) (lo hi : Nat) : Prop :=
  ∀ i, lo ≤ i → i < hi → segments[2 * i]? = some (i : Int) ∧ segments[2 * i + 1]? = some (if i + 1 = hi then (lo : Int) else (i : Int) + 1)

/-- The range stores these points, and its segments are a cycle. -/
def Stored (p : Poly K) (contour : List (Vec K)) (range : Nat × Nat) : Prop :=
  ∃ lo, range = (2 * lo, 2 * (lo + contour.length)) ∧ range.2 ≤ p.points.length ∧ Cycle p.segments lo (lo + contour.length) ∧
    ∀ i v, contour[i]? = some v → p.points[2 * (lo + i)]? = some v.x ∧ p.points[2 * (lo + i) + 1]? = some v.y

/-- The point is in the closed rectangle. -/
def Inside (r : Rect K) (p : Vec K) : Prop := r.xMin ≤ p.x ∧ p.x ≤ r.xMax ∧ r.yMin ≤ p.y ∧ p.y ≤ r.yMax

/-- The smallest rectangle which contains the points. -/
def Smallest (r : Rect K) (points : List (Vec K)) : Prop :=
  (∀ p ∈ points, Inside r p) ∧
    ∀ r' : Rect K, (∀ p ∈ points, Inside r' p) → r'.xMin ≤ r.xMin ∧ r.xMax ≤ r'.xMax ∧ r'.yMin ≤ r.yMin ∧ r.yMax ≤ r'.yMax

end Verif.PolygonSpec
