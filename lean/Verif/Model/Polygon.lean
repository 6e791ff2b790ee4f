import Mathlib.Algebra.Order.Field.Basic
import Verif.Model.Basic

/-! # Polygons and rectangles

Models math/Rectangle.hpp and math/Polygon.hpp over an ordered field instead of `double`. -/
namespace Verif.Polygon

variable {K : Type} [Field K] [LinearOrder K]

/-- math/Vector2.hpp:11-13 -/
structure Vec (K : Type) where
  x : K
  y : K
deriving DecidableEq

/-- math/Vector2.hpp:17-20: equal up to `epsilon` (`std::numeric_limits<double>::epsilon()`). -/
def Vec.near (epsilon : K) (a b : Vec K) : Bool := decide (|a.x - b.x| < epsilon) && decide (|a.y - b.y| < epsilon)

/-! ## Rectangle -/

/-- math/Rectangle.hpp:14-15; the lines of the border (17) follow from the corners, see `isOnBorder`. -/
structure Rect (K : Type) where
  xMin : K
  yMin : K
  xMax : K
  yMax : K
deriving DecidableEq

/-- math/Rectangle.hpp:19-24: `huge` is `numeric_limits<double>::max()`, `tiny` the smallest positive normal number
`numeric_limits<double>::min()`. -/
def Rect.empty (huge tiny : K) : Rect K := ⟨huge, huge, tiny, tiny⟩

/-- math/Rectangle.hpp:40-45 -/
def Rect.expand (r : Rect K) (p : Vec K) : Rect K := ⟨min r.xMin p.x, min r.yMin p.y, max r.xMax p.x, max r.yMax p.y⟩

/-- math/Rectangle.hpp:34-38 -/
def Rect.expandAll (r : Rect K) (contour : List (Vec K)) : Rect K := contour.foldl Rect.expand r

/-- math/Rectangle.hpp:47-49 -/
def Rect.contains (r : Rect K) (p : Vec K) : Bool :=
  decide (p.x ≥ r.xMin) && decide (p.x ≤ r.xMax) && decide (p.y ≥ r.yMin) && decide (p.y ≤ r.yMax)

/-- math/LineLinear.hpp:12-29 -/
structure Line (K : Type) where
  A : K
  B : K
  C : K

/-- math/LineLinear.hpp:18-22 -/
def Line.through (p1 p2 : Vec K) : Line K := ⟨p1.y - p2.y, p2.x - p1.x, p1.x * p2.y - p2.x * p1.y⟩

/-- math/LineLinear.hpp:51-53, `tolerance` is 1E-8 -/
def Line.contains (tolerance : K) (l : Line K) (p : Vec K) : Bool := decide (|p.x * l.A + p.y * l.B + l.C| < tolerance)

/-- math/Rectangle.hpp:26-32, 52-55 for a rectangle made by the constructor with corners; `expand` does not update the lines. -/
def Rect.isOnBorder (tolerance : K) (r : Rect K) (p : Vec K) : Bool :=
  (Line.through ⟨r.xMin, r.yMin⟩ ⟨r.xMin, r.yMax⟩).contains tolerance p || (Line.through ⟨r.xMax, r.yMin⟩ ⟨r.xMax, r.yMax⟩).contains tolerance p ||
  (Line.through ⟨r.xMin, r.yMin⟩ ⟨r.xMax, r.yMin⟩).contains tolerance p || (Line.through ⟨r.xMin, r.yMax⟩ ⟨r.xMax, r.yMax⟩).contains tolerance p

/-! ## Point in polygon -/

/-- math/Polygon.hpp:126-129, one edge from `pj` to `pi` -/
def crossing (point pi pj : Vec K) : Bool :=
  if ((pi.y < point.y ∧ pj.y ≥ point.y) ∨ (pj.y < point.y ∧ pi.y ≥ point.y)) ∧ (pi.x ≤ point.x ∨ pj.x ≤ point.x) then
    decide (pi.x + (point.y - pi.y) / (pj.y - pi.y) * (pj.x - pi.x) < point.x)
  else false

/-- math/Polygon.hpp:125-131, the loop: `pj` is the previous point -/
def parity (point : Vec K) (pj : Vec K) : List (Vec K) → Bool
  | [] => false
  | pi :: rest => xor (crossing point pi pj) (parity point pi rest)

/-- math/Polygon.hpp:118-134 -/
def isPointInPolygon (point : Vec K) (poly : List (Vec K)) : Bool :=
  match poly.getLast? with
  | none => false
  | some last => parity point last poly

/-- math/Polygon.hpp:92-108: the candidates beside the edge `a b` for `j = 1 .. 8`, first the right then the left one -/
def candidates (a b : Vec K) : List (Vec K) :=
  let cx := (a.x + b.x) / 2
  let cy := (a.y + b.y) / 2
  let dx := (b.y - a.y) / (1374 / 1000)
  let dy := (a.x - b.x) / (1374 / 1000)
  (List.range 8).flatMap fun (j : Nat) => [⟨cx + dx / ((j : K) + 1), cy + dy / ((j : K) + 1)⟩, ⟨cx - dx / ((j : K) + 1), cy - dy / ((j : K) + 1)⟩]

/-- math/Polygon.hpp:73-116: `none` if nothing was found -/
def findPointInPolygon (huge tiny : K) (contour : List (Vec K)) : Option (Vec K) :=
  let bounds := (Rect.empty huge tiny).expandAll contour
  match contour with
  | [a, b, c] => some ⟨(a.x + b.x + c.x) / 3, (a.y + b.y + c.y) / 3⟩
  | _ =>
    (((contour.zip (contour.tail ++ contour.take 1)).flatMap fun e => candidates e.1 e.2)).find? fun p =>
      bounds.contains p && isPointInPolygon p contour

/-! ## Polygon -/

/-- math/Polygon.hpp:15-24 -/
structure Poly (K : Type) where
  points : List K := []
  holes : List K := []
  segments : List Int := []
  outers : List (Nat × Nat) := []
  inners : List (Nat × Nat) := []
  rectangle : Rect K

/-- math/Polygon.hpp:62-70: `count` points from the one with index `i` on -/
def addPoints (offset count : Nat) : Nat → Poly K → List (Vec K) → Poly K
  | _, p, [] => p
  | i, p, v :: vs =>
    addPoints offset count (i + 1) { p with
      rectangle := p.rectangle.expand v
      points := p.points ++ [v.x, v.y]
      segments := p.segments ++ [((offset + i : Nat) : Int), ((offset + (i + 1) % count : Nat) : Int)] } vs

/-- math/Polygon.hpp:41-71. An empty contour reads outside of the vector. -/
def addContour (epsilon huge tiny : K) (p : Poly K) (contour : List (Vec K)) (isHole : Bool) : Outcome (Poly K) :=
  match contour.head?, contour.getLast? with
  | some first, some last =>
    let count := if first.near epsilon last then contour.length - 1 else contour.length
    let startIndex := p.points.length
    let endIndex := startIndex + count * 2
    let fill (p : Poly K) : Outcome (Poly K) := .ok (addPoints (p.segments.length / 2) count 0 p (contour.take count))
    if isHole then
      match findPointInPolygon huge tiny contour with
      | none => .ok p
      | some inside => fill { p with holes := p.holes ++ [inside.x, inside.y], inners := p.inners ++ [(startIndex, endIndex)] }
    else fill { p with outers := p.outers ++ [(startIndex, endIndex)] }
  | _, _ => .ub "index out of range"

/-- Any sequence of `addContour` and `addHole`, math/Polygon.hpp:32-38. -/
def addAll (epsilon huge tiny : K) : Poly K → List (List (Vec K) × Bool) → Outcome (Poly K)
  | p, [] => .ok p
  | p, c :: cs => (addContour epsilon huge tiny p c.1 c.2).bind fun p => addAll epsilon huge tiny p cs

end Verif.Polygon
