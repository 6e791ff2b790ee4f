import Mathlib.Algebra.Order.Floor.Ring
import Mathlib.Algebra.Order.Field.Basic
import Mathlib.Data.List.Sort
import Verif.Model.Polygon

/-! # Splitting lines by the grid of the terrain

Models builders/terrain/LineGridSplitter.hpp and TerraGenerator.cpp:86-94 over an ordered field with floor instead of `double`. -/
namespace Verif.LineGrid
open Verif.Polygon (Vec)

variable {K : Type} [Field K] [LinearOrder K] [IsStrictOrderedRing K] [FloorRing K]

/-- LineGridSplitter.hpp:69-71 -/
def ceilTo (step value : K) : K := (⌈value / step⌉ : Int) * step

/-- LineGridSplitter.hpp:84, 101, 124, 136: the values of `for (v = from; v < to; v += step)`. Simplification: multiples of `step` instead of
repeated addition. -/
def gridValues (step start stop : K) : List K :=
  (List.range (⌈(stop - start) / step⌉).toNat).map fun (k : Nat) => start + (k : K) * step

/-- `std::sort` with the comparators of LineGridSplitter.hpp:20-34, which compare `key`. Points with equal keys are in no particular order in
C++; here the sort is stable. -/
def sortBy (key : Vec K → K) (points : List (Vec K)) : List (Vec K) := points.insertionSort fun a b => key a ≤ key b

/-- LineGridSplitter.hpp:73-109; `s` is the only point so far. -/
def zeroSlope (step : K) (s e : Vec K) : List (Vec K) :=
  if s.x - e.x = 0 then
    let isBottomTop := s.y < e.y
    let (start, stop) := if isBottomTop then (s, e) else (e, s)
    let points := s :: (gridValues step (ceilTo step start.y) stop.y).map fun y => ⟨start.x, y⟩
    if isBottomTop then sortBy (fun p => p.y) points else sortBy (fun p => -p.y) points
  else
    let isLeftRight := s.x < e.x
    let (start, stop) := if isLeftRight then (s, e) else (e, s)
    let points := s :: (gridValues step (ceilTo step start.x) stop.x).map fun x => ⟨x, start.y⟩
    if isLeftRight then sortBy (fun p => p.x) points else sortBy (fun p => -p.x) points

/-- LineGridSplitter.hpp:111-143 -/
def normalCase (step : K) (s e : Vec K) (slope : K) : List (Vec K) :=
  let inverseSlope := 1 / slope
  let b := s.y - slope * s.x
  let isLeftRight := s.x < e.x
  let (start, stop) := if isLeftRight then (s, e) else (e, s)
  let points := s :: (gridValues step (ceilTo step start.x) stop.x).map fun x => ⟨x, slope * x + b⟩
  let isBottomTop := start.y < stop.y
  let (start, stop) := if isBottomTop then (start, stop) else (stop, start)
  let points := points ++ (gridValues step (ceilTo step start.y) stop.y).map fun y => ⟨(y - b) * inverseSlope, y⟩
  if isLeftRight then sortBy (fun p => p.x) points else sortBy (fun p => -p.x) points

/-- LineGridSplitter.hpp:49-62: the points before they are merged. The slope is infinite if only x is equal. If both are equal it is not a
number; then no comparison holds and no point is added. -/
def rawPoints (epsilon step : K) (s e : Vec K) : List (Vec K) :=
  if s.x = e.x then
    if s.y = e.y then [s, e] else zeroSlope step s e ++ [e]
  else
    let slope := (e.y - s.y) / (e.x - s.x)
    if |slope| < epsilon then zeroSlope step s e ++ [e] else normalCase step s e slope ++ [e]

/-- LineGridSplitter.hpp:145-157 -/
def mergeResults (epsilon : K) : List (Vec K) → List (Vec K) → List (Vec K)
  | [], result => result
  | candidate :: rest, result =>
    match result.getLast? with
    | none => mergeResults epsilon rest (result ++ [candidate])
    | some last =>
      if |last.x - candidate.x| < epsilon ∧ |last.y - candidate.y| < epsilon then mergeResults epsilon rest result
      else mergeResults epsilon rest (result ++ [candidate])

/-- LineGridSplitter.hpp:46-65; the integer points are given already divided by the scale (49-50). -/
def split (epsilon step : K) (s e : Vec K) (result : List (Vec K)) : List (Vec K) := mergeResults epsilon (rawPoints epsilon step s e) result

/-- TerraGenerator.cpp:86-94 from vertex `s` on, back to `first` in the end. -/
def restoreFrom (epsilon step : K) (first : Vec K) : Vec K → List (Vec K) → List (Vec K) → List (Vec K)
  | s, [], points => split epsilon step s first points
  | s, e :: rest, points => restoreFrom epsilon step first e rest (split epsilon step s e points)

/-- TerraGenerator.cpp:86-94; an empty path does not reach this function, because its area is zero (48-50). -/
def restoreGeometry (epsilon step : K) : List (Vec K) → List (Vec K)
  | [] => []
  | s :: rest => restoreFrom epsilon step s s rest []

end Verif.LineGrid
