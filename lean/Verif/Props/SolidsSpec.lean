/-! # Specification of surfaces -/
namespace Verif.SolidsSpec

variable {V : Type}

/-- The directed edges of triangles. -/
def edges (ts : List (V × V × V)) : List (V × V) := ts.flatMap fun (a, b, c) => [(a, b), (b, c), (c, a)]

/-- A surface has no border: each edge is used as often in one direction as in the other. -/
def Closed [DecidableEq V] (ts : List (V × V × V)) : Prop := ∀ a b, (edges ts).count (a, b) = (edges ts).count (b, a)

/-- A triangle divided in four by the middles of its edges. -/
def quarters (middle : V → V → V) (t : V × V × V) : List (V × V × V) :=
  let (a, b, c) := t
  [(a, middle a b, middle c a), (b, middle b c, middle a b), (c, middle c a, middle b c), (middle a b, middle b c, middle c a)]

/-- Triangles divided in four `n` times. -/
def divided (middle : V → V → V) (ts : List (V × V × V)) : Nat → List (V × V × V)
  | 0 => ts
  | n + 1 => (divided middle ts n).flatMap (quarters middle)

end Verif.SolidsSpec
