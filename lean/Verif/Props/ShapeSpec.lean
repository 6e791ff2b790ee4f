/-! # Specification of shapes with parts -/
namespace Verif.ShapeSpec

/-- The indices of the first vertices of the parts. -/
def starts {C : Type} (first : Nat) : List (List C) → List Nat
  | [] => []
  | part :: rest => first :: starts (first + part.length) rest

/-- A proper part table for `n` vertices: it begins with 0 and increases strictly up to less than `n`. -/
def Proper (table : List Nat) (n : Nat) : Prop := table.head? = some 0 ∧ table.Pairwise (· < ·) ∧ ∀ s ∈ table, s < n

end Verif.ShapeSpec
