import Verif.Model.Multipolygon
import Mathlib.Data.Sym.Sym2
import Mathlib.Algebra.BigOperators.Group.Multiset.Basic

/-! Specification of multipolygon assembly (C36). -/
namespace Verif.MultipolygonSpec
open Verif.Multipolygon

variable {C : Type}

/-- The segments of a line, without direction. -/
def segments : List C → Multiset (Sym2 C)
  | a :: b :: l => s(a, b) ::ₘ segments (b :: l)
  | _ => 0

/-- `eq` is equality of points. -/
def Exact (eq : C → C → Bool) (P : C → Prop) : Prop := ∀ a b, P a → P b → (eq a b = true ↔ a = b)

/-- A line which ends where it begins. -/
def ClosedLine (l : List C) : Prop := 1 < l.length ∧ l.head? = l.getLast?

/-- The ring consists of exactly the segments of these ways. -/
def MadeOf (ring : Seq C) (ways : List (Seq C)) : Prop :=
  ways ≠ [] ∧ segments ring.coordinates = (ways.map fun w => segments w.coordinates).sum ∧ ∃ w ∈ ways, w.id = ring.id

/-- The area has the points of the ring but the closing one, in the given or in the opposite order. -/
def AreaOf (ring : Seq C) (a : NewArea C) : Prop :=
  a.coordinates = ring.coordinates.dropLast ∨ a.coordinates = ring.coordinates.dropLast.reverse

/-- An end of one line is an end of the other. -/
def Touch (a b : List C) : Prop := ∃ p, (a.head? = some p ∨ a.getLast? = some p) ∧ (b.head? = some p ∨ b.getLast? = some p)

/-- The line which a member contributes: the points of a way, or the points of an area and its first point again. -/
def LineOf (m : Member C) (s : Seq C) : Prop :=
  s.id = m.refId ∧ s.coordinates ≠ [] ∧ (m.found = .way s.coordinates ∨ ∃ c t, m.found = .area (c :: t) ∧ s.coordinates = c :: t ++ [c])

/-- The lines of the members with one of these roles, in the order of the members. -/
def linesOf (roles : List String) (members : List (Member C × Seq C)) : List (Seq C) :=
  (members.filter fun m => decide (m.1.role ∈ roles)).map Prod.snd

end Verif.MultipolygonSpec
