import Verif.Model.Ewah

/-!
Specification for compressed bitmaps: sets of natural numbers, described by expressions over increasing lists.
-/
namespace Verif.Props.EwahSpec
open Verif.Ewah (Ewah)

/-- A bitmap computed from increasing lists of positions by the logical operations. -/
inductive Expr
  | list (l : List Nat)
  | or (a b : Expr)
  | and (a b : Expr)
  | xor (a b : Expr)

/-- The positions the expression stands for. -/
def Expr.Mem (k : Nat) : Expr → Prop
  | .list l => k ∈ l
  | .or a b => a.Mem k ∨ b.Mem k
  | .and a b => a.Mem k ∧ b.Mem k
  | .xor a b => ¬ (a.Mem k ↔ b.Mem k)

/-- Every literal position of the expression is below `lim`. -/
def Expr.Below (lim : Nat) : Expr → Prop
  | .list l => ∀ k ∈ l, k < lim
  | .or a b | .and a b | .xor a b => a.Below lim ∧ b.Below lim

/-- Build a bitmap by setting positions one after the other. -/
def build (l : List Nat) : Option Ewah := l.foldlM Verif.Ewah.set Verif.Ewah.empty

def Expr.eval : Expr → Option Ewah
  | .list l => build l
  | .or a b => do Verif.Ewah.logicalOr (← a.eval) (← b.eval)
  | .and a b => do Verif.Ewah.logicalAnd (← a.eval) (← b.eval)
  | .xor a b => do Verif.Ewah.logicalXor (← a.eval) (← b.eval)

/-- No `xor` inside. -/
def Expr.NoXor : Expr → Prop
  | .list _ => True
  | .or a b | .and a b => a.NoXor ∧ b.NoXor
  | .xor _ _ => False

def Expr.Increasing : Expr → Prop
  | .list l => l.Pairwise (· < ·)
  | .or a b | .and a b | .xor a b => a.Increasing ∧ b.Increasing

end Verif.Props.EwahSpec
