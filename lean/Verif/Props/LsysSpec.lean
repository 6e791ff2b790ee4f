import Verif.Model.Lsys

/-! # Specification for C38, C39 and C62 -/
namespace Verif.LsysSpec
open Verif.Lsys Verif.Quaternion

variable {W : Type}

/-- One generation: every symbol is replaced by one of the right sides the grammar gives for it, or kept if there is none. -/
inductive Rewrites (grammar : List (Rule × W × List Rule)) : List Rule → List Rule → Prop
  | nil : Rewrites grammar [] []
  | keep (r : Rule) (rs rs' : List Rule) : (∀ p ∈ grammar, p.1 ≠ r) → Rewrites grammar rs rs' → Rewrites grammar (r :: rs) (r :: rs')
  | replace (r : Rule) (w : W) (succ rs rs' : List Rule) : (r, w, succ) ∈ grammar → Rewrites grammar rs rs' →
      Rewrites grammar (r :: rs) (succ ++ rs')

/-- A number of generations. -/
inductive RewritesN (grammar : List (Rule × W × List Rule)) : Nat → List Rule → List Rule → Prop
  | zero (rs : List Rule) : RewritesN grammar 0 rs rs
  | succ (n : Nat) (a b c : List Rule) : Rewrites grammar a b → RewritesN grammar n b c → RewritesN grammar (n + 1) a c

/-- A program with matching brackets. -/
inductive Balanced : List Rule → Prop
  | nil : Balanced []
  | other (r : Rule) (rs : List Rule) : r ≠ .op .save → r ≠ .op .restore → Balanced rs → Balanced (r :: rs)
  | section (body rs : List Rule) : Balanced body → Balanced rs → Balanced (.op .save :: (body ++ .op .restore :: rs))

/-- The random generator picks one of the weights. -/
def PicksOne {G : Type} (pick : G → List W → Nat × G) : Prop := ∀ g ws, ws ≠ [] → (pick g ws).1 < ws.length

/-- Two perpendicular unit vectors. -/
def Frame {K : Type} [Field K] (a b : Vec3 K) : Prop :=
  a.x ^ 2 + a.y ^ 2 + a.z ^ 2 = 1 ∧ b.x ^ 2 + b.y ^ 2 + b.z ^ 2 = 1 ∧ a.x * b.x + a.y * b.y + a.z * b.z = 0

end Verif.LsysSpec
