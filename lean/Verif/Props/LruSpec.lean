import Verif.Model.Lru

/-!
# Specification of C01: a bounded map which forgets the least recently used key

The specification keeps, for every present key, its value and the time of its last use.  The order of the
list `entries` is irrelevant: the eviction rule looks at the times only.
-/
namespace Verif.LruSpec
open Verif.Lru (Op Out)

/-- Present keys with value and time of last use; the clock ticks at every call. -/
structure Abs (K V : Type) where
  entries : List (K × V × Nat)
  clock : Nat

variable {K V : Type} [DecidableEq K]

/-- The value stored under `k`. -/
def Abs.lookup (a : Abs K V) (k : K) : Option V :=
  (a.entries.find? (fun e => e.1 = k)).map (fun e => e.2.1)

/-- Store `v` under `k` and mark it as used now. -/
def Abs.use (a : Abs K V) (k : K) (v : V) : List (K × V × Nat) :=
  (k, v, a.clock) :: a.entries.filter (fun e => e.1 ≠ k)

/-- Drop the entry whose last use is before the last use of every other entry. -/
def dropOldest (es : List (K × V × Nat)) : List (K × V × Nat) :=
  es.filter (fun e => es.any (fun f => f.2.2 < e.2.2))

/-- One call under limit `m`. -/
def step (m : Nat) (a : Abs K V) : Op K V → Abs K V × Out V
  | .put k v =>
    let es := a.use k v
    ({ entries := if es.length > m then dropOldest es else es, clock := a.clock + 1 }, .unit)
  | .peek k =>
    match a.lookup k with
    | none => (a, .rangeError)
    | some v => (a, .value v)
  | .get k =>
    match a.lookup k with
    | none => (a, .rangeError)
    | some v => ({ entries := a.use k v, clock := a.clock + 1 }, .value v)
  | .promote k =>
    match a.lookup k with
    | none => (a, .rangeError)
    | some v => ({ entries := a.use k v, clock := a.clock + 1 }, .unit)
  | .exists_ k => (a, .bool (a.lookup k).isSome)
  | .size => (a, .size a.entries.length)
  | .clear => ({ a with entries := [] }, .unit)

/-- The results a caller of the specification observes. -/
def run (m : Nat) (a : Abs K V) : List (Op K V) → Abs K V × List (Out V)
  | [] => (a, [])
  | op :: ops =>
    let r := step m a op
    let rest := run m r.1 ops
    (rest.1, r.2 :: rest.2)

/-- Nothing stored. -/
def empty : Abs K V := { entries := [], clock := 0 }

end Verif.LruSpec
