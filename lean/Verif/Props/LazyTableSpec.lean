import Verif.Model.Basic

/-! # What threads expect from a table filled on demand, stated without the machine of Model/LazyTable.lean -/
namespace Verif.LazySpec

variable {K V : Type}

/-- A thread which asks for `prog` got the answers `done` so far: to its first keys, in their order, and to each of them exactly what making the
value afresh gives - the value, or the exception. -/
def Answered (load : K → Outcome V) (prog : List K) (done : List (K × Outcome V)) : Prop :=
  ∃ n, done = (prog.take n).map fun k => (k, load k)

/-- A table holds values which making them afresh would give. -/
def Faithful [DecidableEq K] (load : K → Outcome V) (table : Assoc K V) : Prop :=
  ∀ k v, table.find k = some v → load k = .ok v

end Verif.LazySpec
