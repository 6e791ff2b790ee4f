import Verif.Model.Basic

/-! # What threads expect from cells of heights which are loaded on demand, stated without the machine of Model/CellTable.lean -/
namespace Verif.CellSpec

variable {R K V : Type}

/-- What a call `r` may answer: the cell it asks for as its file gives it; or the exception of a cell of its tile whose file is no good. The last two cases are
undefined behaviour: there is none if no file makes one and the cell asked for is one of the tile. -/
inductive Answer (target : R → K) (keys : R → List K) (load : K → Outcome V) (r : R) : Outcome V → Prop where
  | cell (v : V) : load (target r) = .ok v → Answer target keys load r (.ok v)
  | refused (k : K) (e : String) : k ∈ keys r → load k = .throw e → Answer target keys load r (.throw e)
  | broken (k : K) (w : String) : k ∈ keys r → load k = .ub w → Answer target keys load r (.ub w)
  | beside (w : String) : target r ∉ keys r → Answer target keys load r (.ub w)

/-- A thread which makes the calls `prog` got the answers `done` so far: to its first calls, in their order. -/
def Answered (target : R → K) (keys : R → List K) (load : K → Outcome V) (prog : List R) (done : List (R × Outcome V)) : Prop :=
  done.map (·.1) <+: prog ∧ ∀ e ∈ done, Answer target keys load e.1 e.2

/-- Every cell of the tile of `r` has a good file, and the cell of `r` is one of them. -/
def Covered (target : R → K) (keys : R → List K) (load : K → Outcome V) (r : R) : Prop :=
  target r ∈ keys r ∧ ∀ k ∈ keys r, ∃ v, load k = .ok v

end Verif.CellSpec
