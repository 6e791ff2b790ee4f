import Verif.Model.ParallelSearch
import Verif.Props.PersistentSpec

/-! # Specification of searching tiles by several threads (C101) -/
namespace Verif.ParallelSearchSpec
open Verif.ParallelSearch
open Verif.PersistentStore (El)

/-- The tile which a thread searches at the moment. -/
def busy (th : Thread) : Option QuadKey :=
  match th.pos with
  | .opened q _ | .counted q _ _ | .next q _ _ _ | .gotId q _ _ _ _ | .gotEntry q _ _ _ _ _ | .sought q _ _ _ _ => some q
  | .idle | .failed => none

/-- Whenever a thread begins to search a tile, no thread is searching this tile. -/
def Apart (s : State) : List Nat → Prop
  | [] => True
  | t :: ts => ((s.threads t).pos = .idle → ∀ q, (s.threads t).todo.head? = some q → ∀ t', busy (s.threads t') ≠ some q) ∧ Apart (step s t) ts

/-- How many steps the searches of these tiles take. -/
def steps (els : QuadKey → List El) (qs : List QuadKey) : Nat := (qs.map fun q => 4 + 4 * (els q).length).sum

end Verif.ParallelSearchSpec
