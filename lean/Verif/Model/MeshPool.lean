import Verif.Model.Streams

/-!
# `core/src/builders/MeshPool.hpp` and `core/src/math/Mesh.hpp`

Every call holds the mutex while it uses the map (MeshPool.hpp:38, 44), so a concurrent execution is a list of calls.
-/
namespace Verif.MeshPool
open Verif.Streams

variable {D : Type}

/-- Mesh.hpp:11-49. `handle` identifies the storage, which moves along with the mesh (move constructor, 28-35); `capacity` is the
capacity of `vertices`. -/
structure PMesh (D : Type) where
  handle : Nat
  capacity : Nat
  data : Mesh D

/-- `pool_` (MeshPool.hpp:57): a `std::map`, sorted by capacity. `fresh` numbers the allocations. -/
structure State (D : Type) where
  pool : List (Nat × PMesh D)
  fresh : Nat

def init : State D := ⟨[], 0⟩

/-- MeshPool.hpp:15 -/
def thresholdSize : Nat := 1024 * 10 * 2

/-- Mesh.hpp:20-26 -/
def newMesh (name : Bytes) (handle : Nat) : PMesh D := ⟨handle, 4096, ⟨name, [], [], [], [], []⟩⟩

/-- Mesh.hpp:42-48 -/
def clear (m : Mesh D) : Mesh D := { m with vertices := [], triangles := [], colors := [], uvs := [], uvMap := [] }

/-- `std::map::emplace`: keeps an existing entry and the order; the new mesh is destroyed then. -/
def emplace (k : Nat) (m : PMesh D) : List (Nat × PMesh D) → List (Nat × PMesh D)
  | [] => [(k, m)]
  | e :: l => if k < e.1 then (k, m) :: e :: l else if k = e.1 then e :: l else e :: emplace k m l

/-- MeshPool.hpp:35-40 -/
def release (s : State D) (m : PMesh D) : State D :=
  let m' : PMesh D := { m with data := { clear m.data with name := [] } }
  { s with pool := emplace m'.capacity m' s.pool }

/-- Takes the first entry whose key satisfies the predicate out of the map (`lower_bound`, `upper_bound` and `erase`). -/
def takeFirst (p : Nat → Bool) : List (Nat × PMesh D) → Option (PMesh D × List (Nat × PMesh D))
  | [] => none
  | e :: l => if p e.1 then some (e.2, l) else (takeFirst p l).map fun r => (r.1, e :: r.2)

/-- MeshPool.hpp:25-32, 43-55 -/
def getMesh (s : State D) (name : Bytes) (isLower : Bool) : State D × PMesh D :=
  match takeFirst (fun k => if isLower then decide (0 ≤ k) else decide (thresholdSize < k)) s.pool with
  | none => ({ s with fresh := s.fresh + 1 }, newMesh name s.fresh)
  | some (m, pool) => ({ s with pool := pool }, { m with data := { m.data with name := name } })

/-- The calls of builders; between them a builder changes the meshes it holds as it likes. -/
inductive Op (D : Type)
  | getSmall (name : Bytes)
  | getLarge (name : Bytes)
  | release (m : PMesh D)

/-- One call and the mesh handed out. -/
def step (s : State D) : Op D → State D × Option (PMesh D)
  | .getSmall name => let r := getMesh s name true; (r.1, some r.2)
  | .getLarge name => let r := getMesh s name false; (r.1, some r.2)
  | .release m => (release s m, none)

def run (s : State D) : List (Op D) → State D × List (Option (PMesh D))
  | [] => (s, [])
  | op :: ops => let r := step s op; let rest := run r.1 ops; (rest.1, r.2 :: rest.2)

end Verif.MeshPool
