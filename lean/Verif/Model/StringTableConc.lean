import Verif.Model.Lock
import Verif.Model.StringTable

/-!
# `StringTable` called from several threads

The hash is computed before the lock is taken (StringTable.cpp:49-53); every later access to the members happens
under `lock_`.  One small step is one loop iteration, one file access or one cache access.
-/
namespace Verif.StringTableConc
open Verif Verif.StringTable

/-- Calls that can be made concurrently. -/
inductive Call where
  | getId (s : Bytes)
  | getString (id : Nat)
deriving DecidableEq, Repr

/-- Where a call is inside its critical section. -/
inductive K where
  | lookup (h : UInt32) (str : Bytes)
  | scan (h : UInt32) (str : Bytes) (ids : List Nat)
  | write (h : UInt32) (str : Bytes)
  | take (h : UInt32)
  | check (id : Nat)
  | read (id : Nat)
  | fetch (id : Nat)

/-- StringTable.cpp:48-84, cut into small steps. -/
def mstep (k : K) (s : State) : State × (K ⊕ Out) :=
  match k with
  | .lookup h str => (s, .inl (.scan h str ((s.map.find h).getD [])))
  | .scan h str [] => (s, .inl (.write h str))
  | .scan h str (id :: ids) =>
    match StringTable.scan s str [id] with
    | (s', none) => (s', .inr .error)
    | (s', some (some i)) => (s', .inr (.id i))
    | (s', some none) => (s', .inl (.scan h str ids))
  | .write h str => (writeString s h str, .inl (.take h))
  | .take _ => ({ s with nextId := s.nextId + 1 }, .inr (.id s.nextId))
  | .check id =>
    match (Lru.step s.cache (.exists_ id)).2 with
    | .bool true => (s, .inl (.fetch id))
    | _ => (s, .inl (.read id))
  | .read id =>
    let r := readString s id
    let s' := { s with fail := r.2 }
    ({ s' with cache := (Lru.step s'.cache (.put id r.1)).1 }, .inl (.fetch id))
  | .fetch id => ((cacheGet s id).1, .inr (cacheGet s id).2)

/-- The string table as an object with a mutex. -/
def object (hash : Bytes → UInt32) : Lock.Object State Call Out K where
  start
    | .getId s => .lookup (hash s) s
    | .getString id => .check id
  mstep := mstep

/-- The same calls in a sequential history. -/
def toOp : Call → Op
  | .getId s => .getId s
  | .getString id => .getString id

end Verif.StringTableConc
