import Verif.Model.PersistentStore

/-! # Tiles of a store on disk searched by several threads

index/PersistentElementStore.cpp:148-164 in small steps, as several threads run it on one store: only the cache of open tiles is behind a lock (209), the positions of the open files are
shared by all who use the tile. An open tile lives as long as a thread or the cache points to it.

Simplifications: as in `Verif.PersistentStore`; every read of a file is one step, reading an element is one step, memory is sequentially consistent; nothing is saved
meanwhile, and no search is cancelled. Using one file in two threads at once is undefined behaviour in C++ anyway. -/
namespace Verif.ParallelSearch
open Verif.PersistentStore (El Files filesOf cacheSize)
open Verif.Streams (readLe readElement)

/-- PersistentElementStore.cpp:38-100 `QuadKeyData`: the tile whose files are open, and the positions in the data file and in the index file. -/
structure Handle where
  tile : QuadKey
  dPos : Nat
  iPos : Nat
deriving DecidableEq, Repr

/-- What threads share: the files, all open tiles which were ever made (a pointer is a place in this list), and the cache, most recent first. -/
structure Shared where
  disk : Assoc QuadKey Files
  heap : List Handle
  cache : List (QuadKey × Nat)
deriving DecidableEq, Repr

/-- Where a thread is in `search`, with its local variables: tile, pointer, entries which are left, id, offset, and the elements which were handed on. -/
inductive At
  | idle
  | opened (q : QuadKey) (p : Nat)
  | counted (q : QuadKey) (p n : Nat)
  | next (q : QuadKey) (p n : Nat) (out : List El)
  | gotId (q : QuadKey) (p n id : Nat) (out : List El)
  | gotEntry (q : QuadKey) (p n id off : Nat) (out : List El)
  | sought (q : QuadKey) (p n id : Nat) (out : List El)
  | failed
deriving DecidableEq, Repr

/-- A thread which searches tiles one after the other. -/
structure Thread where
  todo : List QuadKey
  pos : At
  results : List (QuadKey × List El)
deriving DecidableEq, Repr

/-- PersistentElementStore.cpp:208-219 `getQuadKeyData`, under the lock; LruCache.hpp:23-39, 50-56. -/
def getData (s : Shared) (q : QuadKey) : Shared × Nat :=
  match Assoc.find s.cache q with
  | some p => ({ s with cache := (q, p) :: Assoc.erase s.cache q }, p)
  | none =>
    let f := filesOf s.disk q
    (⟨s.disk.set q f, s.heap ++ [⟨q, f.dat.length, f.idx.length⟩], (q, s.heap.length) :: s.cache.take (cacheSize - 1)⟩, s.heap.length)

/-- PersistentElementStore.cpp:148-164, 230-236: one step of a thread which uses an open tile: `tellg` (152), `seekg` (155), the loop (156), reading the id and the offset (233-234),
`seekg` of the data file (160), reading the element (162). -/
def use (f : Files) (h : Handle) : At → Handle × At
  | .opened q p => (h, .counted q p (h.iPos / 12 % 2 ^ 32))
  | .counted q p n => ({ h with iPos := 0 }, .next q p n [])
  | .next q p (n + 1) out => match readLe 8 (f.idx.drop h.iPos) with
    | none => (h, .failed)
    | some (id, _) => ({ h with iPos := h.iPos + 8 }, .gotId q p n id out)
  | .gotId q p n id out => match readLe 4 (f.idx.drop h.iPos) with
    | none => (h, .failed)
    | some (off, _) => ({ h with iPos := h.iPos + 4 }, .gotEntry q p n id off out)
  | .gotEntry q p n id off out => ({ h with dPos := off }, .sought q p n id out)
  | .sought q p n id out => match readElement (UInt64.ofNat id) (f.dat.drop h.dPos) with
    | .ok (e, rest) => ({ h with dPos := f.dat.length - rest.length }, .next q p n (out ++ [e]))
    | _ => (h, .failed)
  | x => (h, x)

/-- The pointer a thread uses. -/
def At.pointer : At → Option Nat
  | .opened _ p | .counted _ p _ | .next _ p _ _ | .gotId _ p _ _ _ | .gotEntry _ p _ _ _ _ | .sought _ p _ _ _ => some p
  | .idle | .failed => none

/-- PersistentElementStore.cpp:148-164: one step of a thread. -/
def threadStep (s : Shared) (th : Thread) : Shared × Thread :=
  match th.pos with
  | .idle => match th.todo with
    | [] => (s, th)
    | q :: qs => ((getData s q).1, ⟨qs, .opened q (getData s q).2, th.results⟩)
  | .next q _ 0 out => (s, ⟨th.todo, .idle, th.results ++ [(q, out)]⟩)
  | x => match x.pointer with
    | none => (s, th)
    | some p => match s.heap[p]? with
      | none => (s, { th with pos := .failed })
      | some h => ({ s with heap := s.heap.set p (use (filesOf s.disk h.tile) h x).1 }, { th with pos := (use (filesOf s.disk h.tile) h x).2 })

/-- All threads. -/
structure State where
  shared : Shared
  threads : Nat → Thread

def step (s : State) (t : Nat) : State :=
  ⟨(threadStep s.shared (s.threads t)).1, fun i => if i = t then (threadStep s.shared (s.threads t)).2 else s.threads i⟩

/-- Threads take steps in this order. -/
def run (s : State) : List Nat → State
  | [] => s
  | t :: ts => run (step s t) ts

/-- Threads which have got tiles to search, on a store as it is when no thread uses it. -/
def start (s : PersistentStore.Store) (todo : Nat → List QuadKey) : State :=
  ⟨⟨s.disk, s.cache.map fun x => ⟨x.1, x.2.dPos, x.2.iPos⟩, s.cache.zipIdx.map fun x => (x.1.1, x.2)⟩, fun t => ⟨todo t, .idle, []⟩⟩

end Verif.ParallelSearch
