import Verif.Model.Elevation

/-! # Tables filled on demand and shared by threads

Models the two places where a table is filled on demand while several threads ask it, without the lock being held for the first look:
gradients of a stylesheet (mapcss/StyleProvider.cpp:287-298) and grids of heights (heightmap/GridElevationProvider.hpp:48-53, 94-128).
Both are the same machine with a flag: gradients are made before the lock is taken and are looked up again under the lock (`early`), grids are
looked up and made under the lock and are looked up again after it is released.

A look at the table and a change of the table take two steps each, a begin and an end. If one of them begins while another thread is in the
middle of the other one, the program has a data race, which is undefined behaviour: the machine stops with `raced`. Simplifications: the
machine is sequentially consistent up to the first race (which is what C++ promises); a reference to a value stays good, as the nodes of
`std::map` and `std::unordered_map` are not moved; memory does not run out. -/
namespace Verif.LazyTable

variable {K V : Type}

/-- Where a thread is in a call for a key. -/
inductive Phase (K V : Type) where
  /-- between calls -/
  | idle
  /-- in the first `find`, without the lock: StyleProvider.cpp:288, GridElevationProvider.hpp:49 -/
  | look (k : K)
  /-- waiting for the lock, with the value if it is made before: StyleProvider.cpp:293, GridElevationProvider.hpp:95 -/
  | wait (k : K) (v : Option V)
  /-- in the second `find` of grids, under the lock: GridElevationProvider.hpp:97 -/
  | check (k : K)
  /-- in `emplace`, under the lock: StyleProvider.cpp:294, GridElevationProvider.hpp:127 -/
  | write (k : K) (v : V)
  /-- in the last `find`, under the lock for gradients, without it for grids: StyleProvider.cpp:295, GridElevationProvider.hpp:52 -/
  | again (k : K)
deriving DecidableEq

/-- A thread: the keys it still asks for, where it is, and the answers it got. -/
structure Thread (K V : Type) where
  todo : List K
  phase : Phase K V
  done : List (K × Outcome V)

/-- The table with its lock (StyleProvider.cpp:385 and the map `gradients`, GridElevationProvider.hpp:136-137) and the threads. `reading` are
the threads in the middle of a `find`, `writing` is the thread in the middle of an `emplace`. -/
structure Config (K V : Type) where
  table : Assoc K V
  owner : Option Nat
  reading : List Nat
  writing : Option Nat
  raced : Bool
  threads : Nat → Thread K V

/-- Threads with their keys before the first call, for a table which may have been filled before. -/
def start (table : Assoc K V) (progs : Nat → List K) : Config K V :=
  { table := table, owner := none, reading := [], writing := none, raced := false, threads := fun t => ⟨progs t, .idle, []⟩ }

namespace Config

/-- The thread `t` goes on to `p`. -/
def goto (c : Config K V) (t : Nat) (p : Phase K V) : Config K V :=
  { c with threads := fun u => if u = t then { c.threads u with phase := p } else c.threads u }

/-- The thread `t` takes its next key and goes on to `p`. -/
def next (c : Config K V) (t : Nat) (rest : List K) (p : Phase K V) : Config K V :=
  { c with threads := fun u => if u = t then { c.threads u with todo := rest, phase := p } else c.threads u }

/-- The call of the thread `t` for `k` ends with `o`. -/
def finish (c : Config K V) (t : Nat) (k : K) (o : Outcome V) : Config K V :=
  { c with threads := fun u => if u = t then { c.threads u with phase := .idle, done := (c.threads u).done ++ [(k, o)] } else c.threads u }

/-- A `find` begins: a race if some thread is in the middle of an `emplace`. -/
def beginRead (c : Config K V) (t : Nat) : Config K V :=
  { c with reading := t :: c.reading, raced := c.raced || c.writing.isSome }

/-- A `find` ends. -/
def endRead (c : Config K V) (t : Nat) : Config K V := { c with reading := c.reading.filter (· ≠ t) }

/-- An `emplace` begins: a race if some thread is in the middle of a `find` or of an `emplace`. -/
def beginWrite (c : Config K V) (t : Nat) : Config K V :=
  { c with writing := some t, raced := c.raced || c.writing.isSome || !c.reading.isEmpty }

/-- An `emplace` ends. -/
def endWrite [DecidableEq K] (c : Config K V) (k : K) (v : V) : Config K V := { c with writing := none, table := c.table.emplace k v }

/-- The lock is taken by `t`. -/
def lock (c : Config K V) (t : Nat) : Config K V := { c with owner := some t }

/-- The lock is released, by the destructor of the guard also if an exception is thrown. -/
def unlock (c : Config K V) : Config K V := { c with owner := none }

end Config

open Config

/-- The next step of thread `t`: StyleProvider.cpp:287-298 with `early`, GridElevationProvider.hpp:48-53, 94-128 without. `load` makes the value
of a key: StyleProvider.cpp:290-292, GridElevationProvider.hpp:100-125. -/
def step [DecidableEq K] (early : Bool) (load : K → Outcome V) (c : Config K V) (t : Nat) : Config K V :=
  if c.raced then c
  else match (c.threads t).phase with
    | .idle =>
      match (c.threads t).todo with
      | [] => c
      | k :: rest => (c.next t rest (.look k)).beginRead t
    | .look k =>
      match c.table.find k with
      | some v => (c.endRead t).finish t k (.ok v)
      | none =>
        if early then
          match load k with
          | .ok v => (c.endRead t).goto t (.wait k (some v))
          | .throw e => (c.endRead t).finish t k (.throw e)
          | .ub w => (c.endRead t).finish t k (.ub w)
        else (c.endRead t).goto t (.wait k none)
    | .wait k v? =>
      match c.owner with
      | some _ => c
      | none =>
        match v? with
        | some v => ((c.lock t).beginWrite t).goto t (.write k v)
        | none => ((c.lock t).beginRead t).goto t (.check k)
    | .check k =>
      match c.table.find k with
      | some _ => ((c.endRead t).unlock.beginRead t).goto t (.again k)
      | none =>
        match load k with
        | .ok v => ((c.endRead t).beginWrite t).goto t (.write k v)
        | .throw e => (c.endRead t).unlock.finish t k (.throw e)
        | .ub w => (c.endRead t).unlock.finish t k (.ub w)
    | .write k v =>
      if early then ((c.endWrite k v).beginRead t).goto t (.again k)
      else ((c.endWrite k v).unlock.beginRead t).goto t (.again k)
    | .again k =>
      let c' := if early then (c.endRead t).unlock else c.endRead t
      match c.table.find k with
      | some v => c'.finish t k (.ok v)
      | none => c'.finish t k (.ub "end of the map")

/-- Steps of the threads in the order in which they are scheduled. -/
def run [DecidableEq K] (early : Bool) (load : K → Outcome V) (c : Config K V) : List Nat → Config K V
  | [] => c
  | t :: ts => run early load (step early load c t) ts

/-- The grid of heights of a tile, GridElevationProvider.hpp:100-125, for the numbers in its file, if there is one, and the tile's box
`(minLat, minLon)`-`(maxLat, maxLon)`. -/
def loadGrid {Q F : Type} [Field F] [LinearOrder F] [IsStrictOrderedRing F] [FloorRing F] (files : Q → Option (List Int))
    (box : Q → (F × F) × (F × F)) (q : Q) : Outcome Elevation.EleData :=
  match files q with
  | none => .throw "invalid_argument"
  | some heights => Elevation.load heights (box q).1.1 (box q).1.2 (box q).2.1 (box q).2.2

end Verif.LazyTable
