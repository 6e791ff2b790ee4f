import Verif.Model.Elevation

/-! # Cells of heights shared by threads

Models heightmap/SrtmElevationProvider.hpp:62-105 for several threads which ask one provider: a call looks for its cell without the lock, and if it is not there
loads all cells of the tile under the lock, one after the other, and looks again without the lock.

As for the tables of one value (`LazyTable`), a look at the map and a change of it take two steps each, a begin and an end. If one of them begins while another
thread is in the middle of the other one, the program has a data race, which is undefined behaviour: the machine stops with `raced`. Simplifications: the machine
is sequentially consistent up to the first race (which is what C++ promises); a reference to a cell stays good, as the nodes of `std::map` are not moved; memory
does not run out; the file of a cell is read twice in lines 84-85, which is taken as once. -/
namespace Verif.CellTable

variable {R K V : Type}

/-- Where a thread is in a call with the arguments `r`. -/
inductive Phase (R K V : Type) where
  /-- between calls -/
  | idle
  /-- in the first `find`, without the lock: SrtmElevationProvider.hpp:98 -/
  | look (r : R)
  /-- waiting for the lock: SrtmElevationProvider.hpp:63 -/
  | wait (r : R)
  /-- in the `find` of the cell asked for, under the lock: SrtmElevationProvider.hpp:65 -/
  | check (r : R)
  /-- in the `find` of the cell `k` of the tile, under the lock; the cells `ks` follow: SrtmElevationProvider.hpp:80 -/
  | seek (r : R) (k : K) (ks : List K)
  /-- in `emplace`, under the lock: SrtmElevationProvider.hpp:85 -/
  | write (r : R) (k : K) (v : V) (ks : List K)
  /-- in the last `find`, without the lock: SrtmElevationProvider.hpp:101 -/
  | again (r : R)

/-- A thread: the calls it still makes, where it is, and the answers it got. -/
structure Thread (R K V : Type) where
  todo : List R
  phase : Phase R K V
  done : List (R × Outcome V)

/-- The map with its lock (SrtmElevationProvider.hpp:187-188) and the threads. `reading` are the threads in the middle of a `find`, `writing` is the thread in the
middle of an `emplace`. -/
structure Config (R K V : Type) where
  table : Assoc K V
  owner : Option Nat
  reading : List Nat
  writing : Option Nat
  raced : Bool
  threads : Nat → Thread R K V

/-- Threads with their calls before the first one, for a map which may have been filled before. -/
def start (table : Assoc K V) (progs : Nat → List R) : Config R K V :=
  { table := table, owner := none, reading := [], writing := none, raced := false, threads := fun t => ⟨progs t, .idle, []⟩ }

namespace Config

/-- The thread `t` goes on to `p`. -/
def goto (c : Config R K V) (t : Nat) (p : Phase R K V) : Config R K V :=
  { c with threads := fun u => if u = t then { c.threads u with phase := p } else c.threads u }

/-- The thread `t` begins its next call and goes on to `p`. -/
def next (c : Config R K V) (t : Nat) (rest : List R) (p : Phase R K V) : Config R K V :=
  { c with threads := fun u => if u = t then { c.threads u with todo := rest, phase := p } else c.threads u }

/-- The call `r` of the thread `t` ends with `o`. -/
def finish (c : Config R K V) (t : Nat) (r : R) (o : Outcome V) : Config R K V :=
  { c with threads := fun u => if u = t then { c.threads u with phase := .idle, done := (c.threads u).done ++ [(r, o)] } else c.threads u }

/-- A `find` begins: a race if some thread is in the middle of an `emplace`. -/
def beginRead (c : Config R K V) (t : Nat) : Config R K V :=
  { c with reading := t :: c.reading, raced := c.raced || c.writing.isSome }

/-- A `find` ends. -/
def endRead (c : Config R K V) (t : Nat) : Config R K V := { c with reading := c.reading.filter (· ≠ t) }

/-- An `emplace` begins: a race if some thread is in the middle of a `find` or of an `emplace`. -/
def beginWrite (c : Config R K V) (t : Nat) : Config R K V :=
  { c with writing := some t, raced := c.raced || c.writing.isSome || !c.reading.isEmpty }

/-- An `emplace` ends. -/
def endWrite [DecidableEq K] (c : Config R K V) (k : K) (v : V) : Config R K V := { c with writing := none, table := c.table.emplace k v }

/-- The lock is taken by `t`. -/
def lock (c : Config R K V) (t : Nat) : Config R K V := { c with owner := some t }

/-- The lock is released, by the destructor of the guard also if an exception is thrown. -/
def unlock (c : Config R K V) : Config R K V := { c with owner := none }

/-- SrtmElevationProvider.hpp:76-78, 87: the loops go on with the cells `ks`, or end; then the lock is released and the map is looked at again (101). -/
def visit (c : Config R K V) (t : Nat) (r : R) : List K → Config R K V
  | [] => (c.unlock.beginRead t).goto t (.again r)
  | k :: ks => (c.beginRead t).goto t (.seek r k ks)

end Config

open Config

/-- The next step of thread `t`: SrtmElevationProvider.hpp:62-104. `target` is the cell of a call (97), `keys` are those of its tile (68-78), `load` reads a cell
(83-85). -/
def step [DecidableEq K] (target : R → K) (keys : R → List K) (load : K → Outcome V) (c : Config R K V) (t : Nat) : Config R K V :=
  if c.raced then c
  else match (c.threads t).phase with
    | .idle =>
      match (c.threads t).todo with
      | [] => c
      | r :: rest => (c.next t rest (.look r)).beginRead t
    | .look r =>
      match c.table.find (target r) with
      | some v => (c.endRead t).finish t r (.ok v)
      | none => (c.endRead t).goto t (.wait r)
    | .wait r =>
      match c.owner with
      | some _ => c
      | none => ((c.lock t).beginRead t).goto t (.check r)
    | .check r =>
      match c.table.find (target r) with
      | some _ => ((c.endRead t).unlock.beginRead t).goto t (.again r)
      | none => (c.endRead t).visit t r (keys r)
    | .seek r k ks =>
      match c.table.find k with
      | some _ => (c.endRead t).visit t r ks
      | none =>
        match load k with
        | .ok v => ((c.endRead t).beginWrite t).goto t (.write r k v ks)
        | .throw e => (c.endRead t).unlock.finish t r (.throw e)
        | .ub w => (c.endRead t).unlock.finish t r (.ub w)
    | .write r k v ks => (c.endWrite k v).visit t r ks
    | .again r =>
      match c.table.find (target r) with
      | some v => (c.endRead t).finish t r (.ok v)
      | none => (c.endRead t).finish t r (.ub "end of the map")

/-- Steps of the threads in the order in which they are scheduled. -/
def run [DecidableEq K] (target : R → K) (keys : R → List K) (load : K → Outcome V) (c : Config R K V) : List Nat → Config R K V
  | [] => c
  | t :: ts => run target keys load (step target keys load c t) ts

section Heights
variable {F : Type} [Field F] [LinearOrder F] [IsStrictOrderedRing F] [FloorRing F]

/-- The arguments of a call (SrtmElevationProvider.hpp:90): the corners of the tile's box and a coordinate. -/
structure Place (F : Type) where
  minLat : F
  minLon : F
  maxLat : F
  maxLon : F
  lat : F
  lon : F

/-- SrtmElevationProvider.hpp:91-92, 97 -/
def Place.cell (p : Place F) : Elevation.Key := (Elevation.trunc p.lat, Elevation.trunc p.lon)

/-- SrtmElevationProvider.hpp:68-79 -/
def Place.cells (p : Place F) : List Elevation.Key := Elevation.cellKeys p.minLat p.minLon p.maxLat p.maxLon

/-- SrtmElevationProvider.hpp:83-85 -/
def loadCell (file : Elevation.FileName → Option (List UInt8)) (k : Elevation.Key) : Outcome Elevation.Cell :=
  Elevation.readCell (file (Elevation.fileName k))

/-- SrtmElevationProvider.hpp:94-95, 104-140: the height of the place in its cell. -/
def Place.height (signed : Bool) (p : Place F) (cell : Elevation.Cell) : Outcome F :=
  Elevation.interpolate signed cell ((p.lat - (Elevation.trunc p.lat : F)) * 3600) ((p.lon - (Elevation.trunc p.lon : F)) * 3600)

end Heights

end Verif.CellTable
