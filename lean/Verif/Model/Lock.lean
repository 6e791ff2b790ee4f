/-!
# Objects protected by one mutex

Threads call operations of a shared object; every operation first works on thread-local data, then takes the
mutex (`std::lock_guard`), performs any number of separately scheduled small steps on the shared state, and
releases the mutex when it returns.  The scheduler may pick any thread at any moment.  Simplification: steps are
sequentially consistent (the C++ memory model gives this for data only touched under the mutex).
-/
namespace Verif.Lock

/-- An object: `start` is the local work before the lock, `mstep` one small step under the lock. -/
structure Object (S Op Out K : Type) where
  start : Op → K
  mstep : K → S → S × (K ⊕ Out)

/-- What a thread is doing. -/
inductive Status (Op K : Type) where
  | idle
  | waiting (op : Op) (k : K)
  | inside (op : Op) (k : K)

structure Thread (Op K : Type) where
  todo : List Op
  status : Status Op K

/-- Threads are numbered; `hist` records completed calls in order of completion. -/
structure Config (S Op Out K : Type) where
  shared : S
  owner : Option Nat
  threads : Nat → Thread Op K
  hist : List (Nat × Op × Out)

variable {S Op Out K : Type}

/-- Replace the record of one thread. -/
def setThread (f : Nat → Thread Op K) (t : Nat) (th : Thread Op K) : Nat → Thread Op K :=
  fun u => if u = t then th else f u

/-- Thread `t` is scheduled; a blocked or finished thread does nothing. -/
def sched (o : Object S Op Out K) (c : Config S Op Out K) (t : Nat) : Config S Op Out K :=
  match (c.threads t).status with
  | .idle =>
    match (c.threads t).todo with
    | [] => c
    | op :: rest => { c with threads := setThread c.threads t ⟨rest, .waiting op (o.start op)⟩ }
  | .waiting op k =>
    match c.owner with
    | some _ => c
    | none => { c with owner := some t, threads := setThread c.threads t ⟨(c.threads t).todo, .inside op k⟩ }
  | .inside op k =>
    match o.mstep k c.shared with
    | (s', .inl k') =>
      { c with shared := s', threads := setThread c.threads t ⟨(c.threads t).todo, .inside op k'⟩ }
    | (s', .inr out) =>
      { shared := s', owner := none, threads := setThread c.threads t ⟨(c.threads t).todo, .idle⟩,
        hist := c.hist ++ [(t, op, out)] }

/-- A whole schedule. -/
def exec (o : Object S Op Out K) (c : Config S Op Out K) (ts : List Nat) : Config S Op Out K :=
  ts.foldl (sched o) c

/-- All threads before their first call. -/
def start (s : S) (progs : Nat → List Op) : Config S Op Out K :=
  { shared := s, owner := none, threads := fun t => ⟨progs t, .idle⟩, hist := [] }

/-- The calls a thread has completed. -/
def completed (c : Config S Op Out K) (t : Nat) : List (Op × Out) :=
  (c.hist.filter (fun e => e.1 = t)).map (·.2)

end Verif.Lock
