import Verif.Model.Basic

/-!
# Model of `core/src/utils/LruCache.hpp`

`itemsList_` is a `std::list` of key/value pairs whose nodes are referred to by iterators stored in
`itemsMap_`.  List nodes get an identity (`Nat`), an iterator is that identity.  Dereferencing, erasing
or splicing an iterator which is not in the list is undefined behaviour.
Simplification: `std::shared_ptr<Value>` is the value itself (callers of the cache in this code base do
not modify the pointee through the pointer); allocation failure is not modelled.
-/
namespace Verif.Lru
open Verif

/-- LruCache.hpp:87-89, the three members.  `next` is the identity of the next list node. -/
structure State (K V : Type) where
  list : List (Nat × K × V)
  map : Assoc K Nat
  maxSize : Nat
  next : Nat

/-- Public operations of the class. -/
inductive Op (K V : Type) where
  | put (k : K) (v : V)
  | peek (k : K)
  | get (k : K)
  | promote (k : K)
  | exists_ (k : K)
  | size
  | clear

/-- What a caller observes. -/
inductive Out (V : Type) where
  | unit
  | value (v : V)
  | bool (b : Bool)
  | size (n : Nat)
  | rangeError
  | ub
deriving DecidableEq, Repr

variable {K V : Type} [DecidableEq K]

/-- LruCache.hpp:19-20 -/
def init (maxSize : Nat) : State K V := { list := [], map := [], maxSize, next := 0 }

/-- The list node an iterator points to. -/
def deref (l : List (Nat × K × V)) (it : Nat) : Option (K × V) :=
  (l.find? (fun n => n.1 = it)).map (·.2)

/-- `itemsList_.erase(iterator)` -/
def eraseNode (l : List (Nat × K × V)) (it : Nat) : List (Nat × K × V) := l.filter (fun n => n.1 ≠ it)

/-- LruCache.hpp:33-38, eviction: the condition looks at the map, the victim is the back of the list
(`--end()` of an empty list is undefined). -/
def evict (s : State K V) : Option (State K V) :=
  if s.map.length > s.maxSize then
    match s.list.getLast? with
    | none => none
    | some last => some { s with map := s.map.erase last.2.1, list := s.list.dropLast }
  else some s

/-- LruCache.hpp:23-39 -/
def put (s : State K V) (k : K) (v : V) : Option (State K V) :=
  let front := s.next
  let s1 : State K V := { s with list := (front, k, v) :: s.list, next := s.next + 1 }
  match s1.map.find k with
  | some it =>
    match deref s1.list it with
    | none => none
    | some _ => evict { s1 with list := eraseNode s1.list it, map := (s1.map.erase k).set k front }
  | none => evict { s1 with map := s1.map.set k front }

/-- LruCache.hpp:54 and 63, `splice(begin, list, it)`: moves the node to the front. -/
def splice (s : State K V) (it : Nat) : Option (State K V) :=
  match deref s.list it with
  | none => none
  | some n => some { s with list := (it, n.1, n.2) :: eraseNode s.list it }

/-- One call.  `put` 23-39, `peek` 42-47, `get` 50-56, `promote` 59-64, `exists` 67-69, `size` 72-74,
`clear` 77-80. -/
def step (s : State K V) : Op K V → State K V × Out V
  | .put k v =>
    match put s k v with
    | some s' => (s', .unit)
    | none => (s, .ub)
  | .peek k =>
    match s.map.find k with
    | none => (s, .rangeError)
    | some it =>
      match deref s.list it with
      | none => (s, .ub)
      | some n => (s, .value n.2)
  | .get k =>
    match s.map.find k with
    | none => (s, .rangeError)
    | some it =>
      match splice s it with
      | none => (s, .ub)
      | some s' =>
        match deref s'.list it with
        | none => (s', .ub)
        | some n => (s', .value n.2)
  | .promote k =>
    match s.map.find k with
    | none => (s, .rangeError)
    | some it =>
      match splice s it with
      | none => (s, .ub)
      | some s' => (s', .unit)
  | .exists_ k => (s, .bool (s.map.find k).isSome)
  | .size => (s, .size s.map.length)
  | .clear => ({ s with list := [], map := [] }, .unit)

/-- A whole history: the list of observed results and the final state. -/
def run (s : State K V) : List (Op K V) → State K V × List (Out V)
  | [] => (s, [])
  | op :: ops =>
    let r := step s op
    let rest := run r.1 ops
    (rest.1, r.2 :: rest.2)

end Verif.Lru
