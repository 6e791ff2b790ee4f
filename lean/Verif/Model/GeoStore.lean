import Mathlib.Order.Defs.LinearOrder
import Verif.Model.MemStore
import Verif.Model.PersistentStore

/-!
# `core/src/index/GeoStore.cpp`

Keys are an arbitrary linearly ordered type (`std::string` with `operator<`). Stores are given by their interface. A file
is represented by what its parser passes to the functor, an element by the calls of `save` it leads to
(`Verif.ElementStore`). A call of a store which throws leaves the store unchanged: in the stores of the library this is
`erase(bbox, range)`.
-/
namespace Verif.GeoStore

/-- ElementStore.hpp: the virtual functions used here. -/
structure Iface (S E Q : Type) where
  save : S → QuadKey → E → Outcome S
  hasData : S → QuadKey → Bool
  search : S → QuadKey → Outcome (S × List E)
  text : S → Q → Outcome (S × List E)
  erase : S → QuadKey → Outcome S
  eraseRange : S → Outcome S

variable {K S E Q : Type} [LinearOrder K]

/-- GeoStore.cpp:151 `storeMap_`, in the order of iteration; `none` is a null pointer. -/
abbrev Map (K S : Type) := List (K × Option S)

/-- `map.emplace` -/
def emplace (k : K) (v : Option S) : Map K S → Map K S
  | [] => [(k, v)]
  | (k', v') :: m => if k < k' then (k, v) :: (k', v') :: m else if k' < k then (k', v') :: emplace k v m else (k', v') :: m

/-- `map[k]` as far as it changes the map: a missing entry is created with a null pointer. -/
def subscript (k : K) (m : Map K S) : Map K S := emplace k none m

/-- Replaces the state of the store of an entry. -/
def put (k : K) (s : S) (m : Map K S) : Map K S := m.map fun e => if e.1 = k then (k, some s) else e

/-- Several calls of `save`. -/
def saveAll (I : Iface S E Q) (s : S) : List (QuadKey × E) → Outcome S
  | [] => .ok s
  | (q, e) :: l => (I.save s q e).bind fun s' => saveAll I s' l

/-- Where an import goes: GeoStore.cpp:38-50 or 52-79. -/
inductive Target
  | tile (q : QuadKey)
  | range

/-- The public functions. `addFile`: `none` if the format is not supported (GeoStore.cpp:114), else for each element passed
to the functor the calls of `save`; `cancelled`: `isCancelled` afterwards. -/
inductive Op (K S E Q : Type)
  | register (k : K) (s : S)
  | add (k : K) (saves : List (QuadKey × E))
  | addFile (k : K) (file : Option (List (List (QuadKey × E)))) (target : Target) (cancelled : Bool)
  | tile (q : QuadKey)
  | text (t : Q)
  | hasData (q : QuadKey)

/-- GeoStore.cpp:34-35 and 43-49, 57-63, 72-78 after `storeMap_[storeKey]`: with a null pointer any call is undefined. -/
def withStore (p : Option S) (f : S → Outcome S) : Outcome S :=
  match p with
  | none => .ub "null store"
  | some s => f s

/-- The clean-up after a cancelled import: GeoStore.cpp:48-49, 62-63, 77-78. -/
def cleanUp (I : Iface S E Q) (target : Target) (s : S) : Outcome S :=
  match target with
  | .tile q => I.erase s q
  | .range => I.eraseRange s

/-- GeoStore.cpp:118-128, 130-139: visiting the stores in the order of the map; `f` returns the new state of the store and
what it passed to the visitor. -/
def visit (f : S → Outcome (S × List E)) : Map K S → Outcome (Map K S × List E)
  | [] => .ok ([], [])
  | (_, none) :: _ => .ub "null store"
  | (k, some s) :: m => (f s).bind fun r => (visit f m).bind fun rest => .ok ((k, some r.1) :: rest.1, r.2 ++ rest.2)

/-- GeoStore.cpp:136-137 -/
def searchIfData (I : Iface S E Q) (q : QuadKey) (s : S) : Outcome (S × List E) :=
  if I.hasData s q then I.search s q else .ok (s, [])

/-- GeoStore.cpp:141-147 -/
def anyData (I : Iface S E Q) (q : QuadKey) : Map K S → Outcome Bool
  | [] => .ok false
  | (_, none) :: _ => .ub "null store"
  | (_, some s) :: m => if I.hasData s q then .ok true else anyData I q m

/-- What the caller sees. -/
inductive Out (E : Type)
  | done
  | elements (l : List E)
  | flag (b : Bool)
  | failed (o : Outcome Unit)

def forget {α : Type} : Outcome α → Outcome Unit
  | .ok _ => .ok ()
  | .throw e => .throw e
  | .ub w => .ub w

def pointer (k : K) : Map K S → Option S
  | [] => none
  | (k', p) :: m => if k' = k then p else pointer k m

/-- GeoStore.cpp:81-116 and the callers: the elements of the file are stored; with a null pointer only a file without
elements has defined behaviour. -/
def importFile (I : Iface S E Q) (p : Option S) : List (List (QuadKey × E)) → Outcome (Option S)
  | [] => .ok p
  | saves :: l => (withStore p fun s => saveAll I s saves).bind fun s => importFile I (some s) l

/-- Writing back the pointee of an entry. -/
def putPtr (k : K) (p : Option S) (m : Map K S) : Map K S :=
  match p with
  | none => m
  | some s => put k s m

/-- One call of the class. After an exception in the clean-up the import remains; after other failures the state of the store
is not updated. -/
def step (I : Iface S E Q) (m : Map K S) : Op K S E Q → Map K S × Out E
  | .register k s => (emplace k (some s) m, .done)
  | .add k saves =>
    let m := subscript k m
    match withStore (pointer k m) fun s => saveAll I s saves with
    | .ok s => (put k s m, .done)
    | o => (m, .failed (forget o))
  | .addFile k file target cancelled =>
    let m := subscript k m
    match file with
    | none => (m, .failed (.throw "domain_error"))
    | some elements => match importFile I (pointer k m) elements with
      | .ok p =>
        let m := putPtr k p m
        if cancelled then
          match withStore p (cleanUp I target) with
          | .ok s => (put k s m, .done)
          | o => (m, .failed (forget o))
        else (m, .done)
      | o => (m, .failed (forget o))
  | .tile q => match visit (searchIfData I q) m with
    | .ok r => (r.1, .elements r.2)
    | o => (m, .failed (forget o))
  | .text t => match visit (fun s => I.text s t) m with
    | .ok r => (r.1, .elements r.2)
    | o => (m, .failed (forget o))
  | .hasData q => match anyData I q m with
    | .ok b => (m, .flag b)
    | o => (m, .failed (forget o))

def run (I : Iface S E Q) (m : Map K S) : List (Op K S E Q) → Map K S × List (Out E)
  | [] => (m, [])
  | op :: ops =>
    let r := step I m op
    let rest := run I r.1 ops
    (rest.1, r.2 :: rest.2)

/-- GeoStore.cpp:21-23 -/
def init : Map K S := []

/-- InMemoryElementStore as a store; a text query is the terms, the geometry filter and the visited tiles. -/
def memIface (tokens : E → List UInt32) : Iface (MemStore.Store E) E (BitmapIndex.Terms × (E → Bool) × List QuadKey) where
  save := MemStore.save tokens
  hasData := MemStore.hasData
  search s q := .ok (s, MemStore.searchTile s q none)
  text s t := (MemStore.searchText s t.1 t.2.1 t.2.2).bind fun l => .ok (s, l)
  erase s q := .ok (MemStore.erase s q)
  eraseRange s := MemStore.eraseRange s

/-- PersistentElementStore as a store; PersistentElementStore.cpp:180-182 for `eraseRange`. `garbage`: the indeterminate values, the
same for all calls (the theorems hold for every choice). -/
def persistentIface (tokens : PersistentStore.El → List UInt32) (garbage : QuadKey → UInt32) :
    Iface PersistentStore.Store PersistentStore.El (BitmapIndex.Terms × (PersistentStore.El → Bool) × List QuadKey) where
  save s q e := PersistentStore.save tokens (garbage q) s q e
  hasData := PersistentStore.hasData
  search s q := PersistentStore.searchTile s q none
  text s t := PersistentStore.searchText garbage t.1 t.2.1 s t.2.2
  erase s q := .ok (PersistentStore.erase s q)
  eraseRange _ := .throw "domain_error"

end Verif.GeoStore
