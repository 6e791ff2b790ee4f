import Verif.Model.BitmapIndex
import Verif.Model.Tiles

/-!
# `core/src/index/InMemoryElementStore.cpp`

Generic in the element type: `tokens` are the tokens of an element (BitmapIndex.cpp:79-89). A text search gets the tiles
visited by the loops of BitmapIndex.cpp:45-47 and the geometry filter of InMemoryElementStore.cpp:92-94.
-/
namespace Verif.MemStore
open Verif.BitmapIndex (Bitmap Terms)

/-- InMemoryElementStore.cpp:142-144: `elementsMap_` and the bitmaps of `stringIndex_`. -/
structure Store (E : Type) where
  elements : Assoc QuadKey (List E)
  bitmaps : Assoc QuadKey Bitmap

def init {E : Type} : Store E := ⟨[], []⟩

variable {E : Type}

/-- The elements of a tile. -/
def Store.tile (s : Store E) (q : QuadKey) : List E := (s.elements.find q).getD []

/-- InMemoryElementStore.cpp:116-122 `store` -/
def save (tokens : E → List UInt32) (s : Store E) (q : QuadKey) (e : E) : Outcome (Store E) :=
  let els := s.tile q
  match BitmapIndex.add ((s.bitmaps.find q).getD []) (tokens e) els.length with
  | none => .ub "EWAH set"
  | some bm => .ok ⟨s.elements.set q (els ++ [e]), s.bitmaps.set q bm⟩

/-- InMemoryElementStore.cpp:98-110; `cancelAfter = some n`: the token is cancelled at its check before element `n`. -/
def searchTile (s : Store E) (q : QuadKey) (cancelAfter : Option Nat) : List E :=
  match s.elements.find q with
  | none => []
  | some els => match cancelAfter with
    | none => els
    | some n => els.take n

/-- InMemoryElementStore.cpp:112-114 -/
def hasData (s : Store E) (q : QuadKey) : Bool := (s.elements.find q).isSome

/-- InMemoryElementStore.cpp:58-66 `notify` for every order. -/
def fetch (els : List E) : List Nat → Outcome (List E)
  | [] => .ok []
  | o :: os => match els[o]? with
    | none => .throw "out_of_range"
    | some e => (fetch els os).bind fun r => .ok (e :: r)

/-- BitmapIndex.cpp:48-75 for one tile. (`bitmaps_[quadKey]` inserts an empty bitmap for a tile without one; this is not
visible and not modelled.) -/
def searchTextTile (s : Store E) (terms : Terms) (q : QuadKey) : Outcome (List E) :=
  if hasData s q then
    match BitmapIndex.search ((s.bitmaps.find q).getD []) terms with
    | none => .ub "EWAH"
    | some os => fetch (s.tile q) os
  else .ok []

/-- InMemoryElementStore.cpp:89-96 with the loops of BitmapIndex.cpp:45-47. -/
def searchText (s : Store E) (terms : Terms) (hit : E → Bool) : List QuadKey → Outcome (List E)
  | [] => .ok []
  | q :: qs => (searchTextTile s terms q).bind fun a => (searchText s terms hit qs).bind fun b => .ok (a.filter hit ++ b)

/-- InMemoryElementStore.cpp:124-127 `erase(quadKey)` -/
def erase (s : Store E) (q : QuadKey) : Store E := ⟨s.elements.erase q, s.bitmaps.erase q⟩

/-- InMemoryElementStore.cpp:129-131 -/
def eraseRange (_ : Store E) : Outcome (Store E) := .throw "domain_error"

/-- The calls of the store. -/
inductive Op (E : Type)
  | save (q : QuadKey) (e : E)
  | tile (q : QuadKey) (cancelAfter : Option Nat)
  | text (terms : Terms) (hit : E → Bool) (tiles : List QuadKey)
  | hasData (q : QuadKey)
  | erase (q : QuadKey)

/-- What the caller sees. -/
inductive Out (E : Type)
  | done
  | elements (l : List E)
  | flag (b : Bool)
  | failed (o : Outcome Unit)

def Outcome.forget {α : Type} : Outcome α → Outcome Unit
  | .ok _ => .ok ()
  | .throw e => .throw e
  | .ub w => .ub w

def step (tokens : E → List UInt32) (s : Store E) : Op E → Store E × Out E
  | .save q e => match save tokens s q e with
    | .ok s' => (s', .done)
    | o => (s, .failed (Outcome.forget o))
  | .tile q c => (s, .elements (searchTile s q c))
  | .text t h qs => match searchText s t h qs with
    | .ok l => (s, .elements l)
    | o => (s, .failed (Outcome.forget o))
  | .hasData q => (s, .flag (hasData s q))
  | .erase q => (erase s q, .done)

def run (tokens : E → List UInt32) (s : Store E) : List (Op E) → Store E × List (Out E)
  | [] => (s, [])
  | op :: ops =>
    let r := step tokens s op
    let rest := run tokens r.1 ops
    (rest.1, r.2 :: rest.2)

end Verif.MemStore
