import Verif.Model.Element

/-!
# `core/src/builders/QuadKeyBuilder.cpp`

Style provider and builders are parameters: a style is represented by whether it has declarations and by the sorted list of its builders
without repetition (`std::set`, mapcss/Style.hpp:82-91); of builders the calls they get are recorded. Builders do not throw here.
-/
namespace Verif.QuadKeyBuilder

variable {C : Type}

abbrev Name := List Char

/-- What a style says about building (mapcss/Style.hpp:50-60, 82-91). -/
structure StyleInfo where
  empty : Bool
  builders : List Name
deriving DecidableEq, Repr

/-- Calls of builders. -/
inductive Event (C : Type)
  | prepare (b : Name)
  | visit (b : Name) (e : Element C)
  | complete (b : Name)

/-- QuadKeyBuilder.cpp:89-92: `ids_` and the names in `builders_`; `trace` are the calls so far. -/
structure State (C : Type) where
  ids : List UInt64
  builders : List Name
  trace : List (Event C)

def init : State C := ⟨[], [], []⟩

/-- QuadKeyBuilder.cpp:73-87, and the call of the builder in line 63. -/
def useBuilder (s : State C) (e : Element C) (b : Name) : State C :=
  if b ∈ s.builders then { s with trace := s.trace ++ [.visit b e] }
  else { s with builders := s.builders ++ [b], trace := s.trace ++ [.prepare b, .visit b e] }

/-- QuadKeyBuilder.cpp:68-71 -/
def canBuild (s : State C) (e : Element C) (style : StyleInfo) : Bool :=
  !style.empty && (e.id == 0 || !(s.ids.contains e.id))

/-- QuadKeyBuilder.cpp:55-66 -/
def visitElement (style : Element C → StyleInfo) (s : State C) (e : Element C) : State C :=
  if canBuild s e (style e) then
    (style e).builders.foldl (fun s b => useBuilder s e b) { s with ids := e.id :: s.ids }
  else s

/-- QuadKeyBuilder.cpp:25-45 -/
def visit (style : Element C → StyleInfo) (s : State C) (e : Element C) : State C :=
  match e with
  | .relation id [] members => members.foldl (visitElement style) { s with ids := id :: s.ids }
  | e => visitElement style s e

/-- QuadKeyBuilder.cpp:47-51; the order is that of the hash map. -/
def complete (order : List Name → List Name) (s : State C) : State C :=
  { s with trace := s.trace ++ (order s.builders).map .complete }

/-- QuadKeyBuilder.cpp:108-120: `found` is what `GeoStore::search` delivers. -/
def build (style : Element C → StyleInfo) (order : List Name → List Name) (found : List (Element C)) : List (Event C) :=
  (complete order (found.foldl (visit style) init)).trace

end Verif.QuadKeyBuilder
