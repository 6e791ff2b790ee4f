import Verif.Model.Multipolygon
import Verif.Model.Building

/-! # Resolving the relations of an OSM file, with tags and geometry

Models formats/osm/OsmDataVisitor.cpp:58-127, utils/ElementUtils.hpp:99-123, formats/osm/RelationProcessor.hpp, formats/osm/BuildingProcessor.hpp and
formats/osm/MultipolygonProcessor.cpp:90-149, 280-291 on elements with tags and coordinates. `Verif.OsmRelations` is about the recursion alone, and for any data.

Simplifications: elements are shared by pointers; what can change after all elements are visited, the tags of elements and the members of relations, is kept in tables by the
map and the id of the element. The depth of the stack is a parameter, recursion which is deeper is undefined. The token is not cancelled. Numbers are exact. -/
namespace Verif.Resolve
open Verif.Osm (Context geoEq isClockwise mergeTags)
open Verif.Multipolygon (NewArea Found)
open Verif.Building (hasTag)

variable {K : Type} [Field K] [LinearOrder K]

/-- formats/FormatTypes.hpp:34-38 -/
structure Member where
  type : String
  refId : UInt64
  role : String
deriving DecidableEq

/-- What resolving uses: the precision of coordinates, the string table, `std::sort`, whether a ring is inside of another (MultipolygonProcessor.cpp:63-67), and what is found where
an id is not set (MultipolygonProcessor.cpp:166, 260). -/
structure Env (K : Type) where
  eps : K
  getId : String → UInt32
  sort : List Tag → List Tag
  contains : List (Geo K) → List (Geo K) → Bool
  unset : List (Geo K) → UInt64

/-- The maps when all elements are visited: formats/osm/OsmDataContext.hpp:13-23, and relations with their own tags and members, OsmDataVisitor.cpp:58-67. -/
structure Data (K : Type) where
  ctx : Context K
  relations : Assoc UInt64 (List Tag × List Member)

/-- An element of one of the maps. -/
inductive Key
  | node (id : UInt64)
  | way (id : UInt64)
  | area (id : UInt64)
  | relation (id : UInt64)
deriving DecidableEq

/-- A shared pointer: to an element of a map, or to a new area of a multipolygon. -/
inductive Ref (K : Type)
  | old (k : Key)
  | new (a : NewArea (Geo K))

def Key.id : Key → UInt64
  | .node i | .way i | .area i | .relation i => i

/-- `element->id` -/
def Ref.id (env : Env K) : Ref K → UInt64
  | .old k => k.id
  | .new a => a.id.getD (env.unset a.coordinates)

/-- `relation.elements` of every relation and `element.tags` of every element. -/
structure State (K : Type) where
  elements : UInt64 → List (Ref K)
  tags : Key → List Tag

/-- The tags of an element as it was visited. -/
def Data.tags (d : Data K) : Key → List Tag
  | .node i => ((d.ctx.nodeMap.find i).map (·.tags)).getD []
  | .way i => ((d.ctx.wayMap.find i).map (·.tags)).getD []
  | .area i => ((d.ctx.areaMap.find i).map (·.tags)).getD []
  | .relation i => ((d.relations.find i).map (·.1)).getD []

/-- When all elements are visited, relations have no members, OsmDataVisitor.cpp:59-66. -/
def start (d : Data K) : State K := ⟨fun _ => [], d.tags⟩

/-- `relation_.elements.push_back` -/
def push (s : State K) (id : UInt64) (r : Ref K) : State K := { s with elements := fun j => if j = id then s.elements j ++ [r] else s.elements j }

/-- The tag of BuildingProcessor.hpp:55 -/
def marker : Tag := ⟨0xFFFFFFFF, 0⟩

/-- BuildingProcessor.hpp:55 -/
def mark (s : State K) (k : Key) : State K := { s with tags := fun j => if j = k then s.tags j ++ [marker] else s.tags j }

/-- The tags of one element are replaced. -/
def setTags (s : State K) (k : Key) (tags : List Tag) : State K := { s with tags := fun j => if j = k then tags else s.tags j }

/-- The new members of a relation are added. -/
def append (s : State K) (id : UInt64) (l : List (Ref K)) : State K := { s with elements := fun j => if j = id then s.elements j ++ l else s.elements j }

/-- utils/ElementUtils.hpp:103-121: what a member stands for, if it is there. -/
def lookup (d : Data K) (m : Member) : Option Key :=
  if m.type = "n" then if (d.ctx.nodeMap.find m.refId).isSome then some (.node m.refId) else none
  else if m.type = "w" then
    if (d.ctx.areaMap.find m.refId).isSome then some (.area m.refId)
    else if (d.ctx.wayMap.find m.refId).isSome then some (.way m.refId) else none
  else if (d.relations.find m.refId).isSome then some (.relation m.refId) else none

/-- RelationProcessor.hpp:56-63 -/
def alreadyProcessed (env : Env K) (l : List (Ref K)) (id : UInt64) : Bool := l.any fun e => e.id env == id

/-- RelationProcessor.hpp:68-78 -/
def hasReferenceToParent (d : Data K) (parent id : UInt64) : Bool :=
  match d.relations.find id with
  | some (_, members) => members.any fun m => m.refId == parent
  | none => false

/-- RelationProcessor.hpp:31-52 for one member. -/
def visitPlain (env : Env K) (d : Data K) (resolve : State K → UInt64 → Outcome (State K)) (parent : UInt64) (s : State K) (m : Member) : Outcome (State K) :=
  match lookup d m with
  | none => .ok s
  | some (.relation r) =>
    if alreadyProcessed env (s.elements parent) r || hasReferenceToParent d parent r then .ok s
    else (resolve s r).bind fun s => .ok (push s parent (.old (.relation r)))
  | some k => if alreadyProcessed env (s.elements parent) k.id then .ok s else .ok (push s parent (.old k))

/-- BuildingProcessor.hpp:49-56 -/
def addToRelation (parent : UInt64) (role : String) (s : State K) (k : Key) : State K := mark (if role = "outline" then s else push s parent (.old k)) k

/-- BuildingProcessor.hpp:30-45 for one member. -/
def visitBuilding (d : Data K) (resolve : State K → UInt64 → Outcome (State K)) (parent : UInt64) (s : State K) (m : Member) : Outcome (State K) :=
  match lookup d m with
  | none => .ok s
  | some (.relation r) => (resolve s r).bind fun s => .ok (addToRelation parent m.role s (.relation r))
  | some k => .ok (addToRelation parent m.role s k)

/-- Repeats a step for all members in order, utils/ElementUtils.hpp:103 -/
def foldMembers (f : State K → Member → Outcome (State K)) : List Member → State K → Outcome (State K)
  | [], s => .ok s
  | m :: ms, s => (f s m).bind (foldMembers f ms)

/-- MultipolygonProcessor.cpp:102-122: what is found for a member of type "w". -/
def found (d : Data K) (id : UInt64) : Found (Geo K) :=
  match d.ctx.wayMap.find id with
  | some w => .way w.coordinates
  | none => match d.ctx.areaMap.find id with
    | some a => .area a.coordinates
    | none => if (d.relations.find id).isSome then .relation else .missing

/-- MultipolygonProcessor.cpp:97-126: what the loop does to other elements and to the tags of the relation; it ends if a member is missing (120-122). -/
def visitRings (env : Env K) (d : Data K) (resolve : State K → UInt64 → Outcome (State K)) (id : UInt64) (hasNoTags : Bool) :
    List Member → State K → Outcome (State K)
  | [], s => .ok s
  | m :: ms, s =>
    if m.type = "w" then
      match found d m.refId with
      | .way _ => visitRings env d resolve id hasNoTags ms s
      | .area _ =>
        if m.role = "outer" ∧ hasNoTags = true then
          visitRings env d resolve id hasNoTags ms (setTags s (.relation id) (mergeTags env.sort (s.tags (.relation id)) (s.tags (.area m.refId))))
        else visitRings env d resolve id hasNoTags ms s
      | .relation => (resolve s m.refId).bind (visitRings env d resolve id hasNoTags ms)
      | .missing => .ok s
    else visitRings env d resolve id hasNoTags ms s

/-- The members of type "w" with what is found for them, MultipolygonProcessor.cpp:97-126 -/
def rings (d : Data K) (ms : List Member) : List (Multipolygon.Member (Geo K)) :=
  (ms.filter fun m => decide (m.type = "w")).map fun m => ⟨m.refId, m.role, found d m.refId⟩

/-- MultipolygonProcessor.cpp:90-149 -/
def visitMultipolygon (env : Env K) (d : Data K) (resolve : State K → UInt64 → Outcome (State K)) (id : UInt64) (ms : List Member) (s : State K) : Outcome (State K) :=
  (visitRings env d resolve id (decide ((s.tags (.relation id)).length < 2)) ms s).bind fun s =>
    (Multipolygon.process (geoEq env.eps) isClockwise env.contains (rings d ms)).bind fun areas =>
      .ok (append s id (areas.map .new))

/-- OsmDataVisitor.cpp:74-97; the first argument is what is left of the stack. -/
def resolve (env : Env K) (d : Data K) : Nat → State K → UInt64 → Outcome (State K)
  | 0, _, _ => .ub "stack overflow"
  | n + 1, s, id =>
    match d.relations.find id with
    | none => .ub "end of the map"
    | some (_, members) =>
      if (s.elements id).length = members.length then .ok s
      else if hasTag (env.getId "type") (env.getId "multipolygon") (s.tags (.relation id)) then visitMultipolygon env d (resolve env d n) id members s
      else if hasTag (env.getId "type") (env.getId "building") (s.tags (.relation id)) then foldMembers (visitBuilding d (resolve env d n) id) members s
      else foldMembers (visitPlain env d (resolve env d n) id) members s

/-- OsmDataVisitor.cpp:103-108: resolves the relations in the order of the hash map, which is any order `ids`. -/
def resolveAll (env : Env K) (d : Data K) (n : Nat) : List UInt64 → State K → Outcome (State K)
  | [], s => .ok s
  | id :: ids, s => (resolve env d n s id).bind (resolveAll env d n ids)

/-- A function for every element of a list. -/
def each {A B : Type} (f : A → Outcome B) : List A → Outcome (List B)
  | [] => .ok []
  | a :: as => (f a).bind fun b => (each f as).bind fun bs => .ok (b :: bs)

/-- An element with all elements it refers to; every user of it follows the pointers, the first argument is what is left of the stack. -/
def element (env : Env K) (d : Data K) (s : State K) : Nat → Ref K → Outcome (Element (Geo K))
  | _, .new a => .ok (.area (Ref.id env (.new a)) [] a.coordinates)
  | _, .old (.node i) => match d.ctx.nodeMap.find i with
    | none => .ub "not reached"
    | some x => .ok (.node i (s.tags (.node i)) x.coordinate)
  | _, .old (.way i) => match d.ctx.wayMap.find i with
    | none => .ub "not reached"
    | some x => .ok (.way i (s.tags (.way i)) x.coordinates)
  | _, .old (.area i) => match d.ctx.areaMap.find i with
    | none => .ub "not reached"
    | some x => .ok (.area i (s.tags (.area i)) x.coordinates)
  | 0, .old (.relation _) => .ub "stack overflow"
  | n + 1, .old (.relation i) => (each (element env d s n) (s.elements i)).bind fun es => .ok (.relation i (s.tags (.relation i)) es)

/-- The elements in the order of OsmDataVisitor.cpp:110-124; the order within a map is that of the hash map, here any. -/
def keys (d : Data K) : List Key :=
  d.relations.map (fun r => .relation r.1) ++ d.ctx.nodeMap.map (fun n => .node n.1) ++ d.ctx.wayMap.map (fun w => .way w.1) ++ d.ctx.areaMap.map fun a => .area a.1

/-- OsmDataVisitor.cpp:99-127: everything which is handed on when all elements are visited; `ids` are the ids of the relations in the order of the hash map. -/
def complete (env : Env K) (d : Data K) (n : Nat) (ids : List UInt64) : Outcome (List (Element (Geo K))) :=
  (resolveAll env d n ids (start d)).bind fun s => each (fun k => element env d s n (.old k)) (keys d)

end Verif.Resolve
