import Mathlib.Logic.Relation

/-! # Resolution of OSM relations

Models formats/osm/OsmDataVisitor.cpp:58-104, utils/ElementUtils.hpp:99-123, formats/osm/RelationProcessor.hpp,
formats/osm/BuildingProcessor.hpp and the part of formats/osm/MultipolygonProcessor.cpp which resolves other relations.

Simplifications: elements are references by kind and id; the areas a multipolygon produces are a parameter (`polygons`, see
`Verif.Multipolygon` for them); tags are left out, so the kind of a relation does not change while relations are resolved; the token is not
cancelled. Recursion is indexed by its depth: `none` stands for a recursion deeper than the given number, so code which recurses for ever
(and overflows the stack) gives `none` for every number. -/
namespace Verif.OsmRelations

/-- `RelationMember::type`, formats/FormatTypes.hpp; `other` is any string besides "n" and "w", ElementUtils.hpp:104-120. -/
inductive MemberType | n | w | other
deriving DecidableEq

/-- formats/FormatTypes.hpp, `RelationMember`; of the role only whether it is "outline" matters here. -/
structure Member where
  type : MemberType
  refId : UInt64
  outline : Bool := false
deriving DecidableEq

/-- The branch taken by OsmDataVisitor.cpp:90-96. -/
inductive Kind | multipolygon | building | plain
deriving DecidableEq

/-- A shared pointer to an element: which map of formats/osm/OsmDataContext.hpp:13-23 it comes from and its id, or a new area of a
multipolygon. -/
inductive Ref
  | node (id : UInt64)
  | way (id : UInt64)
  | area (id : UInt64)
  | relation (id : UInt64)
  | polygon (id : UInt64)
deriving DecidableEq

/-- `element->id` -/
def Ref.id : Ref → UInt64
  | .node i | .way i | .area i | .relation i | .polygon i => i

/-- The maps of the context when all elements are visited; relations with their members, OsmDataVisitor.cpp:58-67. -/
structure Data where
  node : UInt64 → Bool
  way : UInt64 → Bool
  area : UInt64 → Bool
  relation : UInt64 → Option (Kind × List Member)
  polygons : UInt64 → List Ref

/-- `relation.elements` of every relation. -/
abbrev State := UInt64 → List Ref

/-- `relation_.elements.push_back` -/
def push (s : State) (id : UInt64) (r : Ref) : State := fun j => if j = id then s j ++ [r] else s j

/-- utils/ElementUtils.hpp:103-121: what a member stands for, if it is present. -/
def lookup (d : Data) (m : Member) : Option Ref :=
  match m.type with
  | .n => if d.node m.refId then some (.node m.refId) else none
  | .w => if d.area m.refId then some (.area m.refId) else if d.way m.refId then some (.way m.refId) else none
  | .other => if (d.relation m.refId).isSome then some (.relation m.refId) else none

/-- RelationProcessor.hpp:56-63 -/
def alreadyProcessed (s : State) (parent id : UInt64) : Bool := (s parent).any fun e => e.id == id

/-- RelationProcessor.hpp:68-78 -/
def hasReferenceToParent (d : Data) (parent id : UInt64) : Bool :=
  match d.relation id with
  | some (_, members) => members.any fun m => m.refId == parent
  | none => false

/-- RelationProcessor.hpp:31-52 for one member. -/
def visitPlain (d : Data) (resolve : State → UInt64 → Option State) (parent : UInt64) (s : State) (m : Member) : Option State :=
  match lookup d m with
  | none => some s
  | some (.relation r) =>
    if alreadyProcessed s parent r || hasReferenceToParent d parent r then some s
    else (resolve s r).map fun s' => push s' parent (.relation r)
  | some e => if alreadyProcessed s parent e.id then some s else some (push s parent e)

/-- BuildingProcessor.hpp:30-56 for one member, without the tag. -/
def visitBuilding (d : Data) (resolve : State → UInt64 → Option State) (parent : UInt64) (s : State) (m : Member) : Option State :=
  match lookup d m with
  | none => some s
  | some (.relation r) => (resolve s r).map fun s' => if m.outline then s' else push s' parent (.relation r)
  | some e => some (if m.outline then s else push s parent e)

/-- Repeats a step which may fail for all members in order. -/
def foldMembers (f : State → Member → Option State) : List Member → State → Option State
  | [], s => some s
  | m :: ms, s => (f s m).bind (foldMembers f ms)

/-- MultipolygonProcessor.cpp:97-143: resolves relations named as ways; the flag tells whether the end is reached (it is not if a member is
missing, 119-120). -/
def visitMultipolygon (d : Data) (resolve : State → UInt64 → Option State) : List Member → State → Option (State × Bool)
  | [], s => some (s, true)
  | m :: ms, s =>
    if m.type = .w ∧ d.way m.refId = false ∧ d.area m.refId = false then
      if (d.relation m.refId).isNone then some (s, false)
      else (resolve s m.refId).bind (visitMultipolygon d resolve ms)
    else visitMultipolygon d resolve ms s

/-- OsmDataVisitor.cpp:80-97 -/
def resolve (d : Data) : Nat → State → UInt64 → Option State
  | 0, _, _ => none
  | n + 1, s, id =>
    match d.relation id with
    | none => some s
    | some (kind, members) =>
      if (s id).length = members.length then some s
      else match kind with
        | .multipolygon => (visitMultipolygon d (resolve d n) members s).map fun r =>
            if r.2 then fun j => if j = id then r.1 j ++ d.polygons id else r.1 j else r.1
        | .building => foldMembers (visitBuilding d (resolve d n) id) members s
        | .plain => foldMembers (visitPlain d (resolve d n) id) members s

/-- OsmDataVisitor.cpp:99-108: resolves the relations in the order of the hash map, which is any order `keys`. -/
def complete (d : Data) (n : Nat) : List UInt64 → State → Option State
  | [], s => some s
  | id :: ids, s => (resolve d n s id).bind (complete d n ids)

end Verif.OsmRelations
