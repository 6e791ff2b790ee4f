import Verif.Model.Basic
import Verif.Model.Element

/-! # Shape files

Models formats/shape/ShapeParser.hpp and formats/shape/ShapeDataVisitor.hpp for objects which were read by the shapefile library. -/
namespace Verif.Shape

/-- `SHPObject`: the vertices, the table of the first vertices of the parts and whether the parts are rings. The library has checked that the
entries of the table are less than the number of vertices and increase strictly (lib/shapefile/shpopen.c:1785-1809), and has set all part types of
polygons to rings (1776-1777). Coordinates are of any type `C`. -/
structure Object (C : Type) where
  vertices : List C
  partStart : List Nat
  isRing : List Bool

/-- formats/FormatTypes.hpp, `PolygonMember` -/
structure Member (C : Type) where
  isRing : Bool
  coordinates : List C
deriving DecidableEq

variable {C : Type}

/-- Reading `panPartStart[i]`, an array of `nParts` numbers. `beyond` is what is found in the memory behind the array: `none` if this read is taken
as what it is by the standard, undefined behaviour. -/
def readStart (o : Object C) (beyond : Option Nat) (i : Nat) : Outcome Nat :=
  match o.partStart[i]?, beyond with
  | some s, _ => .ok s
  | none, some s => .ok s
  | none, none => .ub "read behind the part table"

/-- ShapeParser.hpp:138-148: the start of a part, if one starts at vertex `i`: the members and `coordIndex`, `partNum` after it. -/
def startPart (o : Object C) (beyond : Option Nat) (i partNum coordIndex : Nat) (members : List (Member C)) :
    Outcome (List (Member C) × Nat × Nat) :=
  (readStart o beyond partNum).bind fun startIndex =>
    if partNum < o.partStart.length ∧ startIndex = i then
      match o.isRing[partNum]? with
      | none => .ub "index out of range"
      | some r =>
        if partNum < members.length + 1 then
          (if partNum = o.partStart.length - 1 then .ok o.vertices.length else readStart o beyond (partNum + 1)).bind fun endIndex =>
            if endIndex < startIndex then .throw "length_error"
            else .ok ((members ++ [Member.mk false []]).modify partNum (fun (m : Member C) => { m with isRing := r }), partNum, partNum + 1)
        else .ub "index out of range"
    else .ok (members, coordIndex, partNum)

/-- ShapeParser.hpp:136-150: the loop over the vertices, from index `i` on. -/
def polygonLoop (o : Object C) (beyond : Option Nat) : Nat → Nat → Nat → List (Member C) → List C → Outcome (List (Member C))
  | _, _, _, members, [] => .ok members
  | i, partNum, coordIndex, members, v :: rest =>
    (startPart o beyond i partNum coordIndex members).bind fun (members, coordIndex, partNum) =>
      if coordIndex < members.length then
        polygonLoop o beyond (i + 1) partNum coordIndex (members.modify coordIndex fun m => { m with coordinates := m.coordinates ++ [v] }) rest
      else .ub "index out of range"

/-- ShapeParser.hpp:132-152 -/
def polygonMembers (o : Object C) (beyond : Option Nat) : Outcome (List (Member C)) := polygonLoop o beyond 0 0 0 [] o.vertices

/-- ShapeDataVisitor.hpp:73-90: the element of a member. -/
def memberElement (m : Member C) : Element C :=
  match m.coordinates with
  | [c] => .node 0 [] c
  | cs => if m.isRing then .area 0 [] cs else .way 0 [] cs

/-- ShapeParser.hpp:132-152, ShapeDataVisitor.hpp:69-93; `tags` are the tags after `setTags`. -/
def visitPolygon (o : Object C) (beyond : Option Nat) (tags : List Tag) : Outcome (List (Element C)) :=
  (polygonMembers o beyond).bind fun members => .ok [.relation 0 tags (members.map memberElement)]

/-- ShapeParser.hpp:117-130, ShapeDataVisitor.hpp:51-67; `same` is `operator==` of coordinates. -/
def visitArc (same : C → C → Bool) (o : Object C) (tags : List Tag) : Outcome (List (Element C)) :=
  if o.partStart.length > 1 then .ok []
  else
    match o.vertices.head?, o.vertices.getLast? with
    | some first, some last => .ok [if same first last then .area 0 tags o.vertices else .way 0 tags o.vertices]
    | _, _ => .ub "index out of range"

/-- ShapeParser.hpp:112-115, ShapeDataVisitor.hpp:42-49 -/
def visitPoint (o : Object C) (tags : List Tag) : Outcome (List (Element C)) :=
  match o.vertices.head? with
  | some c => .ok [.node 0 tags c]
  | none => .ub "index out of range"

end Verif.Shape
