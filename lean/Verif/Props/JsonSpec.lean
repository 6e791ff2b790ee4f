import Verif.Model.Json
import Mathlib.Data.List.Forall2

/-! # Specification of GeoJSON documents -/
namespace Verif.JsonSpec
open Verif.Json

variable {D : Type}

/-- The geometry of a feature; positions are (longitude, latitude) as in the file. -/
inductive Geometry (D : Type) where
  | point (p : D × D)
  | line (ps : List (D × D))
  | polygon (rings : List (List (D × D)))
  | multiLine (lines : List (List (D × D)))
  | multiPolygon (polygons : List (List (List (D × D))))

structure Feature (D : Type) where
  geometry : Geometry D
  properties : List (String × String)

/-- The value of a key: the first entry with it. -/
inductive Has : Tree → String → Tree → Prop
  | mk (d before key value after) (h : ∀ c ∈ before, Prod.fst c ≠ key) : Has (.mk d (before ++ (key, value) :: after)) key value

/-- A JSON array. -/
def IsArray {α : Type} (item : Tree → α → Prop) (t : Tree) (xs : List α) : Prop :=
  List.Forall₂ (fun c x => item c.2 x) t.children xs

/-- A JSON number. -/
def IsNumber (toDouble : String → Option D) (t : Tree) (d : D) : Prop := toDouble t.data = some d

/-- A position: longitude and latitude. -/
def IsPosition (toDouble : String → Option D) (t : Tree) (p : D × D) : Prop := IsArray (IsNumber toDouble) t [p.1, p.2]

def IsGeometry (toDouble : String → Option D) (type : String) (t : Tree) : Geometry D → Prop
  | .point p => type = "Point" ∧ IsPosition toDouble t p
  | .line ps => type = "LineString" ∧ IsArray (IsPosition toDouble) t ps
  | .polygon rings => type = "Polygon" ∧ IsArray (IsArray (IsPosition toDouble)) t rings
  | .multiLine lines => type = "MultiLineString" ∧ IsArray (IsArray (IsPosition toDouble)) t lines
  | .multiPolygon ps => type = "MultiPolygon" ∧ IsArray (IsArray (IsArray (IsPosition toDouble))) t ps

/-- The tree of a feature, with any further entries. -/
structure IsFeature (toDouble : String → Option D) (t : Tree) (f : Feature D) : Prop where
  geometry : ∃ g, Has t "geometry" g ∧ ∃ ty c, Has g "type" ty ∧ Has g "coordinates" c ∧ IsGeometry toDouble ty.data c f.geometry
  properties : ∃ p, Has t "properties" p ∧ p.children.map (fun c => (c.1, c.2.data)) = f.properties

/-- What an element delivered for a ring or line is: an area if the ring is closed, a way otherwise, with the positions as (latitude, longitude).
The parser delivers them from the last to the first. -/
inductive Piece (same : D × D → D × D → Bool) (id : UInt64) (tags : List Tag) (ps : List (D × D)) : Element (D × D) → Prop
  | area (first mid last) (h : ps.reverse.map Prod.swap = first :: mid ++ [last]) (hs : same first last = true) (hl : 4 ≤ ps.length) :
    Piece same id tags ps (.area id tags (ps.reverse.map Prod.swap))
  | open (first mid last) (h : ps.reverse.map Prod.swap = first :: mid ++ [last]) (hs : same first last = false) :
    Piece same id tags ps (.way id tags (ps.reverse.map Prod.swap))
  | short (hl : ps.length < 4) : Piece same id tags ps (.way id tags (ps.reverse.map Prod.swap))

/-- The element of rings or lines: the single one, or a relation of all. -/
inductive Group (same : D × D → D × D → Bool) (id : UInt64) (tags : List Tag) : List (List (D × D)) → Element (D × D) → Prop
  | single (ps e) (h : Piece same id tags ps e) : Group same id tags [ps] e
  | several (rings members) (h : rings.length ≠ 1) (hm : List.Forall₂ (Piece same 0 []) rings members) : Group same id tags rings (.relation id tags members)

/-- The element of a feature. -/
inductive Delivered (same : D × D → D × D → Bool) (id : UInt64) (tags : List Tag) : Geometry D → Element (D × D) → Prop
  | point (p) : Delivered same id tags (.point p) (.node id tags (p.2, p.1))
  | line (ps) : Delivered same id tags (.line ps) (.way id tags (ps.reverse.map Prod.swap))
  | polygon (rings e) (h : Group same id tags rings e) : Delivered same id tags (.polygon rings) e
  | multiLine (lines e) (h : Group same id tags lines e) : Delivered same id tags (.multiLine lines) e
  | multiPolygon (polygons members) (h : List.Forall₂ (Group same 0 []) polygons members) : Delivered same id tags (.multiPolygon polygons) (.relation id tags members)

/-- The tags of a feature of a collection: its properties without the id, and the name of the collection, sorted by key. -/
def TagsOf (getId : String → UInt32) (collection : String) (properties : List (String × String)) (tags : List Tag) : Prop :=
  tags.Perm (((properties.filter fun p => p.1 ≠ "id") ++ [("feature", collection)]).map fun p => ⟨getId p.1, getId p.2⟩) ∧
  tags.Pairwise fun a b => a.key ≤ b.key

/-- The id of a feature: the number in its property `id` without sign; 0 without such a property. -/
def IdOf (toId : List Char → Option UInt64) (properties : List (String × String)) (id : UInt64) : Prop :=
  (∀ p ∈ properties, p.1 ≠ "id") ∧ id = 0 ∨
  ∃ before value after digits, properties = before ++ ("id", value) :: after ∧ (∀ p ∈ before ++ after, p.1 ≠ "id") ∧
    digits ≠ [] ∧ digits.head? ≠ some '-' ∧ (value.toList = digits ∨ value.toList = '-' :: digits) ∧ toId digits = some id

/-- The tree of a document: collections of features by name. -/
def IsDocument (toDouble : String → Option D) (t : Tree) (collections : List (String × List (Feature D))) : Prop :=
  List.Forall₂ (fun c x => c.1 = x.1 ∧ ∃ fs, Has c.2 "features" fs ∧ IsArray (IsFeature toDouble) fs x.2) t.children collections

/-- Names which are no paths. -/
def Plain (name : String) : Prop := name.toList ≠ [] ∧ '.' ∉ name.toList

end Verif.JsonSpec
