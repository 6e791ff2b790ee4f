import Verif.Model.Basic
import Verif.Model.Element
import Verif.Model.Strings

/-! # GeoJSON

Models formats/osm/json/OsmJsonParser.hpp for the property tree which was read by boost. Reading JSON text, conversion of text to numbers (`toDouble`,
`toId`) and the string table (`getId`, see `Verif.StringTable`) are parameters. Coordinates are pairs (latitude, longitude). Elements which were
delivered before an exception are not represented. -/
namespace Verif.Json

/-- `boost::property_tree::ptree`: the data and the children, in order; entries of arrays have empty keys. -/
inductive Tree where
  | mk (data : String) (children : List (String × Tree))

namespace Tree

def data : Tree → String
  | mk d _ => d

def children : Tree → List (String × Tree)
  | mk _ c => c

/-- A value without children. -/
def leaf (d : String) : Tree := mk d []

/-- The first child with this key. -/
def child (t : Tree) (key : String) : Outcome Tree :=
  match t.children.find? fun c => c.1 = key with
  | some c => .ok c.2
  | none => .throw "ptree_bad_path"

/-- `get_child` along the keys of a path -/
def path (t : Tree) : List String → Outcome Tree
  | [] => .ok t
  | k :: ks => (t.child k).bind fun c => c.path ks

end Tree

/-- The keys of a boost path: the text is split at dots; an empty path is the tree itself. -/
def segments (text : String) : List String :=
  if text.toList = [] then [] else (Strings.splitBy '.' text.toList).map String.ofList

/-- What the parser uses of other parts. `sort` is `std::sort` of tags by key, `same` is `operator==` of coordinates. -/
structure Tools (D : Type) where
  getId : String → UInt32
  toDouble : String → Option D
  toId : List Char → Option UInt64
  sort : List Tag → List Tag
  same : D × D → D × D → Bool

variable {D : Type} (T : Tools D)

/-- OsmJsonParser.hpp:196-205 -/
def parseId (value : List Char) : Outcome UInt64 :=
  match value with
  | [] => .ok 0
  | c :: rest =>
    match T.toId (if c = '-' then rest else value) with
    | some i => .ok i
    | none => .throw "bad_lexical_cast"

/-- OsmJsonParser.hpp:182-188: the loop over the properties, from id and tags so far -/
def propertyLoop : UInt64 → List Tag → List (String × Tree) → Outcome (UInt64 × List Tag)
  | id, tags, [] => .ok (id, tags)
  | id, tags, (name, value) :: rest =>
    if T.getId name = T.getId "id" then (parseId T value.data.toList).bind fun id => propertyLoop id tags rest
    else propertyLoop id (tags ++ [⟨T.getId name, T.getId value.data⟩]) rest

/-- OsmJsonParser.hpp:180-194 for an element without tags -/
def parseProperties (featureId : UInt32) (properties : Tree) : Outcome (UInt64 × List Tag) :=
  (propertyLoop T 0 [] properties.children).bind fun (id, tags) => .ok (id, T.sort (tags ++ [⟨T.getId "feature", featureId⟩]))

/-- `get_value<double>` -/
def number (t : Tree) : Outcome D :=
  match T.toDouble t.data with
  | some d => .ok d
  | none => .throw "ptree_bad_data"

/-- OsmJsonParser.hpp:170-178 -/
def parseCoordinate (t : Tree) : Outcome (D × D) :=
  match t.children with
  | [a, b] => (number T a.2).bind fun longitude => (number T b.2).bind fun latitude => .ok (latitude, longitude)
  | _ => .throw "invalid_argument"

/-- A loop over children which stops at an exception. -/
def each {α : Type} (f : Tree → Outcome α) : List (String × Tree) → Outcome (List α)
  | [] => .ok []
  | c :: cs => (f c.2).bind fun a => (each f cs).bind fun rest => .ok (a :: rest)

/-- OsmJsonParser.hpp:159-168 -/
def parseCoordinates (t : Tree) : Outcome (List (D × D)) := (each (parseCoordinate T) t.children).bind fun cs => .ok cs.reverse

/-- OsmJsonParser.hpp:142-145, 151-156: the element of a ring or line -/
def ringElement (cs : List (D × D)) : Element (D × D) :=
  match cs.head?, cs.getLast? with
  | some first, some last => if cs.length > 3 ∧ T.same first last = true then .area 0 [] cs else .way 0 [] cs
  | _, _ => .way 0 [] cs

/-- OsmJsonParser.hpp:137-148: the members of the relation -/
def parseRelation (geometry : Tree) : Outcome (List (Element (D × D))) :=
  each (fun t => (parseCoordinates T t).bind fun cs => .ok (ringElement T cs)) geometry.children

/-- OsmJsonParser.hpp:127-133: a single member gets the properties itself -/
def foldFeature (id : UInt64) (tags : List Tag) : List (Element (D × D)) → Element (D × D)
  | [e] => (e.withId id).withTags tags
  | elements => .relation id tags elements

/-- OsmJsonParser.hpp:23-41, 86-92 -/
def foldChild : List (Element (D × D)) → Element (D × D)
  | [e] => e
  | elements => .relation 0 [] elements

/-- OsmJsonParser.hpp:98-105, 125-134 -/
def processSimpleRelation (featureId : UInt32) (feature : Tree) : Outcome (Element (D × D)) :=
  (feature.path ["geometry", "coordinates"]).bind fun coordinates =>
    (parseRelation T coordinates).bind fun elements =>
      (feature.path ["properties"]).bind fun properties =>
        (parseProperties T featureId properties).bind fun (id, tags) =>
          .ok (foldFeature id tags elements)

/-- OsmJsonParser.hpp:81-95 -/
def parseMultiPolygon (featureId : UInt32) (feature : Tree) : Outcome (Element (D × D)) :=
  (feature.path ["properties"]).bind fun properties =>
    (parseProperties T featureId properties).bind fun (id, tags) =>
      (feature.path ["geometry", "coordinates"]).bind fun coordinates =>
        (each (parseRelation T) coordinates.children).bind fun children =>
          .ok (.relation id tags (children.map foldChild))

/-- OsmJsonParser.hpp:108-113 -/
def parseLineString (featureId : UInt32) (feature : Tree) : Outcome (Element (D × D)) :=
  (feature.path ["properties"]).bind fun properties =>
    (parseProperties T featureId properties).bind fun (id, tags) =>
      (feature.path ["geometry", "coordinates"]).bind fun coordinates =>
        (parseCoordinates T coordinates).bind fun cs => .ok (.way id tags cs)

/-- OsmJsonParser.hpp:116-121 -/
def parsePoint (featureId : UInt32) (feature : Tree) : Outcome (Element (D × D)) :=
  (feature.path ["properties"]).bind fun properties =>
    (parseProperties T featureId properties).bind fun (id, tags) =>
      (feature.path ["geometry", "coordinates"]).bind fun coordinates =>
        (parseCoordinate T coordinates).bind fun c => .ok (.node id tags c)

/-- OsmJsonParser.hpp:61-73 -/
def parseFeature (featureId : UInt32) (feature : Tree) : Outcome (Element (D × D)) :=
  (feature.path ["geometry", "type"]).bind fun type =>
    if type.data = "Point" then parsePoint T featureId feature
    else if type.data = "LineString" then parseLineString T featureId feature
    else if type.data = "Polygon" then processSimpleRelation T featureId feature
    else if type.data = "MultiLineString" then processSimpleRelation T featureId feature
    else if type.data = "MultiPolygon" then parseMultiPolygon T featureId feature
    else .throw "invalid_argument"

/-- OsmJsonParser.hpp:57-75: the loop over the named collections of the document `t` -/
def parseCollections (t : Tree) : List (String × Tree) → Outcome (List (Element (D × D)))
  | [] => .ok []
  | (name, _) :: rest =>
    (t.path (segments name)).bind fun collection =>
      (collection.path ["features"]).bind fun features =>
        (each (parseFeature T (T.getId name)) features.children).bind fun elements =>
          (parseCollections t rest).bind fun others => .ok (elements ++ others)

/-- OsmJsonParser.hpp:52-76 -/
def parse (t : Tree) : Outcome (List (Element (D × D))) := parseCollections T t t.children

end Verif.Json
