import Verif.Model.Json
import Verif.Model.Shape
import Verif.Model.Import
import Verif.Model.DiskImport

/-! # Importing GeoJSON and shape files

Models index/GeoStore.cpp:38-116 for the formats whose elements are stored while the file is read: OsmJsonParser.hpp:52-76 with OsmDataVisitor.cpp:69-72, and ShapeParser.hpp:23-110
with ShapeDataVisitor.hpp:42-104. In contrast to the formats of OSM, the visitor keeps nothing back until the end.

Simplifications: the token is not cancelled (C21). The JSON text was read by boost and the shape file is opened by the shapefile library. Numbers are exact. -/
namespace Verif.DirectImport
open Verif.Clipper (El)
open Verif.Import (Env Target collect)

/-- The elements which were handed on until the parser ended, and how it ended. -/
abbrev Told (E : Type) := List E × Outcome Unit

variable {E : Type}

/-- Going on if there was no error. -/
def Told.andThen (x : Told E) (f : Unit → Told E) : Told E :=
  match x.2 with
  | .ok _ => (x.1 ++ (f ()).1, (f ()).2)
  | .throw e => (x.1, .throw e)
  | .ub w => (x.1, .ub w)

/-- What comes after a step which hands nothing on. -/
def after {α : Type} (o : Outcome α) (f : α → Told E) : Told E :=
  match o with
  | .ok a => f a
  | .throw e => ([], .throw e)
  | .ub w => ([], .ub w)

/-- A loop which hands on what a step gives. -/
def each {α : Type} (f : α → Outcome (List E)) : List α → Told E
  | [] => ([], .ok ())
  | a :: as => after (f a) fun es => Told.andThen (es, .ok ()) fun _ => each f as

/-! ## GeoJSON -/

/-- OsmJsonParser.hpp:61-73: a feature of a collection is handed on as one element (94, 112, 120, 129, 132). -/
def featureTold {D : Type} (T : Json.Tools D) (featureId : UInt32) (c : String × Json.Tree) : Outcome (List (Element (D × D))) :=
  (Json.parseFeature T featureId c.2).bind fun e => .ok [e]

/-- OsmJsonParser.hpp:57-75: the loop over the named collections of the document `t` -/
def collections {D : Type} (T : Json.Tools D) (t : Json.Tree) : List (String × Json.Tree) → Told (Element (D × D))
  | [] => ([], .ok ())
  | (name, _) :: rest =>
    after (t.path (Json.segments name)) fun collection =>
      after (collection.path ["features"]) fun features =>
        Told.andThen (each (featureTold T (T.getId name)) features.children) fun _ => collections T t rest

/-- OsmJsonParser.hpp:52-76; `none` is a text which is no JSON, or a file which cannot be opened. -/
def jsonTold {D : Type} (T : Json.Tools D) : Option Json.Tree → Told (Element (D × D))
  | none => ([], .throw "json_parser_error")
  | some t => collections T t t.children

/-- OsmJsonParser.hpp:177: a coordinate. -/
def geo (c : ℝ × ℝ) : Geo ℝ := ⟨c.1, c.2⟩

/-- An element with coordinates of the stores. -/
def toEl (e : Element (ℝ × ℝ)) : El := DiskImport.mapCoords geo e

/-! ## Shape files -/

/-- shapefil.h:302-315 as far as ShapeParser.hpp:89-109 distinguishes: points, lines, polygons, and everything else. -/
inductive Kind
  | point
  | arc
  | polygon
  | other
deriving DecidableEq

/-- ShapeParser.hpp:89-109: `SHPT_*` by number, shapefil.h:302-315 -/
def kindOf (n : Nat) : Kind :=
  if n = 1 ∨ n = 21 ∨ n = 11 then .point
  else if n = 3 ∨ n = 13 ∨ n = 23 then .arc
  else if n = 5 ∨ n = 15 ∨ n = 25 then .polygon
  else .other

/-- `DBFFieldType` -/
inductive FieldType
  | string
  | integer
  | double
  | other
deriving DecidableEq

/-- An attribute of a record, as the functions `DBFRead...Attribute` give it; `toString` is `utymap::utils::toString`. -/
structure Cell where
  isNull : Bool
  string : String
  integer : String
  double : String

/-- A dbf table: the names (up to eleven characters, dbfopen.c:1218-1219) and types of the fields, and the rows. -/
structure Table where
  fields : List (String × FieldType)
  rows : List (List Cell)

/-- ShapeParser.hpp:73-81 -/
def cellText (t : FieldType) (c : Cell) : String :=
  match t with
  | .string => c.string
  | .integer => c.integer
  | .double => c.double
  | .other => ""

/-- ShapeParser.hpp:59-86 for a row with a cell for every field. -/
def parseTags : List (String × FieldType) → List Cell → List Osm.RawTag
  | (name, type) :: fields, c :: cells =>
    if c.isNull then parseTags fields cells else ⟨name, cellText type c⟩ :: parseTags fields cells
  | _, _ => []

/-- A record: the type and the object which the library has read, none if it cannot be read. -/
abbrev Record := Nat × Shape.Object (Geo ℝ)

/-- A shape file with its table, each none if it cannot be opened. -/
structure Files where
  shp : Option (List (Option Record))
  dbf : Option Table

/-- ShapeParser.hpp:88-110; `beyond` is what is found behind the part table, see `Shape.readStart`. -/
noncomputable def visitShape (env : Env) (beyond : Option Nat) (r : Record) (raw : List Osm.RawTag) : Outcome (List El) :=
  match kindOf r.1 with
  | .point => Shape.visitPoint r.2 (Osm.convertTags env.getId env.sort raw)
  | .arc => Shape.visitArc (Osm.geoEq env.eps) r.2 (Osm.convertTags env.getId env.sort raw)
  | .polygon => Shape.visitPolygon r.2 beyond (Osm.convertTags env.getId env.sort raw)
  | .other => .ok []

/-- ShapeParser.hpp:43-50: one record with its row. -/
noncomputable def visitRecord (env : Env) (beyond : Option Nat) (fields : List (String × FieldType)) (x : Option Record × List Cell) : Outcome (List El) :=
  match x.1 with
  | none => .throw "domain_error"
  | some r => visitShape env beyond r (parseTags fields x.2)

/-- ShapeParser.hpp:23-55 -/
noncomputable def shapeTold (env : Env) (beyond : Option Nat) (f : Files) : Told El :=
  match f.shp with
  | none => ([], .throw "domain_error")
  | some records =>
    match f.dbf with
    | none => ([], .throw "domain_error")
    | some table =>
      if table.fields = [] then ([], .throw "domain_error")
      else if records.length ≠ table.rows.length then ([], .throw "domain_error")
      else each (visitRecord env beyond table.fields) (records.zip table.rows)

/-! ## Storing -/

/-- GeoStore.cpp:38-79: an exception of the parser goes to the caller. -/
def finish (o : Outcome Unit) : GeoStore.Out El :=
  match o with
  | .ok _ => .done
  | .throw e => .failed (.throw e)
  | .ub w => .failed (.ub w)

/-- GeoStore.cpp:38-79 with OsmDataVisitor.cpp:69-72 or ShapeDataVisitor.hpp:102-104: every element is stored when it is handed on, so that after an error of the parser the elements
before it are stored. -/
noncomputable def importTold {K S Q : Type} [LinearOrder K] (I : GeoStore.Iface S El Q) (env : Env) (m : GeoStore.Map K S) (k : K) (target : Target) (told : Told El) :
    GeoStore.Map K S × GeoStore.Out El :=
  match collect env target told.1 with
  | .ok l =>
    match GeoStore.step I m (.addFile k (some l) .range false) with
    | (m', .done) => (m', finish told.2)
    | r => r
  | .throw e => (GeoStore.subscript k m, .failed (.throw e))
  | .ub w => (GeoStore.subscript k m, .failed (.ub w))

/-- GeoStore.cpp:107-113 -/
noncomputable def importJson {K S Q : Type} [LinearOrder K] (I : GeoStore.Iface S El Q) (T : Json.Tools ℝ) (env : Env) (m : GeoStore.Map K S) (k : K) (target : Target)
    (file : Option Json.Tree) : GeoStore.Map K S × GeoStore.Out El :=
  importTold I env m k target ((jsonTold T file).1.map toEl, (jsonTold T file).2)

/-- GeoStore.cpp:85-90 -/
noncomputable def importShape {K S Q : Type} [LinearOrder K] (I : GeoStore.Iface S El Q) (env : Env) (beyond : Option Nat) (m : GeoStore.Map K S) (k : K) (target : Target)
    (files : Files) : GeoStore.Map K S × GeoStore.Out El :=
  importTold I env m k target (shapeTold env beyond files)

end Verif.DirectImport
