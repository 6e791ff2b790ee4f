import Verif.Model.DirectImport
import Verif.Props.ShapeSpec
import Verif.Props.ImportSpec

/-! # Specification of importing shape files (C105)

What is found in a tile after a file was imported, told from the shapes and the rows of the table. -/
namespace Verif.ShapeImportSpec
open Verif.DirectImport (Record Cell FieldType Files)
open Verif.Clipper (El)
open Verif.BboxSpec
open Verif.OsmSpec (Coincide)

/-- What a record describes. -/
inductive Figure
  | point (c : Geo ℝ)
  | line (cs : List (Geo ℝ))
  | polygon (parts : List (List (Geo ℝ)))

/-- The coordinates. -/
def places : Figure → List (Geo ℝ)
  | .point c => [c]
  | .line cs => cs
  | .polygon parts => parts.flatten

/-- The record of a figure, with or without heights and measures: a line has one part, the parts of a polygon are not empty. -/
def Describes (r : Record) : Figure → Prop
  | .point c => r.1 ∈ [1, 11, 21] ∧ r.2.vertices = [c]
  | .line cs => r.1 ∈ [3, 13, 23] ∧ r.2.vertices = cs ∧ cs ≠ [] ∧ r.2.partStart = [0]
  | .polygon parts => r.1 ∈ [5, 15, 25] ∧ r.2.vertices = parts.flatten ∧ (∀ p ∈ parts, p ≠ []) ∧ r.2.partStart = ShapeSpec.starts 0 parts ∧
      r.2.isRing = parts.map fun _ => true

/-- Records of other figures: points together, and lines of several parts. -/
def Unsupported (r : Record) : Prop := r.1 ∈ [8, 18, 28] ∨ r.1 ∈ [3, 13, 23] ∧ 2 ≤ r.2.partStart.length

/-- A cell of a row: no value, or the text of its value. -/
inductive Written : FieldType → Cell → Option String → Prop
  | empty (type cell) (h : cell.isNull = true) : Written type cell none
  | string (cell) (h : cell.isNull = false) : Written .string cell (some cell.string)
  | integer (cell) (h : cell.isNull = false) : Written .integer cell (some cell.integer)
  | double (cell) (h : cell.isNull = false) : Written .double cell (some cell.double)

/-- The row of a record: for every field a value or none. -/
def IsRow (fields : List (String × FieldType)) (row : List Cell) (values : List (Option String)) : Prop :=
  List.Forall₂ (fun x v => Written x.1.2 x.2 v) (fields.zip row) values ∧ row.length = fields.length

/-- The tags of a record: the names of the fields with the values, by their numbers, sorted by key. -/
def Tagged (getId : String → UInt32) (fields : List (String × FieldType)) (values : List (Option String)) (tags : List Tag) : Prop :=
  tags.Perm ((fields.zip values).filterMap fun x => x.2.map fun v => ⟨getId x.1.1, getId v⟩) ∧ tags.Pairwise (fun a b => a.key ≤ b.key)

/-- The element of a figure: none has an id. -/
def Shows (eps : ℝ) (tags : List Tag) : Figure → El → Prop
  | .point c, e => e = .node 0 tags c
  | .line cs, e => ∃ a z, cs.head? = some a ∧ cs.getLast? = some z ∧ (Coincide eps a z ∧ e = .area 0 tags cs ∨ ¬ Coincide eps a z ∧ e = .way 0 tags cs)
  | .polygon parts, e => ∃ members, e = .relation 0 tags members ∧ List.Forall₂ (fun p x => (∃ c, p = [c] ∧ x = .node 0 [] c) ∨ (2 ≤ p.length ∧ x = .area 0 [] p)) parts members

/-- A record with its row: what they describe, or a record which is not supported. -/
def IsEntry (fields : List (String × FieldType)) (x : Option Record × List Cell) : Option (Figure × List (Option String)) → Prop
  | some f => ∃ r, x.1 = some r ∧ Describes r f.1 ∧ IsRow fields x.2 f.2
  | none => ∃ r, x.1 = some r ∧ Unsupported r

/-- Both files are there, with fields and the same number of records; `entries` are described by the first of them, `rest` are the others. -/
def Begins (files : Files) (fields : List (String × FieldType)) (entries : List (Option (Figure × List (Option String)))) (rest : List (Option Record × List Cell)) : Prop :=
  fields ≠ [] ∧ ∃ records rows first, files.shp = some records ∧ files.dbf = some ⟨fields, rows⟩ ∧ records.length = rows.length ∧ records.zip rows = first ++ rest ∧
    List.Forall₂ (IsEntry fields) first entries

/-- Everything is on the globe. -/
def OnEarth (entries : List (Option (Figure × List (Option String)))) : Prop := ∀ f, some f ∈ entries → ∀ p ∈ places f.1, OnGlobe p

end Verif.ShapeImportSpec
