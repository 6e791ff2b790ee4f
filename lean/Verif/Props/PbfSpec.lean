import Verif.Model.Pbf

/-! # Specification of the encoding of PBF blocks

Follows the description of the format: dense nodes, references and member ids are delta coded, the coordinate of a node is
`.000000001 * (offset + granularity * value)`, and the tags of dense nodes are pairs of string indices, a zero after each node. -/
namespace Verif.PbfSpec
open Verif.Pbf (Block Dense Way Relation)

/-- Delta coding. -/
def deltas (previous : Int) : List Int → List Int
  | [] => []
  | x :: rest => (x - previous) :: deltas x rest

/-- A node as the writer of the file knows it. -/
structure Source where
  id : Int
  lat : Int
  lon : Int
  tags : List (String × String)

/-- `index` gives the places of the strings of the tags in the string table; the place 0 is not used. -/
def Indexed (b : Block) (index : String → Nat) (tags : List (String × String)) : Prop :=
  ∀ t ∈ tags, index t.1 ≠ 0 ∧ b.strings[index t.1]? = some t.1 ∧ b.strings[index t.2]? = some t.2

/-- The dense encoding of nodes. The list of tags may be left out if there are none. -/
structure Encodes (b : Block) (index : String → Nat) (nodes : List Source) (d : Dense) : Prop where
  ids : d.ids = deltas 0 (nodes.map Source.id)
  lats : d.lats = deltas 0 (nodes.map Source.lat)
  lons : d.lons = deltas 0 (nodes.map Source.lon)
  strings : ∀ n ∈ nodes, Indexed b index n.tags
  tags : d.keysVals = nodes.flatMap (fun n => n.tags.flatMap (fun t => [index t.1, index t.2]) ++ [0]) ∨
    ((∀ n ∈ nodes, n.tags = []) ∧ d.keysVals = [])

/-- The unsigned 64 bit number for an id. -/
def unsigned (z : Int) : Nat := (z % 18446744073709551616).toNat

/-- The coordinate of the format. -/
def degrees (offset granularity value : Int) : ℚ := ((offset + granularity * value : Int) : ℚ) / 1000000000

/-- The bytes of a `Blob` with only the field `raw` (number 1), for less than 128 bytes. -/
def blob (raw : List UInt8) : List UInt8 := 0x0A :: UInt8.ofNat raw.length :: raw

end Verif.PbfSpec
