import Mathlib.Data.Rat.Defs
import Mathlib.Algebra.Field.Rat
import Verif.Model.Basic

/-! # Blocks of OSM PBF files

Models formats/osm/pbf/OsmPbfParser.hpp after the messages are decoded by protobuf. Repeated fields are lists; access beyond their end is
undefined (the checks of protobuf are off in release builds). Coordinates are rational instead of `double`. -/
namespace Verif.Pbf

/-- The fields of `OSMPBF::PrimitiveBlock` which apply to all its groups. -/
structure Block where
  latOffset : Int
  lonOffset : Int
  granularity : Int
  strings : List String

/-- `OSMPBF::Node` -/
structure Node where
  id : Int
  lat : Int
  lon : Int
  keys : List Nat
  vals : List Nat

/-- `OSMPBF::DenseNodes` -/
structure Dense where
  ids : List Int
  lats : List Int
  lons : List Int
  keysVals : List Nat

/-- `OSMPBF::Way` -/
structure Way where
  id : Int
  refs : List Int
  keys : List Nat
  vals : List Nat

/-- `OSMPBF::Relation`; types: 0 node, 1 way, 2 relation. -/
structure Relation where
  id : Int
  memids : List Int
  types : List Nat
  roles : List Nat
  keys : List Nat
  vals : List Nat

/-- What the visitor gets: formats/FormatTypes.hpp. -/
abbrev Tags := List (String × String)

/-- Arguments of `visitNode`. -/
structure NodeOut where
  id : Nat
  lat : ℚ
  lon : ℚ
  tags : Tags
deriving DecidableEq

/-- formats/FormatTypes.hpp, `RelationMember` -/
structure Member where
  refId : Nat
  type : String
  role : String
deriving DecidableEq

/-- Conversion of a signed number to `uint64_t`. -/
def wrap (z : Int) : Nat := (z % 2 ^ 64).toNat

/-- `uint64_t += int64_t`, OsmPbfParser.hpp:162, 190, 205. -/
def addWrapped (a : Nat) (z : Int) : Nat := wrap (a + z)

/-- Element of a repeated field. -/
def at' {α : Type} (l : List α) (i : Nat) : Outcome α :=
  match l[i]? with
  | some a => .ok a
  | none => .ub "index out of range"

/-- OsmPbfParser.hpp:144-145, 163-164 -/
def nano (offset granularity value : Int) : ℚ := 1 / 1000000000 * ((offset + granularity * value : Int) : ℚ)

/-- OsmPbfParser.hpp:231-242 -/
def setTags (b : Block) : List Nat → List Nat → Outcome Tags
  | [], _ => .ok []
  | _ :: _, [] => .ub "index out of range"
  | k :: keys, v :: vals =>
    (at' b.strings k).bind fun key => (at' b.strings v).bind fun value => (setTags b keys vals).bind fun rest => .ok ((key, value) :: rest)

/-- OsmPbfParser.hpp:141-150 -/
def parseNode (b : Block) (n : Node) : Outcome NodeOut :=
  (setTags b n.keys n.vals).bind fun tags => .ok ⟨wrap n.id, nano b.latOffset b.granularity n.lat, nano b.lonOffset b.granularity n.lon, tags⟩

/-- OsmPbfParser.hpp:168-177: the tags of one node and the entries after them. The index `current_kv` is represented by the list of the entries
from it on, which is empty if it is at or behind the end. -/
def denseTags (b : Block) : List Nat → Outcome (Tags × List Nat)
  | [] => .ok ([], [])
  | [k] => if k = 0 then .ok ([], []) else .ub "index out of range"
  | k :: v :: rest =>
    if k = 0 then .ok ([], v :: rest)
    else (at' b.strings k).bind fun key => (at' b.strings v).bind fun value => (denseTags b rest).bind fun (tags, rest) => .ok ((key, value) :: tags, rest)

/-- OsmPbfParser.hpp:161-180: the loop over the dense nodes with the variables `id`, `lat`, `lon` and `current_kv`. -/
def denseLoop (b : Block) (id : Nat) (lat lon : ℚ) (kv : List Nat) : List Int → List Int → List Int → Outcome (List NodeOut)
  | [], _, _ => .ok []
  | i :: ids, a :: lats, o :: lons =>
    let id := addWrapped id i
    let lat := lat + nano b.latOffset b.granularity a
    let lon := lon + nano b.lonOffset b.granularity o
    (denseTags b kv).bind fun (tags, kv) => (denseLoop b id lat lon kv ids lats lons).bind fun rest => .ok (⟨id, lat, lon, tags⟩ :: rest)
  | _ :: _, _, _ => .ub "index out of range"

/-- OsmPbfParser.hpp:153-181 -/
def parseDense (b : Block) (d : Dense) : Outcome (List NodeOut) := denseLoop b 0 0 0 d.keysVals d.ids d.lats d.lons

/-- OsmPbfParser.hpp:186-192 -/
def parseRefs (ref : Nat) : List Int → List Nat
  | [] => []
  | d :: rest => addWrapped ref d :: parseRefs (addWrapped ref d) rest

/-- OsmPbfParser.hpp:183-197: id, node ids and tags. -/
def parseWay (b : Block) (w : Way) : Outcome (Nat × List Nat × Tags) :=
  (setTags b w.keys w.vals).bind fun tags => .ok (wrap w.id, parseRefs 0 w.refs, tags)

/-- OsmPbfParser.hpp:221-228 -/
def parseType (type : Nat) : String := if type = 0 then "n" else if type = 1 then "w" else "r"

/-- OsmPbfParser.hpp:204-211 -/
def parseMembers (b : Block) (id : Nat) : List Int → List Nat → List Nat → Outcome (List Member)
  | [], _, _ => .ok []
  | d :: memids, t :: types, r :: roles =>
    let id := addWrapped id d
    (at' b.strings r).bind fun role => (parseMembers b id memids types roles).bind fun rest => .ok (⟨id, parseType t, role⟩ :: rest)
  | _ :: _, _, _ => .ub "index out of range"

/-- OsmPbfParser.hpp:199-218: id, members and tags. -/
def parseRelation (b : Block) (r : Relation) : Outcome (Nat × List Member × Tags) :=
  (parseMembers b 0 r.memids r.types r.roles).bind fun members =>
  (setTags b r.keys r.vals).bind fun tags => .ok (wrap r.id, members, tags)

/-- OsmPbfParser.hpp:80-99: the bytes of an uncompressed block. `serialized` are the bytes of the message `OSMPBF::Blob` (86), `raw` its field of
that name. -/
def readRaw (serialized raw : List UInt8) : List UInt8 := serialized.take raw.length

end Verif.Pbf
