import Verif.Model.Pbf
import Verif.Model.Import

/-! # OSM files in PBF

Models formats/osm/pbf/OsmPbfParser.hpp:21-218 from the bytes of the file on, and index/GeoStore.cpp:98-106. Simplifications: the messages of protobuf and the stream of zlib are
decoded by functions which are parameters (`Tools`); coordinates are rational numbers, where the code adds doubles; numbers of ids of strings in messages are not negative; the shift
into the sign bit (OsmPbfParser.hpp:65) gives a negative number; a read of a negative number of bytes fails. -/
namespace Verif.PbfFile
open Verif.Pbf
open Verif.OsmXml (Event)

/-- `OSMPBF::BlobHeader` (fileformat.proto:48-52), as far as it is used. -/
structure Header where
  type : String
  datasize : Int

/-- `OSMPBF::Blob` (fileformat.proto:29-41) -/
structure Blob where
  raw : Option Bytes
  rawSize : Int
  zlib : Option Bytes
  lzma : Option Bytes

/-- `OSMPBF::PrimitiveGroup` (osmformat.proto:103-116), as far as it is used. -/
structure Group where
  nodes : List Node
  dense : Option Dense
  ways : List Way
  relations : List Relation

/-- `OSMPBF::PrimitiveBlock` (osmformat.proto:84-101) -/
structure PrimitiveBlock where
  block : Block
  groups : List Group

/-- `ParseFromArray` of the messages, and `inflate`: the bytes which the stream gives and whether it is complete. -/
structure Tools where
  header : Bytes → Option Header
  blob : Bytes → Option Blob
  inflate : Bytes → Bytes × Bool
  block : Bytes → Option PrimitiveBlock

/-- OsmPbfParser.hpp:21 -/
def maxHeader : Int := 64 * 1024

/-- OsmPbfParser.hpp:22 -/
def maxBlob : Int := 32 * 1024 * 1024

/-- OsmPbfParser.hpp:55-65: the first byte is the highest one. -/
def size (a b c d : UInt8) : Int :=
  let n : Nat := a.toNat * 2 ^ 24 + b.toNat * 2 ^ 16 + c.toNat * 2 ^ 8 + d.toNat
  if n < 2 ^ 31 then n else n - 2 ^ 32

/-- `stream.read(buffer, n)`: the bytes and the rest of the file. -/
def take (n : Int) (bytes : Bytes) : Option (Bytes × Bytes) :=
  if 0 ≤ n ∧ n.toNat ≤ bytes.length then some (bytes.take n.toNat, bytes.drop n.toNat) else none

/-- OsmPbfParser.hpp:67-77: a header of this size. -/
def readSized (T : Tools) (n : Int) (bytes : Bytes) : Outcome (Option (Header × Bytes)) :=
  if maxHeader < n then .throw "domain_error"
  else match take n bytes with
    | none => .throw "domain_error"
    | some (h, rest) =>
      match T.header h with
      | none => .throw "domain_error"
      | some h => .ok (some (h, rest))

/-- OsmPbfParser.hpp:54-78: no header at the end of the file (59-62). -/
def readHeader (T : Tools) : Bytes → Outcome (Option (Header × Bytes))
  | a :: b :: c :: d :: rest => readSized T (size a b c d) rest
  | _ => .ok none

/-- OsmPbfParser.hpp:94-128: what is in `unpack_buffer_` up to the size which is returned. `inflate` is given room for `raw_size` bytes, as an unsigned number, whatever the size of the
buffer is. -/
def unpack (T : Tools) (serialized : Bytes) (b : Blob) : Outcome Bytes :=
  match b.raw with
  | some raw => .ok (readRaw serialized raw)
  | none =>
    match b.zlib with
    | some z =>
      let room := (b.rawSize % 2 ^ 32).toNat
      if maxBlob < (((T.inflate z).1.take room).length : Int) then .ub "write behind the buffer"
      else if (T.inflate z).2 ∧ (T.inflate z).1.length ≤ room then .ok (T.inflate z).1
      else .throw "domain_error"
    | none => if b.lzma.isSome then .throw "domain_error" else .ok []

/-- OsmPbfParser.hpp:80-129: the unpacked bytes and the rest of the file. -/
def readBlob (T : Tools) (h : Header) (bytes : Bytes) : Outcome (Bytes × Bytes) :=
  if maxBlob < h.datasize then .throw "domain_error"
  else match take h.datasize bytes with
    | none => .throw "domain_error"
    | some (s, rest) =>
      match T.blob s with
      | none => .throw "domain_error"
      | some b => (unpack T s b).bind fun u => .ok (u, rest)

/-- formats/FormatTypes.hpp:20-31 -/
def tagOf (t : String × String) : OsmXml.Tag := ⟨t.1.toList, t.2.toList⟩

/-- OsmPbfParser.hpp:149, 179 -/
def nodeEvent (n : NodeOut) : Event := .node ⟨n.id, n.lat, n.lon, n.tags.map tagOf⟩

/-- OsmPbfParser.hpp:196 -/
def wayEvent (w : Nat × List Nat × Tags) : Event := .way ⟨w.1, w.2.1, w.2.2.map tagOf⟩

/-- OsmPbfParser.hpp:216 -/
def relationEvent (r : Nat × List Member × Tags) : Event := .relation ⟨r.1, r.2.1.map fun m => ⟨m.type.toList, m.refId, m.role.toList⟩, r.2.2.map tagOf⟩

/-- What the visitor is told, and the outcome. -/
abbrev Told := List Event × Outcome Unit

/-- Going on if there was no error. -/
def Told.andThen (x : Told) (f : Unit → Told) : Told :=
  match x.2 with
  | .ok _ => (x.1 ++ (f ()).1, (f ()).2)
  | .throw e => (x.1, .throw e)
  | .ub w => (x.1, .ub w)

/-- A loop over the objects of a group. -/
def each {α β : Type} (parse : α → Outcome β) (event : β → Event) : List α → Told
  | [] => ([], .ok ())
  | a :: as =>
    match parse a with
    | .ok b => Told.andThen ([event b], .ok ()) fun _ => each parse event as
    | .throw e => ([], .throw e)
    | .ub w => ([], .ub w)

/-- OsmPbfParser.hpp:153-181; simplification: if an index is out of range then no node is told. -/
def denseTold (b : Block) (d : Option Dense) : Told :=
  match d with
  | none => ([], .ok ())
  | some d =>
    match parseDense b d with
    | .ok ns => (ns.map nodeEvent, .ok ())
    | .throw e => ([], .throw e)
    | .ub w => ([], .ub w)

/-- OsmPbfParser.hpp:138-217: one group. -/
def groupTold (b : Block) (g : Group) : Told :=
  Told.andThen (each (parseNode b) nodeEvent g.nodes) fun _ => Told.andThen (denseTold b g.dense) fun _ => Told.andThen (each (parseWay b) wayEvent g.ways) fun _ =>
    each (parseRelation b) relationEvent g.relations

/-- OsmPbfParser.hpp:137-218: the groups of a block. -/
def groupsTold (b : Block) : List Group → Told
  | [] => ([], .ok ())
  | g :: gs => Told.andThen (groupTold b g) fun _ => groupsTold b gs

/-- OsmPbfParser.hpp:131-219 -/
def blockTold (T : Tools) (bytes : Bytes) : Told :=
  match T.block bytes with
  | none => ([], .throw "domain_error")
  | some p => groupsTold p.block p.groups

/-- OsmPbfParser.hpp:35-45: the loop over the parts of a file; each takes at least four bytes. -/
def parts (T : Tools) : Nat → Bytes → Told
  | 0, _ => ([], .ok ())
  | n + 1, bytes =>
    match readHeader T bytes with
    | .ok none => ([], .ok ())
    | .ok (some (h, rest)) =>
      match readBlob T h rest with
      | .ok (u, rest) => Told.andThen (if h.type = "OSMData" then blockTold T u else ([], .ok ())) fun _ => parts T n rest
      | .throw e => ([], .throw e)
      | .ub w => ([], .ub w)
    | .throw e => ([], .throw e)
    | .ub w => ([], .ub w)

/-- OsmPbfParser.hpp:32-46. A file which cannot be opened is the empty one here: the loop is not entered. -/
def parse (T : Tools) (bytes : Bytes) : Told := parts T (bytes.length + 1) bytes

/-- GeoStore.cpp:98-106 (and 91-97, see `Verif.Import.read`): what is saved if the visitor is told this. -/
noncomputable def readTold (env : Import.Env) (target : Import.Target) (t : Told) : Outcome (List (List (QuadKey × Clipper.El))) :=
  (OsmStream.visitAll env.eps env.getId env.sort {} (t.1.filterMap Import.entry)).bind fun ctx =>
    t.2.bind fun _ => (Import.complete env ctx (t.1.filterMap Import.relationOf)).bind fun es => Import.collect env target es

/-- GeoStore.cpp:38-79 for PBF; as `Verif.Import.importXml`. -/
noncomputable def importPbf {K S Q : Type} [LinearOrder K] (I : GeoStore.Iface S Clipper.El Q) (T : Tools) (env : Import.Env) (m : GeoStore.Map K S) (k : K)
    (target : Import.Target) (bytes : Bytes) : GeoStore.Map K S × GeoStore.Out Clipper.El :=
  match readTold env target (parse T bytes) with
  | .ok l => GeoStore.step I m (.addFile k (some l) .range false)
  | .throw e => (GeoStore.subscript k m, .failed (.throw e))
  | .ub w => (GeoStore.subscript k m, .failed (.ub w))

end Verif.PbfFile
