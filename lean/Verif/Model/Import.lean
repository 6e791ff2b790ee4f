import Verif.Model.OsmXml
import Verif.Model.OsmStream
import Verif.Model.ElementStore
import Verif.Model.GeoStore
import Verif.Model.Resolve

/-! # Importing an OSM file in XML

Models index/GeoStore.cpp:38-116 for files with the ending of XML: the parser (`Verif.OsmXml`), the visitor (`Verif.OsmStream`, `Verif.Resolve`), storing in tiles
(`Verif.ElementStore`) and the stores by key (`Verif.GeoStore`), one after the other.

Simplifications: the token is not cancelled (C21). The file is its text; a file which cannot be opened is the empty text. Numbers are exact. The order of
hash maps and the depth of the stack are parameters. -/
namespace Verif.Import
open Verif.Clipper (El Engine)
open Verif.ElementStore (StyleInfo storeRange storeInTile storeInBox)
open Verif.Osm (Context RawTag)
open Verif.OsmStream (Entry Added)
open Verif.OsmXml (Event)

/-- What the import uses: the precision of coordinates, the string table, `std::sort`, the clipping library, the style provider, whether a ring is inside of another
(MultipolygonProcessor.cpp:63-67), what is found where an id is not set (MultipolygonProcessor.cpp:166, 260), how many calls the stack can take, and the order of the hash map
of relations (OsmDataVisitor.cpp:104). -/
structure Env where
  eps : ℝ
  getId : String → UInt32
  sort : List Tag → List Tag
  eng : Engine
  style : El → ℤ → StyleInfo
  contains : List (Geo ℝ) → List (Geo ℝ) → Bool
  unset : List (Geo ℝ) → UInt64
  stack : Nat
  order : List UInt64 → List UInt64

/-- What resolving uses. -/
def Env.resolver (env : Env) : Resolve.Env ℝ := ⟨env.eps, env.getId, env.sort, env.contains, env.unset⟩

/-- Where the elements are stored: GeoStore.cpp:52-64, 38-50, 66-79 -/
inductive Target
  | range (r : LodRange)
  | tile (q : QuadKey)
  | box (b : Bbox ℝ) (r : LodRange)

/-- formats/FormatTypes.hpp:20-31, a tag as it is handed to the visitor. -/
def rawTag (t : OsmXml.Tag) : RawTag := ⟨String.ofList t.key, String.ofList t.value⟩

/-- OsmXmlParser.cpp:247-257: the calls of the visitor for nodes and ways. -/
noncomputable def entry : Event → Option (Entry ℝ)
  | .node n => some (.node (UInt64.ofNat n.id) ⟨n.lat, n.lon⟩ (n.tags.map rawTag))
  | .way w => some (.way (UInt64.ofNat w.id) (w.refs.map UInt64.ofNat) (w.tags.map rawTag))
  | .bounds .. | .relation _ => none

/-- OsmXmlParser.cpp:259-266: the calls for relations. -/
def relationOf : Event → Option OsmXml.Relation
  | .relation r => some r
  | _ => none

/-- formats/FormatTypes.hpp:34-38, a member as it is handed to the visitor. -/
def member (m : OsmXml.Member) : Resolve.Member := ⟨String.ofList m.type, UInt64.ofNat m.ref, String.ofList m.role⟩

/-- OsmDataVisitor.cpp:58-67 for all relations: they are only remembered. -/
def relations (env : Env) (rs : List OsmXml.Relation) : Assoc UInt64 (List Tag × List Resolve.Member) :=
  rs.foldl (fun m r => m.set (UInt64.ofNat r.id) (Osm.convertTags env.getId env.sort (r.tags.map rawTag), r.members.map member)) []

/-- OsmDataVisitor.cpp:99-127: what is handed on at the end. -/
noncomputable def complete (env : Env) (ctx : Context ℝ) (rs : List OsmXml.Relation) : Outcome (List El) :=
  Resolve.complete env.resolver ⟨ctx, relations env rs⟩ env.stack (env.order ((relations env rs).map (·.1)))

/-- The functors of GeoStore.cpp:44-46, 58-60, 73-75: where an element is saved. -/
noncomputable def saves (env : Env) (target : Target) (e : El) : Outcome (List (QuadKey × El)) :=
  match target with
  | .range r => .ok (storeRange env.eng (env.style e) e r).saves
  | .tile q => (storeInTile env.eng (env.style e) e q).bind fun s => .ok s.saves
  | .box b r => .ok (storeInBox env.eng (env.style e) e b r).saves

/-- The functor for every element. It fails for the first element or for none, because only the tile matters (ElementStore.cpp:40), so nothing is stored if it fails. -/
noncomputable def collect (env : Env) (target : Target) : List El → Outcome (List (List (QuadKey × El)))
  | [] => .ok []
  | e :: es => (saves env target e).bind fun a => (collect env target es).bind fun as => .ok (a :: as)

/-- GeoStore.cpp:91-97: what is saved for a text. The visitor is told everything before an error is found, and may fail first. -/
noncomputable def read (env : Env) (target : Target) (text : List Char) : Outcome (List (List (QuadKey × El))) :=
  (OsmStream.visitAll env.eps env.getId env.sort {} ((OsmXml.parse text).1.filterMap entry)).bind fun ctx =>
    (OsmXml.parse text).2.bind fun _ =>
      (complete env ctx ((OsmXml.parse text).1.filterMap relationOf)).bind fun es => collect env target es

/-- GeoStore.cpp:38-79 for XML; an exception leaves the entry of the key which the subscript makes, as for a format which is not supported. -/
noncomputable def importXml {K S Q : Type} [LinearOrder K] (I : GeoStore.Iface S El Q) (env : Env) (m : GeoStore.Map K S) (k : K) (target : Target)
    (text : List Char) : GeoStore.Map K S × GeoStore.Out El :=
  match read env target text with
  | .ok l => GeoStore.step I m (.addFile k (some l) .range false)
  | .throw e => (GeoStore.subscript k m, .failed (.throw e))
  | .ub w => (GeoStore.subscript k m, .failed (.ub w))

end Verif.Import
