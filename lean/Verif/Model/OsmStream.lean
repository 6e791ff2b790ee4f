import Verif.Model.Osm

/-! # Reading the nodes and ways of an OSM file

Models the calls which the parsers make on the visitor (formats/osm/xml/OsmXmlParser.cpp:247-257) and the part of
formats/osm/OsmDataVisitor.cpp:99-127 which hands nodes, ways and areas on. Relations are the subject of `Verif.OsmRelations`; the token is not
cancelled. -/
namespace Verif.OsmStream
open Verif.Osm

variable {K : Type} [Field K] [LinearOrder K] [IsStrictOrderedRing K]

/-- A node or a way of the file: id, coordinate or ids of nodes, tags. OsmXmlParser.cpp:247-257 -/
inductive Entry (K : Type)
  | node (id : UInt64) (c : Geo K) (tags : List RawTag)
  | way (id : UInt64) (nodeIds : List UInt64) (tags : List RawTag)

/-- OsmXmlParser.cpp:247-257 -/
def visit (eps : K) (getId : String → UInt32) (sort : List Tag → List Tag) (ctx : Context K) : Entry K → Outcome (Context K)
  | .node id c tags => .ok (visitNode getId sort ctx id c tags)
  | .way id nodeIds tags => visitWay eps getId sort ctx id nodeIds tags

/-- The entries in the order of the file, OsmXmlParser.cpp:214-215. -/
def visitAll (eps : K) (getId : String → UInt32) (sort : List Tag → List Tag) : Context K → List (Entry K) → Outcome (Context K)
  | ctx, [] => .ok ctx
  | ctx, e :: es => (visit eps getId sort ctx e).bind fun ctx => visitAll eps getId sort ctx es

/-- An element which is handed to the store, OsmDataVisitor.cpp:69-72. -/
inductive Added (K : Type)
  | node (n : Node K)
  | way (p : Path K)
  | area (p : Path K)

/-- OsmDataVisitor.cpp:114-124; the order within a map is that of the hash map, here any. -/
def added (ctx : Context K) : List (Added K) :=
  ctx.nodeMap.map (fun e => .node e.2) ++ ctx.wayMap.map (fun e => .way e.2) ++ ctx.areaMap.map (fun e => .area e.2)

end Verif.OsmStream
