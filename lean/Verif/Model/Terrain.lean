import Verif.Model.Bbox
import Verif.Model.Building
import Verif.Model.LineGrid

/-! # Terrain

Models builders/terrain/TerraBuilder.cpp, TerraGenerator.cpp, SurfaceGenerator.cpp and ClipperEx (lib/clipper/clipper.cpp:4458-4496) over an ordered
field instead of `double`. The operations of the clipping library on paths, `std::sort`, style evaluation, colors, noise, the elevation provider, the
triangle library and the forest (C57) are parameters. ExteriorGenerator does nothing. -/
namespace Verif.Terrain
open Verif.MeshBuilder
open Verif.Polygon (Vec Poly Rect)
open Verif.Building (Look)

variable {K : Type} [Field K] [LinearOrder K]

/-! ## Paths -/

/-- `IntPath`, math/PolyClip.hpp:11 -/
abbrev Path := List (Int × Int)

/-- TerraBuilder.cpp:26-28 for one number: conversion to an integer drops the fraction; overflow of 64 bits is not modelled. -/
def toInt [FloorRing K] (x : K) : Int := if 0 ≤ x * 10 ^ 7 then ⌊x * 10 ^ 7⌋ else ⌈x * 10 ^ 7⌉

/-- TerraBuilder.cpp:26-28, 59-62, 210-213: longitude first -/
def toPath [FloorRing K] (cs : List (Geo K)) : Path := cs.map fun c => (toInt c.lon, toInt c.lat)

/-- lib/clipper/clipper.cpp:397-401, the loop: `pj` is the previous point -/
def areaSum (pj : Int × Int) : Path → Int
  | [] => 0
  | pi :: rest => (pj.1 + pi.1) * (pj.2 - pi.2) + areaSum pi rest

/-- lib/clipper/clipper.cpp:391-403, twice the area as integer -/
def area2 (p : Path) : Int :=
  match p.getLast? with
  | none => 0
  | some last => if p.length < 3 then 0 else - areaSum last p

/-! ## Clipping -/

/-- lib/clipper/clipper.hpp `PolyType` -/
inductive PolyType where
  | subject
  | clip
deriving DecidableEq

/-- The paths of ClipperEx (`m_edges`) and `edgeStartIndex_`, lib/clipper/clipper.hpp:391-402. Simplification: paths without area, which `AddPath`
refuses, are kept. -/
structure Clipper where
  paths : List (PolyType × Path) := []
  edgeStartIndex : Nat := 0
deriving DecidableEq

/-- math/PolyClip.hpp:21-31 -/
def Clipper.add (c : Clipper) (kind : PolyType) (paths : List Path) : Clipper := { c with paths := c.paths ++ paths.map fun p => (kind, p) }

/-- The paths of one kind, in order. -/
def Clipper.of (c : Clipper) (kind : PolyType) : List Path := (c.paths.filter fun p => p.1 = kind).map Prod.snd

/-- lib/clipper/clipper.cpp:4458-4473 -/
def Clipper.moveSubjectToClip (c : Clipper) : Clipper :=
  if c.paths.isEmpty then c
  else { paths := c.paths.mapIdx fun i p => if c.edgeStartIndex ≤ i then (.clip, p.2) else p, edgeStartIndex := c.paths.length - 1 }

/-- lib/clipper/clipper.cpp:4475-4496 -/
def Clipper.removeSubject (c : Clipper) : Clipper := { c with paths := c.paths.filter fun p => p.1 = .clip }

/-- The operations of the library: `executeDifference`, `executeUnion`, `executeIntersection` (math/PolyClip.hpp:41-55; the last with the default even-odd filling), offsetting of open lines
(TerraBuilder.cpp:101-104), `simplifyPolygons` and `cleanPolygons` (TerraGenerator.cpp:38-39). -/
structure Library (K : Type) where
  difference : List Path → List Path → List Path
  union : List Path → List Path
  intersection : List Path → List Path → List Path
  offset : List Path → K → List Path
  tidy : List Path → List Path

/-! ## Regions -/

/-- RegionTypes.hpp:15-65: what the generators use of it. `noise` is the elevation noise for a point (zero on boundaries, MeshBuilder.cpp:76-78),
`triangulate` stands for the triangle library and depends on the maximal area. -/
structure Context (K : Type) where
  heightOffset : K
  meshName : String
  extras : String
  look : Look K
  noise : Nat → Vec2 K → K
  triangulate : Poly K → TriangleIo K

/-- RegionTypes.hpp:69-100 -/
structure Region (K : Type) where
  level : Int := 0
  area : K
  context : Option (Context K) := none
  geometry : List Path := []

/-- RegionTypes.hpp:103-121 -/
structure Layer (K : Type) where
  sortOrder : Int := 0
  regions : List (Region K) := []

/-- A call of the virtual function `addGeometry` (TerraGenerator.cpp:67): the context, the paths of the polygon, and those which were left out (51-52).
It only serves to speak about the calls. -/
structure Piece (K : Type) where
  context : Context K
  kept : List Path
  skipped : List Path

/-- What the generator gets from its context. `forest` gives the meshes which addForest passes to the callback for a mesh and its first triangle. -/
structure Env (K : Type) where
  epsilon : K
  huge : K
  tiny : K
  step : K
  tileRect : Path
  rect : Rect K
  elevation : Geo K → K
  library : Library K
  background : Context K
  forest : Context K → Mesh K → Nat → Outcome (List (Mesh K))

/-- The members of SurfaceGenerator.hpp:50-51 and TerraGenerator.hpp:48, the meshes passed to the callback with their names, and the calls so far. -/
structure State (K : Type) where
  foreground : Clipper := {}
  background : Clipper := {}
  mesh : Mesh K := {}
  delivered : List (String × Mesh K) := []
  pieces : List (Piece K) := []

/-! ## Generators -/

variable [IsStrictOrderedRing K] [FloorRing K]

/-- TerraGenerator.cpp:86-94 with the scale of LineGridSplitter.hpp:49-50 -/
def restore (env : Env K) (p : Path) : List (Vec K) :=
  LineGrid.restoreGeometry env.epsilon env.step (p.map fun q => ⟨(q.1 : K) / 10 ^ 7, (q.2 : K) / 10 ^ 7⟩)

/-- MeshBuilder.cpp:192-206 without fixed elevation and without noise -/
def skirt (env : Env K) (context : Context K) (m : Mesh K) (p1 p2 : Vec K) : Mesh K :=
  let v1 : Vec3 K := ⟨p1.x, env.elevation ⟨p1.y, p1.x⟩ + 0, p1.y⟩
  let v2 : Vec3 K := ⟨p2.x, env.elevation ⟨p2.y, p2.x⟩ + 0, p2.y⟩
  let scale := context.look.planeScale v1 v2 context.heightOffset
  addPlane m v1 v2 context.heightOffset (context.look.planeColor v1) scale.1 scale.2

/-- TerraGenerator.cpp:75-83 from point `p1` on, back to `first` in the end; the tolerance is that of math/LineLinear.hpp. -/
def skirtFrom (env : Env K) (context : Context K) (first : Vec K) : Vec K → List (Vec K) → Mesh K → Mesh K
  | p1, rest, m =>
    let p2 := rest.headD first
    let m := if env.rect.isOnBorder (1 / 10 ^ 8) p1 && env.rect.isOnBorder (1 / 10 ^ 8) p2 then m else skirt env context m p1 p2
    match rest with
    | [] => m
    | p :: rest => skirtFrom env context first p rest m

/-- TerraGenerator.cpp:70-84 -/
def buildHeightOffset (env : Env K) (context : Context K) (points : List (Vec K)) (m : Mesh K) : Mesh K :=
  match points with
  | [] => m
  | p :: rest => skirtFrom env context p p rest m

/-- MeshBuilder.cpp:54-105 for a terrain polygon: the height of a point is the offset and the elevation, and noise inside. -/
def fill (env : Env K) (context : Context K) (polygon : Poly K) (m : Mesh K) : Mesh K :=
  fillMesh m (context.triangulate polygon)
    (fun i q => (context.heightOffset + env.elevation ⟨q.y, q.x⟩ + context.noise i q, context.look.pointColor q, context.look.pointUv q)) false

/-- SurfaceGenerator.cpp:97-105: the meshes which the callback gets. `at` throws for an unknown name, "water" does nothing (TerraExtras.cpp:62-64). -/
def addExtras (env : Env K) (context : Context K) (m : Mesh K) (startTriangle : Nat) : Outcome (List (String × Mesh K)) :=
  if context.extras = "" then .ok []
  else if context.extras = "forest" then (env.forest context m startTriangle).bind fun ms => .ok (ms.map fun m => ("forest", m))
  else if context.extras = "water" then .ok []
  else .throw "out_of_range"

/-- SurfaceGenerator.cpp:76-95 -/
def addPolygon (env : Env K) (s : State K) (polygon : Poly K) (context : Context K) : Outcome (State K) :=
  if context.meshName ≠ "" then
    (writeTexture (fill env context polygon {}) context.look.texture).bind fun polygonMesh =>
    (addExtras env context polygonMesh 0).bind fun extras =>
    .ok { s with delivered := s.delivered ++ extras ++ [(context.meshName, polygonMesh)] }
  else
    (writeTexture (fill env context polygon s.mesh) context.look.texture).bind fun mesh =>
    (addExtras env context mesh s.mesh.triangles.length).bind fun extras =>
    .ok { s with mesh := mesh, delivered := s.delivered ++ extras }

/-- TerraGenerator.cpp:48-64, one path; `AreaTolerance` (9) is 1000. The state is the polygon and the mesh. -/
def addPath (env : Env K) (context : Context K) (s : Poly K × Mesh K) (path : Path) : Outcome (Poly K × Mesh K) :=
  let points := restore env path
  (Polygon.addContour env.epsilon env.huge env.tiny s.1 points (area2 path < 0)).bind fun polygon =>
    .ok (polygon, if |context.heightOffset| > 0 then buildHeightOffset env context points s.2 else s.2)

/-- TerraGenerator.cpp:51-52 -/
def isSmall (path : Path) : Bool := |area2 path| < 2000

/-- TerraGenerator.cpp:34-68: the new state, and the paths passed to `geometryVisitor` -/
def addGeometry (env : Env K) (s : State K) (geometry : List Path) (context : Context K) : Outcome (State K × List Path) :=
  let geometry := env.library.tidy geometry
  let kept := geometry.filter fun p => !isSmall p
  (foldO (addPath env context) ({ rectangle := Rect.empty env.huge env.tiny }, s.mesh) kept).bind fun r =>
    let s := { s with mesh := r.2, pieces := s.pieces ++ [⟨context, kept, geometry.filter isSmall⟩] }
    if r.1.points.isEmpty then .ok (s, kept)
    else (addPolygon env s r.1 context).bind fun s => .ok (s, kept)

/-- SurfaceGenerator.cpp:65-74 -/
def buildRegion (env : Env K) (s : State K) (region : Region K) : Outcome (State K) :=
  let foreground := s.foreground.add .subject region.geometry
  let solution := env.library.difference (foreground.of .subject) (foreground.of .clip)
  let s := { s with foreground := foreground.moveSubjectToClip }
  match region.context with
  | none => .ub "null context"
  | some context =>
    (addGeometry env s solution context).bind fun r => .ok { r.1 with background := r.1.background.add .clip r.2 }

/-- SurfaceGenerator.cpp:46-55: the clipper is cleared; `Clear` keeps `edgeStartIndex_`, but it is not used again. -/
def buildBackground (env : Env K) (s : State K) : Outcome (State K) :=
  let background := s.background.add .subject [env.tileRect]
  let paths := env.library.difference (background.of .subject) (background.of .clip)
  let s := { s with background := { background with paths := [] } }
  if paths.isEmpty then .ok s else (addGeometry env s paths env.background).bind fun r => .ok r.1

/-- SurfaceGenerator.cpp:32-44, 57-63: the foreground, the background, and the mesh of the surface -/
def generateFrom (env : Env K) (layers : List (Layer K)) : Outcome (State K) :=
  (foldO (fun s (layer : Layer K) => foldO (buildRegion env) s layer.regions) {} layers).bind fun s =>
  (buildBackground env s).bind fun s => .ok { s with delivered := s.delivered ++ [("terrain_surface", s.mesh)] }

/-! ## Builder -/

/-- The values of the style of an element: the name of the layer (`terrain-layer`) if the style has one, level, width and context. -/
structure Style (K : Type) where
  layer : Option String
  level : Int
  width : K
  context : Context K

/-- What the builder gets: styles, whether an element has one, and for each name of a layer the sort order and the context which the style of the
canvas gives for it. `sortRegions` and `sortLayers` are `std::sort` (TerraBuilder.cpp:172, 179). -/
structure BuilderEnv (K : Type) where
  generator : Env K
  style : Element (Geo K) → Style K
  hasStyle : Element (Geo K) → Bool
  layerOrder : String → Int
  layerContext : String → Context K
  sortRegions : List (Region K) → List (Region K)
  sortLayers : List (Layer K) → List (Layer K)

/-- `layers_`, TerraBuilder.cpp:256. The order of an unordered map is that in which the names were added. -/
abbrev Layers (K : Type) := List (String × List (Region K))

/-- TerraBuilder.cpp:201 -/
def addRegion (layers : Layers K) (type : String) (region : Region K) : Layers K :=
  match layers with
  | [] => [(type, [region])]
  | (t, rs) :: rest => if t = type then (t, rs ++ [region]) :: rest else (t, rs) :: addRegion rest type region

/-- TerraBuilder.cpp:208-222 -/
def createRegion (style : Style K) (cs : List (Geo K)) : Region K :=
  { geometry := [toPath cs], context := if style.layer.isNone then some style.context else none, level := style.level, area := 0 }

/-- `region->isLayer() ? style.getString(StyleConsts::TerrainLayerKey()) : ""`, TerraBuilder.cpp:111-113, 121-123, 146-148 -/
def typeOf (style : Style K) (region : Region K) : String := if region.context.isNone then style.layer.getD "" else ""

/-- TerraBuilder.cpp:93-116; `clipper_` only has the tile as clip (83) as subjects are removed (108). -/
def visitWay (env : BuilderEnv K) (layers : Layers K) (way : Element (Geo K)) (cs : List (Geo K)) : Layers K :=
  let style := env.style way
  let region := createRegion style cs
  let solution := env.generator.library.offset region.geometry (style.width * 10 ^ 7)
  let region := { region with geometry := env.generator.library.intersection solution [env.generator.tileRect] }
  addRegion layers (typeOf style region) region

/-- TerraBuilder.cpp:118-126 -/
def visitArea (env : BuilderEnv K) (layers : Layers K) (area : Element (Geo K)) (cs : List (Geo K)) : Layers K :=
  let style := env.style area
  let region := createRegion style cs
  addRegion layers (typeOf style region) region

/-- TerraBuilder.cpp:134-135: members without tags get those of the relation. -/
def withTags (tags : List Tag) : Element (Geo K) → Element (Geo K)
  | .node id t c => .node id (if t.isEmpty then tags else t) c
  | .way id t cs => .way id (if t.isEmpty then tags else t) cs
  | .area id t cs => .area id (if t.isEmpty then tags else t) cs
  | .relation id t ms => .relation id (if t.isEmpty then tags else t) ms

/-- TerraBuilder.cpp:141-151: the region of the areas of a relation; its level is not set -/
def finishRelation (env : BuilderEnv K) (layers : Layers K) (rel : Element (Geo K)) (geometry : List Path) : Layers K :=
  if geometry.isEmpty then layers
  else
    let style := env.style rel
    let region : Region K := { geometry := geometry, context := if style.layer.isNone then some style.context else none, area := 0 }
    addRegion layers (typeOf style region) region

mutual
/-- `accept` of an element with the builder, TerraBuilder.cpp:90-152. `tags` are those of the relation of which it is a member. -/
def visit (env : BuilderEnv K) (layers : Layers K) (tags : List Tag) : Element (Geo K) → Layers K
  | .node _ _ _ => layers
  | .way id t cs => visitWay env layers (withTags tags (.way id t cs)) cs
  | .area id t cs => visitArea env layers (withTags tags (.area id t cs)) cs
  | .relation id t ms =>
    let r := visitMembers env layers (if t.isEmpty then tags else t) [] ms
    finishRelation env r.1 (withTags tags (.relation id t ms)) r.2

/-- TerraBuilder.cpp:54-67, 132-139: the paths of areas are collected in `geometry`, other members are visited by the builder. -/
def visitMembers (env : BuilderEnv K) (layers : Layers K) (tags : List Tag) (geometry : List Path) : List (Element (Geo K)) → Layers K × List Path
  | [] => (layers, geometry)
  | e :: es =>
    if env.hasStyle (withTags tags e) then
      match e with
      | .area _ _ cs => visitMembers env layers tags (geometry ++ [toPath cs]) es
      | .node _ _ _ => visitMembers env layers tags geometry es
      | .way id t cs => visitMembers env (visit env layers tags (.way id t cs)) tags geometry es
      | .relation id t ms => visitMembers env (visit env layers tags (.relation id t ms)) tags geometry es
    else visitMembers env layers tags geometry es
end

/-- TerraBuilder.cpp:226-236: the levels of a layer in the order of their first regions, with all of their paths -/
def byLevel (m : List (Int × List Path)) (region : Region K) : List (Int × List Path) :=
  match m with
  | [] => [(region.level, region.geometry)]
  | (l, ps) :: rest => if l = region.level then (l, ps ++ region.geometry) :: rest else (l, ps) :: byLevel rest region

/-- TerraBuilder.cpp:225-250 -/
def mergeRegions (env : BuilderEnv K) (context : Context K) (regions : List (Region K)) : List (Region K) :=
  (regions.foldl byLevel []).map fun m =>
    let result := env.generator.library.union m.2
    { level := m.1, context := some context, geometry := result, area := (result.map fun p => (|area2 p| : K) / 2).sum / (10 ^ 7 * 10 ^ 7) }

/-- TerraBuilder.cpp:161-174, one layer -/
def prepareLayer (env : BuilderEnv K) (layer : String × List (Region K)) : Layer K :=
  if layer.1 ≠ "" then ⟨env.layerOrder layer.1, env.sortRegions (mergeRegions env (env.layerContext layer.1) layer.2)⟩
  else ⟨0, env.sortRegions layer.2⟩

/-- TerraBuilder.cpp:155-183 if the request is not cancelled; ExteriorGenerator does nothing. -/
def complete (env : BuilderEnv K) (layers : Layers K) : Outcome (State K) :=
  generateFrom env.generator (env.sortLayers (layers.map (prepareLayer env)))

/-- The builder for all elements of a tile (QuadKeyBuilder.cpp, C26): each is visited, then the builder completes. -/
def build (env : BuilderEnv K) (es : List (Element (Geo K))) : Outcome (State K) :=
  complete env (es.foldl (fun layers e => visit env layers [] e) [])

end Verif.Terrain
