import Verif.Model.Basic

/-! # Meshes

Models builders/MeshBuilder.cpp, utils/MeshUtils.hpp:copyMesh and builders/terrain/TerraExtras.cpp. Coordinates are of an arbitrary type with
addition (`double` in the code); `int` is an unbounded integer. -/
namespace Verif.MeshBuilder

/-- math/Mesh.hpp:11-18, without the name -/
structure Mesh (α : Type) where
  vertices : List α := []
  triangles : List Int := []
  colors : List Int := []
  uvs : List α := []
  uvMap : List Int := []
deriving DecidableEq

variable {α : Type}

/-- math/Mesh.hpp:42-48 -/
def clear (_ : Mesh α) : Mesh α := {}

/-- math/Vector2.hpp:11-13 -/
structure Vec2 (α : Type) where
  x : α
  y : α
deriving DecidableEq

/-- math/Vector3.hpp -/
structure Vec3 (α : Type) where
  x : α
  y : α
  z : α
deriving DecidableEq

/-- MeshBuilder.cpp:283-297: `Vector3` has its height in `y`, the mesh in the third place. -/
def addVertex (m : Mesh α) (v : Vec3 α) (color triIndex : Int) (uv : Vec2 α) : Mesh α :=
  { m with
    vertices := m.vertices ++ [v.x, v.z, v.y]
    colors := m.colors ++ [color]
    uvs := m.uvs ++ [uv.x, uv.y]
    triangles := m.triangles ++ [triIndex] }

/-- Index of the next vertex, `static_cast<int>(mesh.vertices.size()/3)`. -/
def nextIndex (m : Mesh α) : Int := ((m.vertices.length / 3 : Nat) : Int)

/-- MeshBuilder.cpp:208-230. The colour (210-211) and the scales (214-217) are parameters. -/
def addPlane [Add α] [Zero α] (m : Mesh α) (p1 p2 : Vec3 α) (heightOffset : α) (color : Int) (scaleX scaleY : α) : Mesh α :=
  let index := nextIndex m
  let topP1 : Vec3 α := ⟨p1.x, p1.y + heightOffset, p1.z⟩
  let topP2 : Vec3 α := ⟨p2.x, p2.y + heightOffset, p2.z⟩
  let m := addVertex m p1 color index ⟨0, 0⟩
  let m := addVertex m p2 color (index + 2) ⟨scaleX, 0⟩
  let m := addVertex m topP2 color (index + 1) ⟨scaleX, scaleY⟩
  let index := index + 3
  let m := addVertex m topP1 color index ⟨0, scaleY⟩
  let m := addVertex m p1 color (index + 2) ⟨0, 0⟩
  addVertex m topP2 color (index + 1) ⟨scaleX, scaleY⟩

/-- MeshBuilder.cpp:232-255. The colour (241-242) is a parameter. -/
def addTriangle (m : Mesh α) (v0 v1 v2 : Vec3 α) (uv0 uv1 uv2 : Vec2 α) (hasBackSide : Bool) (color : Int) : Mesh α :=
  let startIndex := nextIndex m
  let m := addVertex m v0 color startIndex uv0
  let startIndex := startIndex + 1
  let m := addVertex m v1 color startIndex uv1
  let startIndex := startIndex + 1
  let m := addVertex m v2 color startIndex uv2
  if hasBackSide then
    let m := addVertex m v2 color startIndex uv0
    let startIndex := startIndex + 1
    let m := addVertex m v1 color startIndex uv1
    let startIndex := startIndex + 1
    addVertex m v0 color startIndex uv2
  else m

/-- The output of the triangle library (MeshBuilder.cpp:66, 68-69, 100-104): points and, for each triangle, its three corners. -/
structure TriangleIo (α : Type) where
  points : List (Vec2 α)
  triangles : List (Int × Int × Int)

/-- MeshBuilder.cpp:66-93, one point. `attr` stands for the elevation (71-78), the colour (86) and the texture coordinate (90) of a point,
which depend on its index through its marker. -/
def fillPoint (attr : Nat → Vec2 α → α × Int × Vec2 α) (m : Mesh α) (i : Nat) (p : Vec2 α) : Mesh α :=
  let (ele, color, uv) := attr i p
  { m with
    vertices := m.vertices ++ [p.x, p.y, ele]
    colors := m.colors ++ [color]
    uvs := m.uvs ++ [uv.x, uv.y] }

/-- MeshBuilder.cpp:66-93 from index `i` on. -/
def fillPoints (attr : Nat → Vec2 α → α × Int × Vec2 α) (m : Mesh α) (i : Nat) : List (Vec2 α) → Mesh α
  | [] => m
  | p :: ps => fillPoints attr (fillPoint attr m i p) (i + 1) ps

/-- MeshBuilder.cpp:95-104, one triangle -/
def corners (start : Int) (flipSide : Bool) (t : Int × Int × Int) : List Int :=
  let (c0, c1, c2) := t
  if flipSide then [start + c2, start + c0, start + c1] else [start + c1, start + c0, start + c2]

/-- MeshBuilder.cpp:54-105 -/
def fillMesh (m : Mesh α) (io : TriangleIo α) (attr : Nat → Vec2 α → α × Int × Vec2 α) (flipSide : Bool) : Mesh α :=
  let triStartIndex := nextIndex m
  let m := fillPoints attr m 0 io.points
  { m with triangles := m.triangles ++ io.triangles.flatMap (corners triStartIndex flipSide) }

/-- mapcss/TextureAtlas.hpp, MeshBuilder.hpp:59-86: the identifier of the atlas and the region in it. -/
structure Texture where
  id : Int
  atlasWidth : Int
  atlasHeight : Int
  x : Int
  y : Int
  width : Int
  height : Int
deriving DecidableEq

/-- MeshBuilder.cpp:261-267: compares the map from its end, stops at the first difference. Reading below the begin is undefined. -/
def compareBack : List Int → List Int → Outcome Bool
  | _, [] => .ok true
  | [], _ :: _ => .ub "index out of range"
  | a :: as, b :: bs => if a = b then compareBack as bs else .ok false

/-- MeshBuilder.cpp:257-281 -/
def writeTexture (m : Mesh α) (t : Texture) : Outcome (Mesh α) :=
  let append : Outcome (Mesh α) := .ok { m with
    uvMap := m.uvMap ++ [(m.uvs.length : Int), t.id, t.atlasWidth, t.atlasHeight, t.x, t.y, t.width, t.height] }
  if m.uvMap.isEmpty then append
  else
    (compareBack m.uvMap.reverse [t.height, t.width, t.y, t.x, t.atlasHeight, t.atlasWidth, t.id]).bind fun same =>
      if same then
        if m.uvMap.length < 8 then .ub "index out of range"
        else .ok { m with uvMap := m.uvMap.set (m.uvMap.length - 8) (m.uvs.length : Int) }
      else append

/-- MeshUtils.hpp:17-21; an incomplete vertex at the end reads outside of the vector. -/
def shiftVertices [Add α] (offset : Vec3 α) : List α → Outcome (List α)
  | [] => .ok []
  | x :: y :: z :: rest => (shiftVertices offset rest).bind fun rest => .ok ((x + offset.x) :: (y + offset.z) :: (z + offset.y) :: rest)
  | _ => .ub "index out of range"

/-- MeshUtils.hpp:38-41: every eighth entry, beginning with the first one of the copied part. -/
def shiftMap (start : Int) : List Int → List Int
  | a :: b :: c :: d :: e :: f :: g :: h :: rest => (a + start) :: b :: c :: d :: e :: f :: g :: h :: shiftMap start rest
  | [] => []
  | a :: rest => (a + start) :: rest

/-- MeshUtils.hpp:11-42 -/
def copyMesh [Add α] (offset : Vec3 α) (source destination : Mesh α) : Outcome (Mesh α) :=
  let startIndex := nextIndex destination
  (shiftVertices offset source.vertices).bind fun vertices =>
    .ok { vertices := destination.vertices ++ vertices
          triangles := destination.triangles ++ source.triangles.map (· + startIndex)
          colors := destination.colors ++ source.colors
          uvs := destination.uvs ++ source.uvs
          uvMap := destination.uvMap ++ shiftMap (destination.uvs.length : Int) source.uvMap }

/-- builders/buildings/roofs/SkillionRoofBuilder.hpp:116-121: the height of each vertex is replaced depending on its position in the
vector and its coordinates. -/
def setHeights (f : Nat → Vec2 α → α → α) (i : Nat) : List α → List α
  | x :: y :: z :: rest => x :: y :: f i ⟨x, y⟩ z :: setHeights f (i + 3) rest
  | l => l

/-! ## Forest -/

/-- `v[i]` of a vector -/
def vecAt {β : Type} (v : List β) (i : Int) : Outcome β :=
  if i < 0 then .ub "index out of range"
  else match v[i.toNat]? with
    | some a => .ok a
    | none => .ub "index out of range"

/-- TerraExtras.cpp:30-39, the sums over the corners of the triangle whose first index is at position `i`, divided by `third`. -/
def centroid [Add α] [Zero α] (third : α → α) (m : Mesh α) (i : Nat) : Outcome (Vec2 α) :=
  (vecAt m.triangles i).bind fun t0 =>
  (vecAt m.vertices (t0 * 3)).bind fun x0 =>
  (vecAt m.vertices (t0 * 3 + 1)).bind fun y0 =>
  (vecAt m.triangles (i + 1 : Nat)).bind fun t1 =>
  (vecAt m.vertices (t1 * 3)).bind fun x1 =>
  (vecAt m.vertices (t1 * 3 + 1)).bind fun y1 =>
  (vecAt m.triangles (i + 2 : Nat)).bind fun t2 =>
  (vecAt m.vertices (t2 * 3)).bind fun x2 =>
  (vecAt m.vertices (t2 * 3 + 1)).bind fun y2 =>
  .ok ⟨third (0 + x0 + x1 + x2), third (0 + y0 + y1 + y2)⟩

/-- TerraExtras.cpp:27-29: the positions visited by `for (i = start; i < size; i += step)`; `fuel` bounds the number of iterations. -/
def visited (start size step : Nat) : Nat → List Nat
  | 0 => []
  | fuel + 1 => if start < size then start :: visited (start + step) size step fuel else []

/-- TerraExtras.cpp:23, 27: the variables of the loop, and what the callback got. -/
structure Forest (α : Type) where
  forestMesh : Mesh α := {}
  treesProcessed : Nat := 0
  delivered : List (Mesh α) := []

/-- TerraExtras.cpp:30-51, one tree: `ele` is the elevation provider. -/
def plant [Add α] [Sub α] [Zero α] (third : α → α) (ele : α → α → α) (center : Vec2 α) (m treeMesh : Mesh α) (chunkSize : Nat)
    (f : Forest α) (i : Nat) : Outcome (Forest α) :=
  (centroid third m i).bind fun c =>
  (copyMesh ⟨c.x - center.x, ele c.y c.x, c.y - center.y⟩ treeMesh f.forestMesh).bind fun forestMesh =>
  if f.treesProcessed + 1 = chunkSize then .ok { forestMesh := clear forestMesh, treesProcessed := 0, delivered := f.delivered ++ [forestMesh] }
  else .ok { f with forestMesh := forestMesh, treesProcessed := f.treesProcessed + 1 }

/-- A loop which stops at the first exception. -/
def foldO {σ β : Type} (step : σ → β → Outcome σ) : σ → List β → Outcome σ
  | s, [] => .ok s
  | s, b :: bs => (step s b).bind fun s => foldO step s bs

/-- TerraExtras.cpp:14-60: the meshes which the callback gets. `frequency` and `chunk` are the truncated style values (25-26). The tree mesh
is given, see the L-system model. -/
def addForest [Add α] [Sub α] [Zero α] (third : α → α) (ele : α → α → α) (center : Vec2 α) (m treeMesh : Mesh α)
    (startTriangle frequency chunk : Nat) : Outcome (List (Mesh α)) :=
  let step := 3 * max frequency 1
  let chunkSize := max chunk 1
  (foldO (plant third ele center m treeMesh chunkSize) {} (visited startTriangle m.triangles.length step m.triangles.length)).bind fun f =>
    .ok (if f.treesProcessed > 0 then f.delivered ++ [f.forestMesh] else f.delivered)

end Verif.MeshBuilder
