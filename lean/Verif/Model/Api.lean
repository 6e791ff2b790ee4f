import Verif.Model.Basic
import Verif.Model.Element
import Verif.Model.Tiles

/-! # The C API

Models shared/Common.hpp, Search.hpp, Storage.hpp and Configuration.hpp. What the core library does with a request is a parameter: it returns, throws
or is undefined. Exceptions which are not derived from `std::exception` are outside the model (the code throws none), and callbacks are assumed to
return. -/
namespace Verif.Api

/-- What happens at the boundary of the C API: the call returns after these calls of the error callback, an exception leaves it, or it is undefined. -/
inductive Result where
  | returned (errors : List String)
  | escaped (exc : String)
  | ub (why : String)
deriving DecidableEq, Repr

/-- Common.hpp:62-69 -/
def safeExecute {α : Type} (action : Outcome α) : Result :=
  match action with
  | .ok _ => .returned []
  | .throw e => .returned [e]
  | .ub w => .ub w

/-- Code outside `safeExecute`. -/
def unguarded {α : Type} (action : Outcome α) (next : α → Result) : Result :=
  match action with
  | .ok a => next a
  | .throw e => .escaped e
  | .ub w => .ub w

/-- What is requested from the core library; coordinates of elements are pairs of numbers of type `D` (latitude, longitude). Names of stores, style
files and data files are left out: they are handed over as they are. -/
inductive Request (D : Type) where
  | search (minLat minLon maxLat maxLon : D) (range : LodRange)
  | build (q : QuadKey)
  | elevation (q : QuadKey) (lat lon : D)
  | addTile (q : QuadKey)
  | addBox (minLat minLon maxLat maxLon : D) (range : LodRange)
  | addRange (range : LodRange)
  | addElement (e : Element (D × D)) (range : LodRange)
deriving DecidableEq

/-- The calls of the API with their arguments. -/
inductive Call (D : Type) where
  | getDataByText (minLat minLon maxLat maxLon : D) (startLod endLod : Int)
  | getDataByQuadKey (tileX tileY levelOfDetail : Int)
  | getElevationByQuadKey (tileX tileY levelOfDetail : Int) (lat lon : D)
  | addToStoreInQuadKey (tileX tileY levelOfDetail : Int)
  | addToStoreInBoundingBox (minLat minLon maxLat maxLon : D) (startLod endLod : Int)
  | addToStoreInRange (startLod endLod : Int)
  | addToStoreElement (id : UInt64) (vertices : List D) (tags : List String) (startLod endLod : Int)

variable {D : Type}

/-- Storage.hpp:75-79: the loop over the tags. `getId` is the lookup in the string table (see `Verif.StringTable`). Reading behind the array, which
has as many entries as the caller says, is undefined. -/
def tagLoop (getId : String → UInt32) : List String → Outcome (List Tag)
  | [] => .ok []
  | [_] => .ub "read behind the tags"
  | k :: v :: rest => (tagLoop getId rest).bind fun tags => .ok (⟨getId k, getId v⟩ :: tags)

/-- Storage.hpp:93-95: the loop over the vertices -/
def vertexLoop : List D → Outcome (List (D × D))
  | [] => .ok []
  | [_] => .ub "read behind the vertices"
  | a :: b :: rest => (vertexLoop rest).bind fun cs => .ok ((a, b) :: cs)

/-- Storage.hpp:81-111: the element. `same` is GeoCoordinate.hpp `operator==`. -/
def elementOf (same : D × D → D × D → Bool) (id : UInt64) (vertices : List D) (tags : List Tag) : Outcome (Element (D × D)) :=
  if vertices.length / 2 = 1 then
    match vertices with
    | a :: b :: _ => .ok (.node id tags (a, b))
    | _ => .ub "read behind the vertices"
  else
    (vertexLoop vertices).bind fun cs =>
      match cs.head?, cs.getLast? with
      | some first, some last => .ok (if same first last then .area id tags cs else .way id tags cs)
      | _, _ => .ub "index out of range"

/-- Search.hpp:18-81, Storage.hpp:11-130: a call. `core` is what the core library does, including the lookup of the style provider. -/
def call (core : Request D → Outcome Unit) (getId : String → UInt32) (same : D × D → D × D → Bool) : Call D → Result
  | .getDataByText a b c d s e => unguarded (LodRange.make s e) fun range => safeExecute (core (.search a b c d range))
  | .getDataByQuadKey x y lod => safeExecute (core (.build ⟨lod, x, y⟩))
  | .getElevationByQuadKey x y lod lat lon => unguarded (core (.elevation ⟨lod, x, y⟩ lat lon)) fun _ => .returned []
  | .addToStoreInQuadKey x y lod => safeExecute (core (.addTile ⟨lod, x, y⟩))
  | .addToStoreInBoundingBox a b c d s e => unguarded (LodRange.make s e) fun range => safeExecute (core (.addBox a b c d range))
  | .addToStoreInRange s e => unguarded (LodRange.make s e) fun range => safeExecute (core (.addRange range))
  | .addToStoreElement id vertices tags s e =>
    unguarded (LodRange.make s e) fun range =>
      unguarded (tagLoop getId tags) fun elementTags =>
        unguarded (elementOf same id vertices elementTags) fun element => safeExecute (core (.addElement element range))

/-- Configuration.hpp:19-20 -/
def minDirectory : Int := 1
def maxDirectory : Int := 16

/-- Configuration.hpp:56-61 `createDataDirs`: the directories which the caller is asked to create -/
def createDataDirs (root : List Char) : List (List Char) :=
  (intRange minDirectory maxDirectory).map fun i => root ++ '/' :: (toString i).toList

/-- Configuration.hpp:40-44 -/
def registerPersistentStore (dataPath : List Char) : List (List Char) := createDataDirs dataPath

/-- Configuration.hpp:27-31; `/cache/` -/
def registerStylesheet (indexPath tag : List Char) : List (List Char) :=
  createDataDirs (indexPath ++ '/' :: 'c' :: 'a' :: 'c' :: 'h' :: 'e' :: '/' :: (tag ++ ['/']))

/-- MeshCache.cpp:89-95, the file of the cache for a tile -/
def cachePath (indexPath tag : List Char) (q : QuadKey) (extension : List Char) : List Char :=
  tilePath (indexPath ++ '/' :: 'c' :: 'a' :: 'c' :: 'h' :: 'e' :: '/' :: tag) q extension

/-! ## Export of elements, Search.hpp:87-191 -/

/-- `std::vector<std::string>` with its memory: the strings, the capacity and the number of the block of memory in use. -/
structure Strings where
  items : List String
  capacity : Nat
  block : Nat
deriving DecidableEq, Repr

/-- The result of `c_str()` of a string in the vector. Short strings are stored in the string object, so the address is inside the block. -/
structure Pointer where
  block : Nat
  index : Nat
deriving DecidableEq, Repr

/-- What a pointer points to: nothing valid if the vector has moved its strings to another block since. -/
def Strings.read (v : Strings) (p : Pointer) : Outcome String :=
  if p.block = v.block then
    match v.items[p.index]? with
    | some s => .ok s
    | none => .ub "dangling pointer"
  else .ub "dangling pointer"

/-- `reserve` -/
def Strings.reserve (v : Strings) (n : Nat) : Strings := if v.capacity < n then { v with capacity := n, block := v.block + 1 } else v

/-- `push_back`: strings move to a block of twice the size if there is no space. -/
def Strings.push (v : Strings) (s : String) : Strings :=
  if v.items.length < v.capacity then { v with items := v.items ++ [s] }
  else { items := v.items ++ [s], capacity := 2 * v.capacity + 1, block := v.block + 1 }

/-- `clear`: the memory is kept. -/
def Strings.clear (v : Strings) : Strings := { v with items := [] }

/-- `v[v.size() - k].c_str()` -/
def Strings.pointer (v : Strings) (k : Nat) : Pointer := ⟨v.block, v.items.length - k⟩

/-- Search.hpp:148-156 and 171-177: the loop which copies pairs of strings and takes their addresses. -/
def pairLoop : Strings → List Pointer → List (String × String) → Strings × List Pointer
  | v, ps, [] => (v, ps)
  | v, ps, (key, value) :: rest =>
    let v := (v.push key).push value
    pairLoop v (ps ++ [v.pointer 2, v.pointer 1]) rest

/-- Search.hpp:144-159 and 162-180: the pairs of strings with reserved memory -/
def exportPairs (v : Strings) (pairs : List (String × String)) : Strings × List Pointer := pairLoop (v.reserve (pairs.length * 2)) [] pairs

/-- The members of `ExportElementVisitor`, Search.hpp:193-203 -/
structure Visitor (D : Type) where
  vertices : List D
  tagStrings : Strings
  styleStrings : Strings

/-- What the callback is called with, as it is seen by the callback: pointers have been read. -/
structure Exported (D : Type) where
  id : UInt64
  tags : List String
  vertices : List D
  style : List String
deriving DecidableEq

/-- Reading all pointers. -/
def readAll (v : Strings) : List Pointer → Outcome (List String)
  | [] => .ok []
  | p :: ps => (v.read p).bind fun s => (readAll v ps).bind fun rest => .ok (s :: rest)

/-- Search.hpp:183-191 -/
def fillVertices (elevation : D × D → D) (vertices : List D) (cs : List (D × D)) : List D :=
  cs.foldl (fun vs c => vs ++ [c.2, c.1, elevation c]) vertices

/-- Search.hpp:148-153: the strings of the tags of an element -/
def tagPairs (getString : UInt32 → Outcome String) : List Tag → Outcome (List (String × String))
  | [] => .ok []
  | t :: ts => (getString t.key).bind fun k => (getString t.value).bind fun v => (tagPairs getString ts).bind fun rest => .ok ((k, v) :: rest)

/-- Search.hpp:125-141. The style is given as its declarations, empty if there is no style provider. -/
def visitElement (getString : UInt32 → Outcome String) (declarations : Element (D × D) → Outcome (List (String × String))) (elevation : D × D → D)
    (v : Visitor D) (e : Element (D × D)) (coordinates : List (D × D)) : Outcome (Visitor D × Exported D) :=
  (tagPairs getString e.tags).bind fun pairs =>
    let (tagStrings, ctags) := exportPairs v.tagStrings pairs
    (declarations e).bind fun decs =>
      let (styleStrings, cstyles) := exportPairs v.styleStrings decs
      let vertices := fillVertices elevation v.vertices coordinates
      (readAll tagStrings ctags).bind fun tags =>
        (readAll styleStrings cstyles).bind fun style =>
          .ok (⟨[], tagStrings.clear, styleStrings.clear⟩, ⟨e.id, tags, vertices, style⟩)

/-- Search.hpp:108-123: the coordinates which are exported; `zero` is the coordinate (0, 0). -/
def exportedCoordinates (zero : D × D) : Element (D × D) → List (D × D)
  | .node _ _ c => [c]
  | .way _ _ cs => cs
  | .area _ _ cs => cs
  | .relation _ _ _ => [zero]

/-- All elements which are found are visited by the same visitor. -/
def visitAll (zero : D × D) (getString : UInt32 → Outcome String) (declarations : Element (D × D) → Outcome (List (String × String)))
    (elevation : D × D → D) : Visitor D → List (Element (D × D)) → Outcome (List (Exported D))
  | _, [] => .ok []
  | v, e :: es =>
    (visitElement getString declarations elevation v e (exportedCoordinates zero e)).bind fun (v, out) =>
      (visitAll zero getString declarations elevation v es).bind fun outs => .ok (out :: outs)

end Verif.Api
