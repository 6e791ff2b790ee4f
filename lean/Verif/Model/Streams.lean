import Verif.Model.Basic
import Verif.Model.Bytes
import Verif.Model.Element

/-!
# Binary codecs: `core/src/index/ElementStream.cpp`, `MeshStream.cpp`, `BitmapStream.cpp`

A reader gets the bytes from the current position on and returns the value and the remaining bytes, or `none` if the
stream ends too early (the C++ code then works with unspecified values).
-/
namespace Verif.Streams
open Verif

/-- `stream.read(&x, w)` -/
def readLe (w : Nat) (bs : Bytes) : Option (Nat × Bytes) :=
  if bs.length < w then none else some (leNat (bs.take w), bs.drop w)

/-- Reading `n` items in a row. -/
def readN {α : Type} (rd : Bytes → Option (α × Bytes)) : Nat → Bytes → Option (List α × Bytes)
  | 0, bs => some ([], bs)
  | n + 1, bs => do
    let (x, bs) ← rd bs
    let (xs, bs) ← readN rd n bs
    some (x :: xs, bs)

/-! ## ElementStream -/

/-- A coordinate is a pair of doubles; only their 64 bit patterns matter here. -/
structure Coord where
  lat : UInt64
  lon : UInt64
deriving DecidableEq, Repr

/-- ElementStream.cpp:20-24 -/
def writeTag (t : Tag) : Bytes := leBytes 4 t.key.toNat ++ leBytes 4 t.value.toNat

/-- ElementStream.cpp:26-30 -/
def readTag (bs : Bytes) : Option (Tag × Bytes) := do
  let (k, bs) ← readLe 4 bs
  let (v, bs) ← readLe 4 bs
  some (⟨UInt32.ofNat k, UInt32.ofNat v⟩, bs)

/-- ElementStream.cpp:32-36 -/
def writeCoord (c : Coord) : Bytes := leBytes 8 c.lat.toNat ++ leBytes 8 c.lon.toNat

/-- ElementStream.cpp:38-42 -/
def readCoord (bs : Bytes) : Option (Coord × Bytes) := do
  let (a, bs) ← readLe 8 bs
  let (o, bs) ← readLe 8 bs
  some (⟨UInt64.ofNat a, UInt64.ofNat o⟩, bs)

/-- ElementStream.cpp:44-51: the count is cut to 16 bits. -/
def writeVec {α : Type} (wr : α → Bytes) (xs : List α) : Bytes := leBytes 2 xs.length ++ xs.flatMap wr

/-- ElementStream.cpp:53-61 -/
def readVec {α : Type} (rd : Bytes → Option (α × Bytes)) (bs : Bytes) : Option (List α × Bytes) := do
  let (n, bs) ← readLe 2 bs
  readN rd n bs

mutual
/-- ElementStream.cpp:64-87: type byte, tags, payload. -/
def writeElement : Element Coord → Bytes
  | .node _ tags c => 0 :: (writeVec writeTag tags ++ writeCoord c)
  | .way _ tags cs => 1 :: (writeVec writeTag tags ++ writeVec writeCoord cs)
  | .area _ tags cs => 2 :: (writeVec writeTag tags ++ writeVec writeCoord cs)
  | .relation _ tags ms => 3 :: (writeVec writeTag tags ++ (leBytes 2 ms.length ++ writeMembers ms))

/-- ElementStream.cpp:83-86: id and element of every member. -/
def writeMembers : List (Element Coord) → Bytes
  | [] => []
  | m :: ms => leBytes 8 m.id.toNat ++ (writeElement m ++ writeMembers ms)
end

/-- White space skipped by `stream_ >> elementType`. -/
def isSpace (b : UInt8) : Bool := b = 32 || (9 ≤ b && b ≤ 13)

/-- ElementStream.cpp:137-143; `read` reads one element. -/
def readMembers (read : Bytes → Outcome (Element Coord × Bytes)) : Nat → Bytes → Outcome (List (Element Coord) × Bytes)
  | 0, bs => .ok ([], bs)
  | n + 1, bs =>
    match readLe 8 bs with
    | none => .ub "end of stream"
    | some (i, bs) =>
      match read bs with
      | .ok (e, bs) =>
        match readMembers read n bs with
        | .ok (ms, bs) => .ok (e.withId (UInt64.ofNat i) :: ms, bs)
        | .throw e => .throw e
        | .ub w => .ub w
      | .throw e => .throw e
      | .ub w => .ub w

/-- ElementStream.cpp:98-145. `fuel` bounds the nesting depth; `readElement` starts with the number of available
bytes, and every nested element uses at least one, so the bound is never the reason for stopping. The id of the result
is 0 until the caller sets it. `Outcome.throw` is the `domain_error` for unknown types, `Outcome.ub` an early end of
the stream. -/
def readElementAux : Nat → Bytes → Outcome (Element Coord × Bytes)
  | 0, _ => .ub "end of stream"
  | fuel + 1, bs =>
    match bs.dropWhile isSpace with
    | [] => .ub "end of stream"
    | ty :: bs =>
      if ty = 0 then
        match (do let (t, bs) ← readVec readTag bs; let (c, bs) ← readCoord bs; some (Element.node 0 t c, bs)) with
        | some r => .ok r
        | none => .ub "end of stream"
      else if ty = 1 then
        match (do let (t, bs) ← readVec readTag bs; let (c, bs) ← readVec readCoord bs
                  some (Element.way 0 t c, bs)) with
        | some r => .ok r
        | none => .ub "end of stream"
      else if ty = 2 then
        match (do let (t, bs) ← readVec readTag bs; let (c, bs) ← readVec readCoord bs
                  some (Element.area 0 t c, bs)) with
        | some r => .ok r
        | none => .ub "end of stream"
      else if ty = 3 then
        match (do let (t, bs) ← readVec readTag bs; let (n, bs) ← readLe 2 bs; some (t, n, bs)) with
        | some (t, n, bs) =>
          match readMembers (readElementAux fuel) n bs with
          | .ok (ms, bs) => .ok (Element.relation 0 t ms, bs)
          | .throw e => .throw e
          | .ub w => .ub w
        | none => .ub "end of stream"
      else .throw "domain_error"

/-- ElementStream.cpp:151-156 -/
def readElement (id : UInt64) (bs : Bytes) : Outcome (Element Coord × Bytes) :=
  match readElementAux bs.length bs with
  | .ok (e, bs) => .ok (e.withId id, bs)
  | .throw e => .throw e
  | .ub w => .ub w

/-! ## MeshStream -/

/-- math/Mesh.hpp:11-18. `D` is the type of doubles; `int` values are their 32 bit patterns. -/
structure Mesh (D : Type) where
  name : Bytes
  vertices : List D
  triangles : List UInt32
  colors : List UInt32
  uvs : List D
  uvMap : List UInt32
deriving DecidableEq, Repr

/-- Conversion between `double` and `float` bit patterns, an arbitrary pair of functions. -/
structure FloatConv (D : Type) where
  toFloat : D → UInt32
  ofFloat : UInt32 → D

/-- MeshStream.cpp:37-44: the count is cut to 32 bits. -/
def writeVec32 {α : Type} (wr : α → Bytes) (xs : List α) : Bytes := leBytes 4 xs.length ++ xs.flatMap wr

/-- MeshStream.cpp:46-54 -/
def readVec32 {α : Type} (rd : Bytes → Option (α × Bytes)) (bs : Bytes) : Option (List α × Bytes) := do
  let (n, bs) ← readLe 4 bs
  readN rd n bs

/-- MeshStream.cpp:25-28 for `int` -/
def writeInt (x : UInt32) : Bytes := leBytes 4 x.toNat

/-- MeshStream.cpp:10-15 for `int` -/
def readInt (bs : Bytes) : Option (UInt32 × Bytes) := do
  let (n, bs) ← readLe 4 bs
  some (UInt32.ofNat n, bs)

variable {D : Type}

/-- MeshStream.cpp:30-35 -/
def writeDouble (fc : FloatConv D) (x : D) : Bytes := writeInt (fc.toFloat x)

/-- MeshStream.cpp:17-23 -/
def readDouble (fc : FloatConv D) (bs : Bytes) : Option (D × Bytes) := do
  let (n, bs) ← readInt bs
  some (fc.ofFloat n, bs)

/-- MeshStream.cpp:56-59 -/
def writeMesh (fc : FloatConv D) (m : Mesh D) : Bytes :=
  m.name.takeWhile (· ≠ 0) ++ (0 :: (writeVec32 (writeDouble fc) m.vertices ++ (writeVec32 writeInt m.triangles ++
    (writeVec32 writeInt m.colors ++ (writeVec32 (writeDouble fc) m.uvs ++ writeVec32 writeInt m.uvMap)))))

/-- `std::getline(stream, name, '\0')`; `none` if nothing at all could be extracted. -/
def readLine (bs : Bytes) : Option (Bytes × Bytes) :=
  match bs with
  | [] => none
  | _ => some (bs.takeWhile (· ≠ 0), (bs.dropWhile (· ≠ 0)).drop 1)

/-- MeshStream.cpp:61-65 -/
def readMesh (fc : FloatConv D) (bs : Bytes) : Option (Mesh D × Bytes) := do
  let (name, bs) ← readLine bs
  let (vertices, bs) ← readVec32 (readDouble fc) bs
  let (triangles, bs) ← readVec32 readInt bs
  let (colors, bs) ← readVec32 readInt bs
  let (uvs, bs) ← readVec32 (readDouble fc) bs
  let (uvMap, bs) ← readVec32 readInt bs
  some (⟨name, vertices, triangles, colors, uvs, uvMap⟩, bs)

/-! ## BitmapStream -/

/-- The stored fields of `EWAHBoolArray<uint32_t>` (core/lib/ewah/ewah.h). -/
structure Bitset where
  sizeInBits : UInt64
  buffer : List UInt32
deriving DecidableEq, Repr

/-- core/lib/ewah/ewah.h:1106-1118 `EWAHBoolArray::write` with 64 bit `size_t`. -/
def writeBitset (b : Bitset) : Bytes :=
  leBytes 8 b.sizeInBits.toNat ++ (leBytes 8 b.buffer.length ++ b.buffer.flatMap writeInt)

/-- core/lib/ewah/ewah.h:1121-1132 `EWAHBoolArray::read` on a good stream. -/
def readBitset (bs : Bytes) : Option (Bitset × Bytes) := do
  let (n, bs) ← readLe 8 bs
  let (len, bs) ← readLe 8 bs
  let (buf, bs) ← readN readInt len bs
  some (⟨UInt64.ofNat n, buf⟩, bs)

/-- BitmapStream.cpp:17-23: the entries in iteration order. -/
def writeBitmap (m : Assoc UInt32 Bitset) : Bytes :=
  m.flatMap (fun e => writeInt e.1 ++ writeBitset e.2)

/-- BitmapStream.cpp:9-14 on the bytes from the current position. At the end of the stream one more pass of the loop
runs: the key keeps its previous value `key` (indeterminate if nothing was read before), the bitset keeps its size and
gets an empty buffer, and `emplace` does nothing if the key is present. `none`: the file ends inside a record. -/
def readBitmapLoop : Nat → UInt32 → UInt64 → Assoc UInt32 Bitset → Bytes → Option (Assoc UInt32 Bitset)
  | 0, _, _, _, _ => none
  | fuel + 1, key, size, acc, bs =>
    match bs with
    | [] => some (acc.emplace key ⟨size, []⟩)
    | _ => do
      let (k, bs) ← readInt bs
      let (b, bs) ← readBitset bs
      readBitmapLoop fuel k b.sizeInBits (acc.emplace k b) bs

/-- BitmapStream.cpp:5-15; `garbage` is the indeterminate initial value of `key`. -/
def readBitmap (garbage : UInt32) (bs : Bytes) : Option (Assoc UInt32 Bitset) :=
  readBitmapLoop (bs.length + 1) garbage 0 [] bs

end Verif.Streams
