import Verif.Model.MemStore
import Verif.Model.Streams

/-!
# `core/src/index/PersistentElementStore.cpp`

Each tile has three files: data (`.dat`), index (`.idf`) and bitmap (`.bmp`). Data and index are kept open in a cache of
twelve tiles; an open file has one position shared by reading and writing, writes go to the end (`ios::app`). The cache is
the recency list which C01 shows the LRU cache to be, most recent first. Simplifications: directories exist and I/O does not
fail; file names are represented by the tile (C09: they are different for different tiles).
-/
namespace Verif.PersistentStore
open Verif.BitmapIndex (Bitmap Terms)
open Verif.Ewah (Ewah)
open Verif.Streams (Coord Bitset readLe readElement writeElement readBitmap writeBitmap)
open Verif.MemStore (Out)

abbrev El := Element Coord

/-- The files of a tile; `bmp = none`: no bitmap file. -/
structure Files where
  dat : Bytes
  idx : Bytes
  bmp : Option Bytes
deriving DecidableEq, Repr

/-- PersistentElementStore.cpp:38-100 `QuadKeyData`: positions in the open files and the bitmap in memory. -/
structure Handle where
  dPos : Nat
  iPos : Nat
  bitmap : Bitmap
deriving DecidableEq, Repr

structure Store where
  disk : Assoc QuadKey Files
  cache : List (QuadKey × Handle)
deriving DecidableEq, Repr

def init : Store := ⟨[], []⟩

/-- PersistentElementStore.cpp:115 -/
def cacheSize : Nat := 12

/-- The stored fields of a bitmap (ewah.h:1106-1118). -/
def toBitset (e : Ewah) : Bitset := ⟨UInt64.ofNat e.size, e.buffer⟩

/-- ewah.h:1121-1132: `read` does not restore `lastRLW`, it stays 0. -/
def ofBitset (b : Bitset) : Ewah := ⟨b.buffer, b.sizeInBits.toNat, 0⟩

def toBitsets (bm : Bitmap) : Assoc UInt32 Bitset := bm.map fun e => (e.1, toBitset e.2)
def ofBitsets (bm : Assoc UInt32 Bitset) : Bitmap := bm.map fun e => (e.1, ofBitset e.2)

/-- The files of a tile after opening: PersistentElementStore.cpp:52-53 creates missing data and index files. -/
def filesOf (disk : Assoc QuadKey Files) (q : QuadKey) : Files := (disk.find q).getD ⟨[], [], none⟩

/-- PersistentElementStore.cpp:208-219 `getQuadKeyData`: the handle is moved or put to the front; a new one stands at the
ends of its files (`ios::ate`) and has no bitmap. Returns the handle, the files and the other cache entries. -/
def openTile (s : Store) (q : QuadKey) : Handle × Files × List (QuadKey × Handle) × Assoc QuadKey Files :=
  let f := filesOf s.disk q
  match Assoc.find s.cache q with
  | some h => (h, f, Assoc.erase s.cache q, s.disk)
  | none => (⟨f.dat.length, f.idx.length, []⟩, f, s.cache.take (cacheSize - 1), s.disk.set q f)

/-- PersistentElementStore.cpp:56-64 `getBitmap`: an empty bitmap in memory is read from the file; `garbage` is the
indeterminate key of BitmapStream.cpp:6. -/
def loadBitmap (garbage : UInt32) (h : Handle) (f : Files) : Option Bitmap :=
  if h.bitmap = [] then (readBitmap garbage (f.bmp.getD [])).map ofBitsets else some h.bitmap

/-- PersistentElementStore.cpp:117-137 `store`. The second `getBitmap` finds the bitmap in memory: it is not empty after
`loadBitmap`. -/
def save (tokens : El → List UInt32) (garbage : UInt32) (s : Store) (q : QuadKey) (e : El) : Outcome Store :=
  let (h, f, rest, disk) := openTile s q
  let offset := h.dPos % 2 ^ 32
  let order := h.iPos / 12 % 2 ^ 32
  let idx := f.idx ++ (leBytes 8 e.id.toNat ++ leBytes 4 offset)
  let dat := f.dat ++ writeElement e
  match loadBitmap garbage h f with
  | none => .ub "bitmap file"
  | some bm => match BitmapIndex.add bm (tokens e) order with
    | none => .ub "EWAH set"
    | some bm => .ok ⟨disk.set q ⟨dat, idx, some (writeBitmap (toBitsets bm))⟩, (q, ⟨dat.length, idx.length, bm⟩) :: rest⟩

/-- PersistentElementStore.cpp:230-236 at the current index position, followed by reading the element
(PersistentElementStore.cpp:159-162, 197-199). -/
def readEntry (f : Files) (h : Handle) : Outcome (El × Handle) :=
  match (do let (id, bs) ← readLe 8 (f.idx.drop h.iPos); let (off, _) ← readLe 4 bs; some (id, off)) with
  | none => .ub "index file"
  | some (id, off) =>
    (readElement (UInt64.ofNat id) (f.dat.drop off)).bind fun r => .ok (r.1, { h with iPos := h.iPos + 12, dPos := f.dat.length - r.2.length })

/-- PersistentElementStore.cpp:155-163; `budget = some n`: the search is cancelled before element `n`. -/
def readMany (f : Files) : Nat → Option Nat → Handle → Outcome (List El × Handle)
  | 0, _, h => .ok ([], h)
  | _ + 1, some 0, h => .ok ([], h)
  | n + 1, budget, h =>
    (readEntry f h).bind fun r => (readMany f n (budget.map (· - 1)) r.2).bind fun rest => .ok (r.1 :: rest.1, rest.2)

/-- PersistentElementStore.cpp:148-164 `search(quadKey)` -/
def searchTile (s : Store) (q : QuadKey) (cancelAfter : Option Nat) : Outcome (Store × List El) :=
  let (h, f, rest, disk) := openTile s q
  (readMany f (h.iPos / 12 % 2 ^ 32) cancelAfter { h with iPos := 0 }).bind fun r => .ok (⟨disk, (q, r.2) :: rest⟩, r.1)

/-- PersistentElementStore.cpp:166-169: opening the data file succeeds. -/
def hasData (s : Store) (q : QuadKey) : Bool := (s.disk.find q).isSome

/-- PersistentElementStore.cpp:189-200 `notify` for every order. -/
def readOrders (f : Files) : List Nat → Handle → Outcome (List El × Handle)
  | [], h => .ok ([], h)
  | o :: os, h =>
    (readEntry f { h with iPos := o * 12 }).bind fun r => (readOrders f os r.2).bind fun rest => .ok (r.1 :: rest.1, rest.2)

/-- BitmapIndex.cpp:48-75 for one tile. -/
def searchTextTile (garbage : QuadKey → UInt32) (s : Store) (terms : Terms) (q : QuadKey) : Outcome (Store × List El) :=
  if hasData s q then
    let (h, f, rest, disk) := openTile s q
    match loadBitmap (garbage q) h f with
    | none => .ub "bitmap file"
    | some bm => match BitmapIndex.search bm terms with
      | none => .ub "EWAH"
      | some os => (readOrders f os { h with bitmap := bm }).bind fun r => .ok (⟨disk, (q, r.2) :: rest⟩, r.1)
  else .ok (s, [])

/-- PersistentElementStore.cpp:139-146 with the loops of BitmapIndex.cpp:45-47. -/
def searchText (garbage : QuadKey → UInt32) (terms : Terms) (hit : El → Bool) : Store → List QuadKey → Outcome (Store × List El)
  | s, [] => .ok (s, [])
  | s, q :: qs => (searchTextTile garbage s terms q).bind fun a =>
      (searchText garbage terms hit a.1 qs).bind fun b => .ok (b.1, a.2.filter hit ++ b.2)

/-- PersistentElementStore.cpp:171-178 `erase(quadKey)`: removes the files and closes all tiles. -/
def erase (s : Store) (q : QuadKey) : Store :=
  let (_, _, _, disk) := openTile s q
  ⟨disk.erase q, []⟩

/-- PersistentElementStore.cpp:184-186 `flush`; also the destructor followed by the constructor on the same directory. -/
def flush (s : Store) : Store := ⟨s.disk, []⟩

/-- The calls of the store. -/
inductive Op
  | save (q : QuadKey) (e : El)
  | tile (q : QuadKey) (cancelAfter : Option Nat)
  | text (terms : Terms) (hit : El → Bool) (tiles : List QuadKey)
  | hasData (q : QuadKey)
  | erase (q : QuadKey)
  | flush
  | reopen

/-- One call; `garbage` are the indeterminate values met by it. After undefined behaviour or an exception the state of the
model is not updated. -/
def step (tokens : El → List UInt32) (garbage : QuadKey → UInt32) (s : Store) : Op → Store × Out El
  | .save q e => match save tokens (garbage q) s q e with
    | .ok s' => (s', .done)
    | o => (s, .failed (MemStore.Outcome.forget o))
  | .tile q c => match searchTile s q c with
    | .ok r => (r.1, .elements r.2)
    | o => (s, .failed (MemStore.Outcome.forget o))
  | .text t h qs => match searchText garbage t h s qs with
    | .ok r => (r.1, .elements r.2)
    | o => (s, .failed (MemStore.Outcome.forget o))
  | .hasData q => (s, .flag (hasData s q))
  | .erase q => (erase s q, .done)
  | .flush => (flush s, .done)
  | .reopen => (flush s, .done)

/-- A sequence of calls, each with its indeterminate values. -/
def run (tokens : El → List UInt32) (s : Store) : List ((QuadKey → UInt32) × Op) → Store × List (Out El)
  | [] => (s, [])
  | (g, op) :: ops =>
    let r := step tokens g s op
    let rest := run tokens r.1 ops
    (rest.1, r.2 :: rest.2)

end Verif.PersistentStore
