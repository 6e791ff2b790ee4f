import Verif.Model.Streams
import Verif.Model.Tiles

/-!
# `core/src/builders/MeshCache.cpp`

The mutex makes `wrap`, `unwrap` and the check in `fetch` atomic, so a concurrent execution is a list of these operations
and of callbacks. A file is the pair (stylesheet tag, tile) it is named after (MeshCache.cpp:89-95, see C09 for the tile part).
Bytes written are at once part of the file; that some of them may still be in the buffer of the stream is represented by
the arguments of `crash` and `diskFull`. Opening the file anew while another stream has it open truncates it; writes go to the
position of the stream. The file system keeps writes in order (no power failure).
-/
namespace Verif.MeshCache
open Verif.Streams

/-- What builders deliver. -/
inductive Item (D : Type)
  | mesh (m : Mesh D)
  | element (e : Element Coord)
deriving DecidableEq, Repr

variable {D : Type}

/-- MeshCache.cpp:119-120, 128-130 -/
def encode (fc : FloatConv D) : Item D → Bytes
  | .mesh m => 1 :: writeMesh fc m
  | .element e => 0 :: (leBytes 8 e.id.toNat ++ writeElement e)

/-- Stylesheet tag and tile. -/
abbrev Path := List Char × QuadKey

/-- A file stream of `cachingQuads_`; `owner` is the build whose callbacks refer to it. -/
structure Stream where
  path : Path
  pos : Nat
  good : Bool
  owner : Nat
deriving DecidableEq, Repr

structure State where
  disk : Assoc Path Bytes
  caching : Assoc QuadKey Stream
deriving DecidableEq, Repr

def init : State := ⟨[], []⟩

/-- Writing at a position of a file, a gap is filled with zeros. -/
def writeAt (c : Bytes) (pos : Nat) (bs : Bytes) : Bytes :=
  c.take pos ++ List.replicate (pos - c.length) 0 ++ bs ++ c.drop (pos + bs.length)

/-- Writing through a stream; a removed file is gone. -/
def writeFile (disk : Assoc Path Bytes) (p : Path) (pos : Nat) (bs : Bytes) : Assoc Path Bytes :=
  match disk.find p with
  | none => disk
  | some c => disk.set p (writeAt c pos bs)

/-- MeshCache.cpp:157-163: `>>` skips white space and leaves `status` indeterminate at the end of the file. -/
def isGood (garbage : UInt8) (c : Bytes) : Bool :=
  match c.dropWhile isSpace with
  | [] => garbage = 1
  | b :: _ => b = 1

/-- MeshCache.cpp:78-86 -/
def isCacheHit (garbage : UInt8) (s : State) (p : Path) : Bool :=
  match s.caching.find p.2 with
  | some _ => false
  | none => match s.disk.find p with
    | none => false
    | some c => isGood garbage c

/-- MeshCache.cpp:29-34, 97-114: the result says whether the context was wrapped. `opens`: opening the file succeeds.
The stream lives as long as its entry in the map: if `insert` does not take place it is destroyed on return. -/
def wrap (s : State) (b : Nat) (p : Path) (garbage : UInt8) (opens : Bool) : State × Bool :=
  if isCacheHit garbage s p then (s, false)
  else (⟨if opens then s.disk.set p [0] else s.disk, s.caching.emplace p.2 ⟨p, 1, opens, b⟩⟩, true)

/-- MeshCache.cpp:116-133, the callbacks of the wrapped context of build `b` for tile `q`; the result is what the callback of the
caller gets. -/
def callback (fc : FloatConv D) (s : State) (b : Nat) (q : QuadKey) (i : Item D) (cancelled : Bool) : Outcome (State × List (Item D)) :=
  if cancelled then .ok (s, [])
  else match s.caching.find q with
    | none => .ub "stream destroyed"
    | some st =>
      if st.owner = b then
        if st.good then
          let bs := encode fc i
          .ok (⟨writeFile s.disk st.path st.pos bs, s.caching.set q { st with pos := st.pos + bs.length }⟩, [i])
        else .ok (s, [i])
      else .ub "stream destroyed"

/-- MeshCache.cpp:50-73, the context belongs to file `p`. -/
def unwrap (s : State) (p : Path) (cancelled : Bool) : State :=
  match s.caching.find p.2 with
  | none => s
  | some st =>
    let disk := if st.good then (if cancelled then s.disk.erase p else writeFile s.disk st.path 0 [1]) else s.disk
    ⟨disk, s.caching.erase p.2⟩

/-- MeshCache.cpp:142-154; `budget = some n`: cancelled before record `n`. The first argument bounds the number of records by the
number of bytes. -/
def readItems (fc : FloatConv D) : Nat → Option Nat → Bytes → Outcome (List (Item D))
  | 0, _, _ => .ok []
  | _ + 1, some 0, _ => .ok []
  | fuel + 1, budget, bs =>
    match bs.dropWhile isSpace with
    | [] => .ok []
    | ty :: bs =>
      if ty = 1 then
        match readMesh fc bs with
        | none => .ub "end of stream"
        | some (m, bs) => (readItems fc fuel (budget.map (· - 1)) bs).bind fun l => .ok (.mesh m :: l)
      else if ty = 0 then
        match readLe 8 bs with
        | none => .ub "end of stream"
        | some (id, bs) => (readElement (UInt64.ofNat id) bs).bind fun r =>
            (readItems fc fuel (budget.map (· - 1)) r.2).bind fun l => .ok (.element r.1 :: l)
      else .throw "invalid_argument"

/-- MeshCache.cpp:135-155; the file was seen by `isCacheHit` just before. -/
def readCache (fc : FloatConv D) (garbage : UInt8) (budget : Option Nat) (c : Bytes) : Outcome (List (Item D)) :=
  if isGood garbage c then
    readItems fc c.length budget ((c.dropWhile isSpace).drop 1)
  else .ok []

/-- MeshCache.cpp:36-48; `none`: no hit. -/
def fetch (fc : FloatConv D) (s : State) (p : Path) (garbage : UInt8) (budget : Option Nat) : Outcome (Option (List (Item D))) :=
  if isCacheHit garbage s p then (readCache fc garbage budget ((s.disk.find p).getD [])).bind fun l => .ok (some l)
  else .ok none

/-- The process ends: of the file open for tile `e.1` the first `flushed e.1` bytes are on disk. (No line of /repo, see the head.) -/
def crashOne (flushed : QuadKey → Nat) (d : Assoc Path Bytes) (e : QuadKey × Stream) : Assoc Path Bytes :=
  match d.find e.2.path with
  | none => d
  | some c => if e.2.good then d.set e.2.path (c.take (flushed e.1)) else d

/-- The process ends at some moment and is started again with an empty `cachingQuads_` (MeshCache.cpp:22-27). -/
def crash (s : State) (flushed : QuadKey → Nat) : State :=
  ⟨s.caching.foldl (crashOne flushed) s.disk, []⟩

/-- Writing to the stream of tile `q` fails; the first `n` bytes are on disk. -/
def diskFull (s : State) (q : QuadKey) (n : Nat) : State :=
  match s.caching.find q with
  | none => s
  | some st =>
    if st.good then
      ⟨match s.disk.find st.path with
        | none => s.disk
        | some c => s.disk.set st.path (c.take n), s.caching.set q { st with good := false }⟩
    else s

inductive Op (D : Type)
  | wrap (b : Nat) (p : Path) (garbage : UInt8) (opens : Bool)
  | callback (b : Nat) (q : QuadKey) (i : Item D) (cancelled : Bool)
  | unwrap (b : Nat) (p : Path) (cancelled : Bool)
  | fetch (p : Path) (garbage : UInt8) (budget : Option Nat)
  | crash (flushed : QuadKey → Nat)
  | diskFull (q : QuadKey) (n : Nat)

inductive Out (D : Type)
  | done
  | wrapped (b : Bool)
  | delivered (l : List (Item D))
  | fetched (l : Option (List (Item D)))
  | failed (o : Outcome Unit)

def forget {α : Type} : Outcome α → Outcome Unit
  | .ok _ => .ok ()
  | .throw e => .throw e
  | .ub w => .ub w

def step (fc : FloatConv D) (s : State) : Op D → State × Out D
  | .wrap b p g opens => let r := wrap s b p g opens; (r.1, .wrapped r.2)
  | .callback b q i c => match callback fc s b q i c with
    | .ok r => (r.1, .delivered r.2)
    | o => (s, .failed (forget o))
  | .unwrap _ p c => (unwrap s p c, .done)
  | .fetch p g budget => match fetch fc s p g budget with
    | .ok r => (s, .fetched r)
    | o => (s, .failed (forget o))
  | .crash f => (crash s f, .done)
  | .diskFull q n => (diskFull s q n, .done)

def run (fc : FloatConv D) (s : State) : List (Op D) → State × List (Out D)
  | [] => (s, [])
  | op :: ops =>
    let r := step fc s op
    let rest := run fc r.1 ops
    (rest.1, r.2 :: rest.2)

end Verif.MeshCache
