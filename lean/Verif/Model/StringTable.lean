import Verif.Model.Lru
import Verif.Model.Bytes

/-!
# Model of `core/src/index/StringTable.cpp`

The two files are byte lists, `getline` and the fail bit of the data stream are modelled, and so are the hash
buckets and the LRU cache.

Simplifications: the hash function (`MurmurHash3_x86_32` with a seed) is an arbitrary function `Bytes → UInt32`;
opening the files succeeds; writes reach the files immediately (crash points are treated separately, see
`crash`); the index stream, which is only read in the constructor, never fails.
-/
namespace Verif.StringTable
open Verif

/-- StringTable.cpp:116-126, the members. `fail` is the fail bit of `dataFile_`. -/
structure State where
  idx : Bytes
  dat : Bytes
  fail : Bool
  nextId : Nat
  map : Assoc UInt32 (List Nat)
  offsets : List Nat
  cache : Lru.State Nat Bytes

/-- Public calls; `reopen` destroys the object and constructs a new one on the same path. -/
inductive Op where
  | getId (s : Bytes)
  | getString (id : Nat)
  | reopen
deriving DecidableEq, Repr

/-- Results; `error` stands for an exception or undefined behaviour of the cache. -/
inductive Out where
  | id (n : Nat)
  | str (s : Bytes)
  | unit
  | error
deriving DecidableEq, Repr

/-- StringTable.cpp:38-44: the (hash, offset) records of the index file; a trailing partial record is ignored
because of the integer division in line 28. -/
def records : Bytes → List (UInt32 × Nat)
  | a :: b :: c :: d :: e :: f :: g :: h :: rest =>
    (UInt32.ofNat (leNat [a, b, c, d]), leNat [e, f, g, h]) :: records rest
  | _ => []

/-- `map_[hash].push_back(id)`, StringTable.cpp:43 and 112. -/
def push (m : Assoc UInt32 (List Nat)) (h : UInt32) (id : Nat) : Assoc UInt32 (List Nat) :=
  m.set h ((m.find h).getD [] ++ [id])

/-- StringTable.cpp:38-44: fill the buckets, `i` is the id of the first record. -/
def buckets (m : Assoc UInt32 (List Nat)) (i : Nat) : List (UInt32 × Nat) → Assoc UInt32 (List Nat)
  | [] => m
  | r :: rs => buckets (push m r.1 i) (i + 1) rs

/-- StringTable.cpp:20-46, constructor on existing files; `cap` is the cache limit (1024 in the code). -/
def openOn (cap : Nat) (idx dat : Bytes) : State :=
  { idx, dat, fail := false, nextId := idx.length / 8, map := buckets [] 0 (records idx),
    offsets := (records idx).map (·.2), cache := Lru.init cap }

/-- `std::getline(dataFile_, data, '\0')` from position `pos`: the text up to the next NUL or the end, and
whether the fail bit gets set (nothing could be extracted, not even the delimiter). -/
def getline (dat : Bytes) (pos : Nat) : Bytes × Bool :=
  let rest := dat.drop pos
  (rest.takeWhile (· ≠ 0), rest.isEmpty)

/-- StringTable.cpp:89-95. Returns the text and the new fail bit; on a failed stream nothing is read. -/
def readString (s : State) (id : Nat) : Bytes × Bool :=
  match s.offsets[id]? with
  | none => ([], s.fail)
  | some off => if s.fail then ([], true) else getline s.dat off

/-- `data.c_str()` written by `<<`: the text up to the first NUL. -/
def cstr (s : Bytes) : Bytes := s.takeWhile (· ≠ 0)

/-- StringTable.cpp:98-114. On a failed stream `tellg` is -1 and nothing is written to the data file. -/
def writeString (s : State) (h : UInt32) (str : Bytes) : State :=
  let off := if s.fail then 2 ^ 32 - 1 else s.dat.length % 2 ^ 32
  { s with
    dat := if s.fail then s.dat else s.dat ++ cstr str ++ [0]
    idx := s.idx ++ leBytes 4 h.toNat ++ leBytes 4 off
    map := push s.map h s.nextId
    offsets := s.offsets ++ [off] }

/-- StringTable.cpp:59: `cache_.exists(id) && *cache_.peek(id) == str`; `none` if the cache misbehaves. -/
def hit (s : State) (str : Bytes) (id : Nat) : Option Bool :=
  match (Lru.step s.cache (.exists_ id)).2 with
  | .bool true =>
    match (Lru.step s.cache (.peek id)).2 with
    | .value v => some (v = str)
    | _ => none
  | .bool false => some false
  | _ => none

/-- StringTable.cpp:57-67: the loop over the ids of the bucket. `none` means no id matched. -/
def scan (s : State) (str : Bytes) : List Nat → State × Option (Option Nat)
  | [] => (s, some none)
  | id :: ids =>
    match hit s str id with
    | none => (s, none)
    | some true => ({ s with cache := (Lru.step s.cache (.promote id)).1 }, some (some id))
    | some false =>
      let r := readString s id
      let s' := { s with fail := r.2 }
      if str = r.1 then (s', some (some id)) else scan s' str ids

/-- StringTable.cpp:48-72. -/
def getId (hash : Bytes → UInt32) (s : State) (str : Bytes) : State × Out :=
  let h := hash str
  match scan s str ((s.map.find h).getD []) with
  | (s', none) => (s', .error)
  | (s', some (some id)) => (s', .id id)
  | (s', some none) =>
    let s'' := writeString s' h str
    ({ s'' with nextId := s''.nextId + 1 }, .id s''.nextId)

/-- `cache_.get(id)` as the result of the call, StringTable.cpp:77 and 83. -/
def cacheGet (s : State) (id : Nat) : State × Out :=
  let r := Lru.step s.cache (.get id)
  match r.2 with
  | .value v => ({ s with cache := r.1 }, .str v)
  | _ => ({ s with cache := r.1 }, .error)

/-- StringTable.cpp:74-84. -/
def getString (s : State) (id : Nat) : State × Out :=
  match (Lru.step s.cache (.exists_ id)).2 with
  | .bool true => cacheGet s id
  | _ =>
    let r := readString s id
    let s' := { s with fail := r.2 }
    let c := Lru.step s'.cache (.put id r.1)
    cacheGet { s' with cache := c.1 } id

/-- One public call. -/
def step (hash : Bytes → UInt32) (cap : Nat) (s : State) : Op → State × Out
  | .getId str => getId hash s str
  | .getString id => getString s id
  | .reopen => (openOn cap s.idx s.dat, .unit)

/-- A sequence of calls with their results. -/
def run (hash : Bytes → UInt32) (cap : Nat) (s : State) : List Op → State × List Out
  | [] => (s, [])
  | op :: ops =>
    let r := step hash cap s op
    let rest := run hash cap r.1 ops
    (rest.1, r.2 :: rest.2)

end Verif.StringTable

namespace Verif.StringTable
open Verif

/-- The process dies while `getId(str)` appends to the files: `d` of the new data bytes and `k` of the new index
bytes are on disk; the table is opened again. StringTable.cpp:98-110 (the two streams are flushed independently). -/
def crash (hash : Bytes → UInt32) (cap : Nat) (s : State) (str : Bytes) (d k : Nat) : State :=
  let s' := (getId hash s str).1
  openOn cap (s.idx ++ (s'.idx.drop s.idx.length).take k) (s.dat ++ (s'.dat.drop s.dat.length).take d)

end Verif.StringTable
