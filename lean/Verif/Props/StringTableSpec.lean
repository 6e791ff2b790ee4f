import Verif.Model.StringTable

/-!
# Specification of C02, C03: a list of distinct strings

Id `i` is the position of the string in the order of first use.  Restarts have no effect.
-/
namespace Verif.StringTableSpec
open Verif
open Verif.StringTable (Op Out)

/-- One call on the list of strings known so far. -/
def step (t : List Bytes) : Op → List Bytes × Out
  | .getId s => if s ∈ t then (t, .id (t.idxOf s)) else (t ++ [s], .id t.length)
  | .getString i =>
    match t[i]? with
    | some s => (t, .str s)
    | none => (t, .str [])
  | .reopen => (t, .unit)

def run (t : List Bytes) : List Op → List Bytes × List Out
  | [] => (t, [])
  | op :: ops =>
    let r := step t op
    let rest := run r.1 ops
    (rest.1, r.2 :: rest.2)

/-- Size of the data file holding these strings. -/
def dataSize (t : List Bytes) : Nat := (t.map (fun s => s.length + 1)).sum

/-- Calls the property speaks about: strings without NUL which fit a 4 GB data file, and ids already assigned. -/
def ValidOp (t : List Bytes) : Op → Prop
  | .getId s => (0 : UInt8) ∉ s ∧ dataSize (t ++ [s]) ≤ 2 ^ 32
  | .getString i => i < t.length
  | .reopen => True

def Valid (t : List Bytes) : List Op → Prop
  | [] => True
  | op :: ops => ValidOp t op ∧ Valid (step t op).1 ops

/-- As `ValidOp`, but ids of `J` may be asked for too; no new string gets one of them. -/
def LateOp (J : Nat → Prop) (t : List Bytes) : Op → Prop
  | .getId s => (0 : UInt8) ∉ s ∧ dataSize (t ++ [s]) ≤ 2 ^ 32 ∧ (s ∉ t → ¬ J t.length)
  | .getString i => i < t.length ∨ J i
  | .reopen => True

def Late (J : Nat → Prop) (t : List Bytes) : List Op → Prop
  | [] => True
  | op :: ops => LateOp J t op ∧ Late J (step t op).1 ops

end Verif.StringTableSpec

/-! ## Histories with crashes (C05) -/
namespace Verif.StringTableSpec
open Verif
open Verif.StringTable (Op Out)

/-- A call, or a crash in the middle of `getId str` after which `d` data bytes and `k` index bytes are on disk. -/
inductive COp where
  | call (op : Op)
  | crash (str : Bytes) (d k : Nat)

/-- Strings with an id, and size of the data file. -/
structure CState where
  strs : List Bytes
  bytes : Nat

/-- A string whose insertion was interrupted either has its id or does not. -/
def cstep (c : CState) : COp → CState × Out
  | .call op =>
    let r := step c.strs op
    ({ strs := r.1, bytes := c.bytes + (dataSize r.1 - dataSize c.strs) }, r.2)
  | .crash str d k =>
    if str ∈ c.strs then (c, .unit)
    else ({ strs := if 8 ≤ k then c.strs ++ [str] else c.strs, bytes := c.bytes + min d (str.length + 1) }, .unit)

def crun (c : CState) : List COp → CState × List Out
  | [] => (c, [])
  | op :: ops => ((crun (cstep c op).1 ops).1, (cstep c op).2 :: (crun (cstep c op).1 ops).2)

/-- As `ValidOp`; at a crash the index record is either absent or complete, and in the latter case the data is
complete too. -/
def CValidOp (c : CState) : COp → Prop
  | .call (.getId s) => (0 : UInt8) ∉ s ∧ c.bytes + s.length + 1 ≤ 2 ^ 32
  | .call op => ValidOp c.strs op
  | .crash s d k => (0 : UInt8) ∉ s ∧ c.bytes + s.length + 1 ≤ 2 ^ 32 ∧ (k = 0 ∨ (8 ≤ k ∧ s.length + 1 ≤ d))

def CValid (c : CState) : List COp → Prop
  | [] => True
  | op :: ops => CValidOp c op ∧ CValid (cstep c op).1 ops

end Verif.StringTableSpec
