import Verif.Model.PersistentStore
import Verif.Props.StoreSpec
import Verif.Props.StreamsSpec

/-!
Specification for the persistent store: the history of a sequence of calls, and the calls for which the store keeps its promises.
-/
namespace Verif.Props.PersistentSpec
open Verif.PersistentStore (Op El)
open Verif.Props.StoreSpec (Event holds)

/-- The events of a call. -/
def record (h : List (Event El)) : Op → List (Event El)
  | .save q e => .saved q e :: h
  | .erase q => .erased q :: h
  | _ => h

/-- An open tile: do its files stand at the end, was the tile empty when it was opened. -/
structure Flags where
  atEnd : Bool
  fresh : Bool
deriving DecidableEq, Repr

/-- What must be known of the past calls: the up to twelve most recently used tiles, the tiles extended although they were not
empty when opened, the tiles which have files. -/
structure Track where
  opened : Assoc QuadKey Flags
  damaged : List QuadKey
  files : List QuadKey

def Track.start : Track := ⟨[], [], []⟩

/-- Use tile `q` now: its flags and the other open tiles. -/
def Track.touch (t : Track) (q : QuadKey) (empty : Bool) : Flags × Assoc QuadKey Flags :=
  match t.opened.find q with
  | some f => (f, t.opened.erase q)
  | none => (⟨true, empty⟩, t.opened.take 11)

/-- A tile visited by a text search: its files no longer stand at the end. -/
def Track.visit (h : List (Event El)) (t : Track) (q : QuadKey) : Track :=
  if q ∈ t.files then
    let r := t.touch q (holds q h).isEmpty
    { t with opened := (q, ⟨false, r.1.fresh⟩) :: r.2 }
  else t

/-- The effect of a call after the history `h`. -/
def Track.next (h : List (Event El)) (t : Track) : Op → Track
  | .save q _ =>
    let r := t.touch q (holds q h).isEmpty
    ⟨(q, ⟨true, r.1.fresh⟩) :: r.2, if r.1.fresh then t.damaged else q :: t.damaged, q :: t.files⟩
  | .tile q c =>
    let r := t.touch q (holds q h).isEmpty
    let complete := match c with | none => true | some n => decide ((holds q h).length ≤ n)
    { t with opened := (q, ⟨complete, r.1.fresh⟩) :: r.2, files := q :: t.files }
  | .text _ _ qs => qs.foldl (Track.visit h) t
  | .hasData _ => t
  | .erase q => ⟨[], t.damaged.filter (· ≠ q), t.files.filter (· ≠ q)⟩
  | .flush | .reopen => { t with opened := [] }

/-- The tiles which have files: those saved to or searched since they were last erased. -/
def known (k : List QuadKey) : Op → List QuadKey
  | .save q _ | .tile q _ => q :: k
  | .erase q => k.filter (· ≠ q)
  | _ => k

/-- The size of the data file of a tile. -/
def bytes (els : List El) : Nat := (els.map fun e => (Streams.writeElement e).length).sum

/-- A call other than a text search or a cancelled tile search; what is saved fits into the file format: every counter into
16 bits, the data file so far into 4 GiB. -/
def Plain (h : List (Event El)) : Op → Prop
  | .save q e => StreamsSpec.Fits e ∧ bytes (holds q h) < 2 ^ 32
  | .tile _ c => c = none
  | .text .. => False
  | _ => True

/-- All calls are plain. -/
def AllPlain : List (Event El) → List Op → Prop
  | _, [] => True
  | h, op :: ops => Plain h op ∧ AllPlain (record h op) ops

/-- The answer of a call after a history; `k` are the tiles with files. -/
def Answer (h : List (Event El)) (k : List QuadKey) : Op → MemStore.Out El → Prop
  | .tile q none, o => o = .elements (holds q h)
  | .tile q (some n), o => o = .elements ((holds q h).take n)
  | .hasData q, o => o = .flag (decide (q ∈ k))
  | .text .., _ => True
  | _, o => o = .done

/-- All answers of a run. -/
def Agrees : List (Event El) → List QuadKey → List Op → List (MemStore.Out El) → Prop
  | _, _, [], [] => True
  | h, k, op :: ops, o :: os => Answer h k op o ∧ Agrees (record h op) (known k op) ops os
  | _, _, _, _ => False

end Verif.Props.PersistentSpec
