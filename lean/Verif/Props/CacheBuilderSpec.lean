import Verif.Model.CacheBuilder
import Verif.Props.MeshCacheSpec

/-! Specification of builds through the cache (C94): what builds deliver without a cache, and which build filled the cache. -/
namespace Verif.CacheBuilderSpec
open Verif.MeshCache (Path Item)
open Verif.CacheBuilder Verif.Streams
open Verif.MeshCacheSpec (put ItemFits replayed cut)

variable {K S E D : Type}

/-- The builder after some elements. -/
def state (B : Builder K S E D) (k : K) (es : List E) : S := es.foldl (fun s e => (B.visit false s e).1) (B.start k)

/-- What the builder delivers for element `e` after the elements `es`. -/
def shown (B : Builder K S E D) (k : K) (es : List E) (e : E) : List (Item D) := (B.visit false (state B k es) e).2

/-- What it delivers at the end. -/
def final (B : Builder K S E D) (k : K) (es : List E) : List (Item D) := B.complete false (state B k es)

/-- What it delivers for the elements, from a state on. -/
def shownFrom (B : Builder K S E D) : S → List E → List (Item D)
  | _, [] => []
  | s, e :: es => (B.visit false s e).2 ++ shownFrom B (B.visit false s e).1 es

/-- Everything which a build without cache delivers. -/
def whole (B : Builder K S E D) (k : K) (es : List E) : List (Item D) := shownFrom B (B.start k) es ++ final B k es

/-- What is done with a build. -/
inductive Mode
  /-- not in the cache, before its first element -/
  | pending
  /-- delivered from the cache -/
  | replay
  /-- built without the cache -/
  | plain
  /-- built and stored -/
  | record (healthy : Bool)
deriving DecidableEq

structure Job (K E : Type) where
  path : Path
  context : K
  mode : Mode
  seen : List E
  cancelled : Bool

/-- `stored p`: context and elements of the build which filled the file. -/
structure Track (K E : Type) where
  enabled : Bool
  stored : Path → Option (K × List E)
  jobs : Nat → Option (Job K E)

def start : Track K E := ⟨true, fun _ => none, fun _ => none⟩

/-- What is in the cache for a build which begins. -/
def inCache (t : Track K E) (p : Path) : Option (K × List E) := if t.enabled then t.stored p else none

def recorded (j : Job K E) : Bool := match j.mode with | .record _ => true | _ => false

/-- What is stored at the end of a recorded build. -/
def keeps (j : Job K E) : Option (K × List E) :=
  if j.mode = .record true ∧ j.cancelled = false then some (j.context, j.seen) else none

/-- A file gets the result of a build which was recorded without error and not cancelled; only builds which are not in the cache are
recorded. -/
def next (t : Track K E) : Op K E → Track K E
  | .fetch b p k _ _ => { t with jobs := put t.jobs b (some ⟨p, k, if (inCache t p).isSome then .replay else .pending, [], false⟩) }
  | .wrap b _ opens => match t.jobs b with
    | some j =>
      let m := if t.enabled && (t.stored j.path).isNone then .record opens else .plain
      { t with jobs := put t.jobs b (some { j with mode := m }) }
    | none => t
  | .visit b e => match t.jobs b with
    | some j => { t with jobs := put t.jobs b (some { j with seen := j.seen ++ [e] }) }
    | none => t
  | .complete b => match t.jobs b with
    | some j =>
      ⟨t.enabled, if recorded j then put t.stored j.path (keeps j) else t.stored, put t.jobs b none⟩
    | none => t
  | .cancel b => match t.jobs b with
    | some j => { t with jobs := put t.jobs b (some { j with cancelled := true }) }
    | none => t
  | .enable v => { t with enabled := v }
  | .diskFull q _ =>
    { t with jobs := fun b => (t.jobs b).map fun j => if j.path.2 = q ∧ j.mode = .record true then { j with mode := .record false } else j }
  | .restart _ => ⟨true, t.stored, fun _ => none⟩
  | .abandon b => { t with jobs := put t.jobs b none }

/-- The cases of the theorem: builds of the same tile do not overlap; the calls of a build come in their order; a recorded build does not end
with an exception; what builds deliver fits the file format; the status byte of a file reaches the disk. -/
def Allowed (B : Builder K S E D) (t : Track K E) : Op K E → Prop
  | .fetch b p _ _ _ => t.jobs b = none ∧ ∀ b' j, t.jobs b' = some j → j.path.2 ≠ p.2
  | .wrap b _ _ => ∃ j, t.jobs b = some j ∧ j.mode = .pending
  | .visit b e => ∃ j, t.jobs b = some j ∧ j.mode ≠ .pending ∧
      (recorded j = true → j.cancelled = false → ∀ i ∈ shown B j.context j.seen e, ItemFits i)
  | .complete b => ∃ j, t.jobs b = some j ∧ j.mode ≠ .pending ∧
      (recorded j = true → j.cancelled = false → ∀ i ∈ final B j.context j.seen, ItemFits i)
  | .cancel _ => True
  | .enable _ => True
  | .diskFull _ n => 0 < n
  | .restart f => ∀ q, 0 < f q
  | .abandon b => ∀ j, t.jobs b = some j → recorded j = false

def AllAllowed (B : Builder K S E D) : Track K E → List (Op K E) → Prop
  | _, [] => True
  | t, op :: ops => Allowed B t op ∧ AllAllowed B (next t op) ops

/-- What the caller of the build gets, where `l` is what a build without cache delivers in this step. -/
def Gets (j : Job K E) (l : List (Item D)) (o : Out D) : Prop :=
  match j.mode with
  | .pending => True
  | .replay => o = .delivered []
  | .plain => if j.cancelled then ∃ l', o = .delivered l' else o = .delivered l
  | .record _ => o = .delivered (if j.cancelled then [] else l)

/-- What is delivered by a step. -/
def Answer (fc : FloatConv D) (B : Builder K S E D) (t : Track K E) : Op K E → Out D → Prop
  | .fetch _ p _ _ budget, o => o = .delivered (match inCache t p with
    | some (k, es) => cut budget ((whole B k es).map (replayed fc))
    | none => [])
  | .visit b e, o => ∀ j, t.jobs b = some j → Gets j (shown B j.context j.seen e) o
  | .complete b, o => ∀ j, t.jobs b = some j → Gets j (final B j.context j.seen) o
  | _, o => o = .delivered []

def Agrees (fc : FloatConv D) (B : Builder K S E D) : Track K E → List (Op K E) → List (Out D) → Prop
  | _, [], [] => True
  | t, op :: ops, o :: os => Answer fc B t op o ∧ Agrees fc B (next t op) ops os
  | _, _, _ => False

/-- The track after a history. -/
def after (t : Track K E) (ops : List (Op K E)) : Track K E := ops.foldl next t

/-- No build of this number and no build of this tile is under way. -/
def Free (t : Track K E) (b : Nat) (p : Path) : Prop := t.jobs b = none ∧ ∀ b' j, t.jobs b' = some j → j.path.2 ≠ p.2

/-- The file is filled by a build. -/
def filled (t : Track K E) (p : Path) (k : K) (es : List E) : Track K E := { t with stored := put t.stored p (some (k, es)) }

/-- All items of some answers, in order, if no call failed. -/
def items : List (Out D) → Option (List (Item D))
  | [] => some []
  | .delivered l :: os => (items os).map (l ++ ·)
  | .failed _ :: _ => none

end Verif.CacheBuilderSpec
