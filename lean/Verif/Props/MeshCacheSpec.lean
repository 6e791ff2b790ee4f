import Verif.Model.MeshCache
import Verif.Props.StreamsSpec

/-! Specification of the mesh cache (C22, C23, C24): which files are complete and what builds are running. -/
namespace Verif.MeshCacheSpec
open Verif.MeshCache Verif.Streams Verif.StreamsSpec

variable {D : Type}

/-- A running build whose output is being cached. -/
structure Build (D : Type) where
  owner : Nat
  path : Path
  items : List (Item D)
  healthy : Bool

/-- `complete p`: what the build which filled the cache delivered. -/
structure Track (D : Type) where
  complete : Path → Option (List (Item D))
  building : QuadKey → Option (Build D)

def start : Track D := ⟨fun _ => none, fun _ => none⟩

def put {α β : Type} [DecidableEq α] (f : α → β) (a : α) (b : β) : α → β := fun x => if x = a then b else f x

/-- The tile can be taken from the cache. -/
def cached (t : Track D) (p : Path) : Option (List (Item D)) :=
  match t.building p.2 with
  | some _ => none
  | none => t.complete p

/-- What a call does: a file becomes complete only by the end of a healthy build without cancellation. -/
def next (t : Track D) : Op D → Track D
  | .wrap b p _ opens => match cached t p with
    | some _ => t
    | none => ⟨put t.complete p none, put t.building p.2 (some ⟨b, p, [], opens⟩)⟩
  | .callback _ q i cancelled => match t.building q with
    | some bd => if cancelled then t else { t with building := put t.building q (some { bd with items := bd.items ++ [i] }) }
    | none => t
  | .unwrap _ p cancelled => match t.building p.2 with
    | some bd =>
      ⟨if bd.healthy && !cancelled then put t.complete p (some bd.items) else put t.complete p none, put t.building p.2 none⟩
    | none => t
  | .fetch .. => t
  | .crash _ => ⟨t.complete, fun _ => none⟩
  | .diskFull q _ => match t.building q with
    | some bd => { t with building := put t.building q (some { bd with healthy := false }) }
    | none => t

def ItemFits : Item D → Prop
  | .mesh m => MeshFits m
  | .element e => Fits e

/-- Which calls are made: builds of the same tile do not overlap and every build ends with `unwrap` with its own context; items fit
their file format; the status byte of a file reaches the disk. -/
def Allowed (t : Track D) : Op D → Prop
  | .wrap _ p _ _ => t.building p.2 = none
  | .callback b q i _ => (∃ bd, t.building q = some bd ∧ bd.owner = b) ∧ ItemFits i
  | .unwrap b p _ => ∀ bd, t.building p.2 = some bd → bd.owner = b ∧ bd.path = p
  | .fetch .. => True
  | .crash f => ∀ q, 0 < f q
  | .diskFull _ n => 0 < n

def AllAllowed : Track D → List (Op D) → Prop
  | _, [] => True
  | t, op :: ops => Allowed t op ∧ AllAllowed (next t op) ops

/-- An item as it comes back from the file: meshes in single precision (C08). -/
def replayed (fc : FloatConv D) : Item D → Item D
  | .mesh m => .mesh (rounded fc m)
  | .element e => .element e

def cut {α : Type} (budget : Option Nat) (l : List α) : List α := match budget with | none => l | some n => l.take n

/-- What the caller must see. -/
def Answer (fc : FloatConv D) (t : Track D) : Op D → Out D → Prop
  | .wrap _ p _ _, o => o = .wrapped (cached t p).isNone
  | .callback _ _ i cancelled, o => o = .delivered (if cancelled then [] else [i])
  | .fetch p _ budget, o => o = .fetched ((cached t p).map fun l => cut budget (l.map (replayed fc)))
  | _, o => o = .done

def Agrees (fc : FloatConv D) : Track D → List (Op D) → List (Out D) → Prop
  | _, [], [] => True
  | t, op :: ops, o :: os => Answer fc t op o ∧ Agrees fc (next t op) ops os
  | _, _, _ => False

/-- The track after a history. -/
def after (t : Track D) (ops : List (Op D)) : Track D := ops.foldl next t

end Verif.MeshCacheSpec
