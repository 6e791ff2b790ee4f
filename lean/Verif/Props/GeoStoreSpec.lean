import Verif.Model.GeoStore

/-! Specification for the geo store (C20): a partial function from keys to stores. -/
namespace Verif.GeoStoreSpec
open Verif.GeoStore

variable {K S E Q : Type} [LinearOrder K]

/-- Which store stands under which key. -/
abbrev Stores (K S : Type) := K → Option S

def update (A : Stores K S) (k : K) (s : S) : Stores K S := fun k' => if k' = k then some s else A k'

/-- Saving some elements one after another leads from one state of a store to another. -/
inductive Saved (I : Iface S E Q) : S → List (QuadKey × E) → S → Prop
  | nil (s : S) : Saved I s [] s
  | cons {s s' s'' : S} {q : QuadKey} {e : E} {l : List (QuadKey × E)} :
      I.save s q e = .ok s' → Saved I s' l s'' → Saved I s ((q, e) :: l) s''

/-- A search visits exactly the stores with property `has`, each once, in the order of the keys: `f` is the search of one
store, `found` everything passed to the visitor. All other stores keep their state. -/
def Visited (A : Stores K S) (has : S → Prop) (f : S → Outcome (S × List E)) (A' : Stores K S) (found : List E) : Prop :=
  ∃ ks : List K, ks.Pairwise (· < ·) ∧ (∀ k, k ∈ ks ↔ ∃ s, A k = some s ∧ has s) ∧
    ∃ part : K → List E, found = ks.flatMap part ∧
      (∀ k ∈ ks, ∃ s s', A k = some s ∧ f s = .ok (s', part k) ∧ A' k = some s') ∧ ∀ k, k ∉ ks → A' k = A k

/-- The meaning of a call. -/
def Means (I : Iface S E Q) (A : Stores K S) : Op K S E Q → Stores K S → Out E → Prop
  | .register k s, A', out => out = .done ∧ A' = (match A k with | none => update A k s | some _ => A)
  | .add k saves, A', out => out = .done ∧ ∃ s s', A k = some s ∧ Saved I s saves s' ∧ A' = update A k s'
  | .addFile k file target cancelled, A', out => out = .done ∧
      ∃ elements s s' s'', file = some elements ∧ A k = some s ∧ Saved I s elements.flatten s' ∧ A' = update A k s'' ∧
        (cancelled = false → s'' = s') ∧
        (cancelled = true → (match target with | .tile q => I.erase s' q | .range => I.eraseRange s') = .ok s'')
  | .tile q, A', out => ∃ l, out = .elements l ∧ Visited A (fun s => I.hasData s q = true) (fun s => I.search s q) A' l
  | .text t, A', out => ∃ l, out = .elements l ∧ Visited A (fun _ => True) (fun s => I.text s t) A' l
  | .hasData q, A', out => A' = A ∧ ∃ b, out = .flag b ∧ (b = true ↔ ∃ k s, A k = some s ∧ I.hasData s q = true)

/-- A whole history. -/
inductive History (I : Iface S E Q) : Stores K S → List (Op K S E Q) → List (Out E) → Prop
  | nil (A : Stores K S) : History I A [] []
  | cons {A A' : Stores K S} {op : Op K S E Q} {ops : List (Op K S E Q)} {out : Out E} {outs : List (Out E)} :
      Means I A op A' out → History I A' ops outs → History I A (op :: ops) (out :: outs)

/-- Every key used was registered before. -/
def Keyed : List K → List (Op K S E Q) → Prop
  | _, [] => True
  | ks, .register k _ :: ops => Keyed (k :: ks) ops
  | ks, .add k _ :: ops => k ∈ ks ∧ Keyed ks ops
  | ks, .addFile k _ _ _ :: ops => k ∈ ks ∧ Keyed ks ops
  | ks, _ :: ops => Keyed ks ops

/-- The call failed. -/
def Failed : Out E → Prop
  | .failed _ => True
  | _ => False

end Verif.GeoStoreSpec
