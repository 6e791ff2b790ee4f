import Verif.Model.MeshPool

/-! Specification of the mesh pool (C25). -/
namespace Verif.MeshPoolSpec
open Verif.MeshPool Verif.Streams

variable {D : Type}

/-- An empty mesh with this name. -/
def Clean (name : Bytes) (m : Mesh D) : Prop := m = ⟨name, [], [], [], [], []⟩

/-- `held`: the storages builders hold. A builder releases only what it holds, with any content. -/
def Disciplined (held : List Nat) : List (Op D) → List (Option (PMesh D)) → Prop
  | [], _ => True
  | .release m :: ops, _ :: os => m.handle ∈ held ∧ Disciplined (held.filter (· ≠ m.handle)) ops os
  | _ :: ops, o :: os => Disciplined ((o.map (·.handle)).toList ++ held) ops os
  | _ :: _, [] => False

/-- Every mesh handed out is clean, has the requested name and is not held by anybody. -/
def Fulfilled (held : List Nat) : List (Op D) → List (Option (PMesh D)) → Prop
  | [], [] => True
  | .release m :: ops, none :: os => Fulfilled (held.filter (· ≠ m.handle)) ops os
  | .getSmall name :: ops, some m :: os => Clean name m.data ∧ m.handle ∉ held ∧ Fulfilled (m.handle :: held) ops os
  | .getLarge name :: ops, some m :: os => Clean name m.data ∧ m.handle ∉ held ∧ Fulfilled (m.handle :: held) ops os
  | _, _ => False

end Verif.MeshPoolSpec
