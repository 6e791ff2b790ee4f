import Verif.Model.StringTableConc
import Verif.Proof.Lock

/-! Helper lemmas for C06. -/
namespace Verif.StringTableConcProof
open Verif Verif.StringTable Verif.StringTableConc Verif.LockProof

/-- Big-step meaning of a position inside the critical section. -/
def finish (k : K) (s : State) : State × Out :=
  match k with
  | .lookup h str => scanFinish h str ((s.map.find h).getD []) s
  | .scan h str ids => scanFinish h str ids s
  | .write h str =>
    let s'' := writeString s h str
    ({ s'' with nextId := s''.nextId + 1 }, .id s''.nextId)
  | .take _ => ({ s with nextId := s.nextId + 1 }, .id s.nextId)
  | .check id => getString s id
  | .read id =>
    let r := readString s id
    let s' := { s with fail := r.2 }
    cacheGet { s' with cache := (Lru.step s'.cache (.put id r.1)).1 } id
  | .fetch id => cacheGet s id
where
  scanFinish (h : UInt32) (str : Bytes) (ids : List Nat) (s : State) : State × Out :=
    match StringTable.scan s str ids with
    | (s', none) => (s', .error)
    | (s', some (some id)) => (s', .id id)
    | (s', some none) =>
      let s'' := writeString s' h str
      ({ s'' with nextId := s''.nextId + 1 }, .id s''.nextId)

/-- The scan does its first iteration and goes on. -/
theorem scan_cons (s : State) (str : Bytes) (id : Nat) (ids : List Nat) :
    StringTable.scan s str (id :: ids) =
      match StringTable.scan s str [id] with
      | (s', none) => (s', none)
      | (s', some (some i)) => (s', some (some i))
      | (s', some none) => StringTable.scan s' str ids := by
  simp only [StringTable.scan]
  generalize hit s str id = b
  match b with
  | none => rfl
  | some true => rfl
  | some false =>
    simp only
    by_cases hc : str = (readString s id).1
    · rw [if_pos hc, if_pos hc]
    · rw [if_neg hc, if_neg hc]

theorem atomic (hash : Bytes → UInt32) (cap : Nat) :
    Atomic (object hash) (fun s c => StringTable.step hash cap s (toOp c)) finish := by
  refine ⟨?_, ?_, ?_⟩
  · intro op s
    cases op with
    | getId str => rfl
    | getString id => rfl
  · intro k s s' k' h
    simp only [object] at h
    cases k with
    | lookup hh str => simp only [mstep, Prod.mk.injEq, Sum.inl.injEq] at h; obtain ⟨rfl, rfl⟩ := h; rfl
    | scan hh str ids =>
      cases ids with
      | nil => simp only [mstep, Prod.mk.injEq, Sum.inl.injEq] at h; obtain ⟨rfl, rfl⟩ := h; rfl
      | cons i ids =>
        simp only [mstep] at h
        simp only [finish, finish.scanFinish]
        rw [scan_cons]
        split at h <;> simp at h
        obtain ⟨rfl, rfl⟩ := h
        rename_i hsc
        rw [hsc]
    | write hh str => simp only [mstep, Prod.mk.injEq, Sum.inl.injEq] at h; obtain ⟨rfl, rfl⟩ := h; rfl
    | take hh => simp [mstep] at h
    | check id =>
      simp only [mstep] at h
      simp only [finish, getString]
      split at h
      · rename_i hc
        simp at h; obtain ⟨rfl, rfl⟩ := h
        rw [hc]
      · rename_i hc
        simp at h; obtain ⟨rfl, rfl⟩ := h
        split
        · rename_i hc'; exact absurd hc' (by simpa using hc)
        · rfl
    | read id => simp only [mstep, Prod.mk.injEq, Sum.inl.injEq] at h; obtain ⟨rfl, rfl⟩ := h; rfl
    | fetch id => simp [mstep] at h
  · intro k s s' out h
    simp only [object] at h
    cases k with
    | lookup hh str => simp [mstep] at h
    | scan hh str ids =>
      cases ids with
      | nil => simp [mstep] at h
      | cons i ids =>
        simp only [mstep] at h
        simp only [finish, finish.scanFinish]
        rw [scan_cons]
        split at h <;> simp at h
        · rename_i hsc; obtain ⟨rfl, rfl⟩ := h; rw [hsc]
        · rename_i hsc; obtain ⟨rfl, rfl⟩ := h; rw [hsc]
    | write hh str => simp [mstep] at h
    | take hh => simp only [mstep, Prod.mk.injEq, Sum.inr.injEq] at h; obtain ⟨rfl, rfl⟩ := h; rfl
    | check id => simp only [mstep] at h; split at h <;> simp at h
    | read id => simp [mstep] at h
    | fetch id => simp only [mstep, Prod.mk.injEq, Sum.inr.injEq] at h; obtain ⟨rfl, rfl⟩ := h; rfl

theorem seq_eq_run (hash : Bytes → UInt32) (cap : Nat) (s : State) (cs : List Call) :
    seq (fun s c => StringTable.step hash cap s (toOp c)) s cs = StringTable.run hash cap s (cs.map toOp) := by
  induction cs generalizing s with
  | nil => rfl
  | cons c cs ih => simp [seq, StringTable.run, ih]

end Verif.StringTableConcProof
