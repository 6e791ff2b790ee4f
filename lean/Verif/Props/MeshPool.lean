import Verif.Props.MeshPoolSpec

/-! # C25: the mesh pool -/
namespace Verif.Props
open Verif.MeshPool Verif.MeshPoolSpec Verif.Streams

namespace MeshPoolProof
variable {D : Type}

structure Inv (s : State D) (held : List Nat) : Prop where
  clean : ∀ e ∈ s.pool, Clean [] e.2.data
  apart : ∀ e ∈ s.pool, e.2.handle ∉ held
  nodup : (s.pool.map (·.2.handle)).Nodup
  poolFresh : ∀ e ∈ s.pool, e.2.handle < s.fresh
  heldFresh : ∀ h ∈ held, h < s.fresh

theorem mem_emplace {k : Nat} {m : PMesh D} {l : List (Nat × PMesh D)} {e : Nat × PMesh D} (h : e ∈ emplace k m l) :
    e = (k, m) ∨ e ∈ l := by
  induction l with
  | nil => simpa [emplace] using h
  | cons a l ih =>
    unfold emplace at h
    split at h
    · simpa using h
    · split at h
      · exact .inr h
      · rcases List.mem_cons.1 h with h | h
        · exact .inr (by simp [h])
        · rcases ih h with h | h
          · exact .inl h
          · exact .inr (by simp [h])

theorem nodup_emplace {k : Nat} {m : PMesh D} {l : List (Nat × PMesh D)} (h : (l.map (·.2.handle)).Nodup)
    (hm : ∀ e ∈ l, e.2.handle ≠ m.handle) : ((emplace k m l).map (·.2.handle)).Nodup := by
  induction l with
  | nil => simp [emplace]
  | cons a l ih =>
    unfold emplace
    split
    · simp only [List.map_cons, List.nodup_cons, List.mem_cons, List.mem_map, not_or, not_exists, not_and] at h ⊢
      exact ⟨⟨(hm a (by simp)).symm, fun e he => hm e (by simp [he])⟩, h⟩
    · split
      · exact h
      · simp only [List.map_cons, List.nodup_cons, List.mem_map, not_exists, not_and] at h ⊢
        refine ⟨fun e he hh => ?_, ih h.2 fun e he => hm e (by simp [he])⟩
        rcases mem_emplace he with he | he
        · subst he; exact hm a (by simp) hh.symm
        · exact h.1 e he hh

theorem takeFirst_perm {p : Nat → Bool} {l : List (Nat × PMesh D)} {m : PMesh D} {r : List (Nat × PMesh D)}
    (h : takeFirst p l = some (m, r)) : ∃ k, l.Perm ((k, m) :: r) := by
  induction l generalizing m r with
  | nil => cases h
  | cons a l ih =>
    unfold takeFirst at h
    split at h
    · cases h; exact ⟨a.1, .rfl⟩
    · cases ht : takeFirst p l with
      | none => simp [ht] at h
      | some q =>
        obtain ⟨m', r'⟩ := q
        simp only [ht, Option.map_some, Option.some.injEq, Prod.mk.injEq] at h
        obtain ⟨rfl, rfl⟩ := h
        obtain ⟨k, hk⟩ := ih ht
        exact ⟨k, (hk.cons a).trans (List.Perm.swap ..)⟩

theorem get_inv {s : State D} {held : List Nat} (h : Inv s held) (name : Bytes) (isLower : Bool) :
    Clean name (getMesh s name isLower).2.data ∧ (getMesh s name isLower).2.handle ∉ held ∧
      Inv (getMesh s name isLower).1 ((getMesh s name isLower).2.handle :: held) := by
  unfold getMesh
  split
  · refine ⟨rfl, fun hm => absurd (h.heldFresh _ hm) (by simp [newMesh]), h.clean, ?_, h.nodup, ?_, ?_⟩
    · intro e he hm
      rcases List.mem_cons.1 hm with hm | hm
      · have := h.poolFresh e he; simp only [newMesh] at hm; omega
      · exact h.apart e he hm
    · intro e he; have := h.poolFresh e he; simp only; omega
    · intro x hx
      rcases List.mem_cons.1 hx with hx | hx
      · simp only [hx, newMesh]; omega
      · have := h.heldFresh x hx; simp only; omega
  · rename_i m pool ht
    obtain ⟨k, hp⟩ := takeFirst_perm ht
    have hmem : (k, m) ∈ s.pool := hp.symm.subset (by simp)
    have hsub : ∀ e ∈ pool, e ∈ s.pool := fun e he => hp.symm.subset (by simp [he])
    have hnd := (hp.map (·.2.handle)).nodup_iff.1 h.nodup
    simp only [List.map_cons, List.nodup_cons, List.mem_map, not_exists, not_and] at hnd
    have hc := h.clean _ hmem
    refine ⟨?_, h.apart _ hmem, fun e he => h.clean e (hsub e he), ?_, hnd.2, fun e he => h.poolFresh e (hsub e he), ?_⟩
    · unfold Clean at hc ⊢; simp only at hc; simp [hc]
    · intro e he hx
      rcases List.mem_cons.1 hx with hx | hx
      · exact hnd.1 e he hx
      · exact h.apart e (hsub e he) hx
    · intro x hx
      rcases List.mem_cons.1 hx with hx | hx
      · rw [hx]; exact h.poolFresh _ hmem
      · exact h.heldFresh x hx

theorem release_inv {s : State D} {held : List Nat} (h : Inv s held) (m : PMesh D) (hm : m.handle ∈ held) :
    Inv (release s m) (held.filter (· ≠ m.handle)) := by
  refine ⟨?_, ?_, ?_, ?_, ?_⟩
  · intro e he
    rcases mem_emplace he with he | he
    · subst he; rfl
    · exact h.clean e he
  · intro e he hx
    rcases mem_emplace he with he | he
    · subst he; simp at hx
    · exact h.apart e he (List.mem_filter.1 hx).1
  · exact nodup_emplace h.nodup fun e he hh => h.apart e he (by rw [hh]; exact hm)
  · intro e he
    rcases mem_emplace he with he | he
    · subst he; exact h.heldFresh _ hm
    · exact h.poolFresh e he
  · intro x hx; exact h.heldFresh x (List.mem_filter.1 hx).1

theorem run_fulfilled (ops : List (Op D)) {s : State D} {held : List Nat} (h : Inv s held)
    (hd : Disciplined held ops (run s ops).2) : Fulfilled held ops (run s ops).2 := by
  induction ops generalizing s held with
  | nil => trivial
  | cons op ops ih =>
    cases op with
    | getSmall name =>
      obtain ⟨h1, h2, h3⟩ := get_inv h name true
      exact ⟨h1, h2, ih h3 hd⟩
    | getLarge name =>
      obtain ⟨h1, h2, h3⟩ := get_inv h name false
      exact ⟨h1, h2, ih h3 hd⟩
    | release m => exact ih (release_inv h m hd.1) hd.2

end MeshPoolProof

open MeshPoolProof
variable {D : Type}

/-- C25: in every sequence of calls by any number of builders, each of which releases only meshes it holds, every mesh handed out is
empty, has the requested name and is held by nobody else. -/
theorem C25_clean_and_exclusive (ops : List (Op D)) (hd : Disciplined [] ops (run init ops).2) :
    Fulfilled [] ops (run init ops).2 :=
  run_fulfilled ops ⟨by simp [init], by simp [init], by simp [init], by simp [init], by simp⟩ hd

/-- Released meshes are used again: two meshes are taken, filled and released, the large one is found by `getLarge`. -/
example : let ops : List (Op Nat) := [.getSmall [1], .getLarge [2], .release ⟨0, 4096, ⟨[1], [7], [0], [], [], []⟩⟩,
      .release ⟨1, 30000, ⟨[2], [7, 8, 9], [], [], [], []⟩⟩, .getLarge [3], .getSmall [4]]
    Disciplined [] ops (run init ops).2 ∧
      (run init ops).2.map (·.map (·.handle)) = [some 0, some 1, none, none, some 1, some 0] := by
  simp [run, step, getMesh, takeFirst, init, newMesh, release, emplace, clear, Disciplined, thresholdSize]

end Verif.Props
