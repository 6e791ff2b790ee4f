import Verif.Model.Lock
import Mathlib.Data.List.Basic

/-! Helper lemmas: critical sections are atomic. -/
namespace Verif.LockProof
open Verif.Lock

variable {S Op Out K : Type}

/-- Sequential execution with an atomic step function. -/
def seq (step : S → Op → S × Out) (s : S) : List Op → S × List Out
  | [] => (s, [])
  | op :: ops => ((seq step (step s op).1 ops).1, (step s op).2 :: (seq step (step s op).1 ops).2)

theorem seq_append (step : S → Op → S × Out) (s : S) (xs : List Op) (op : Op) :
    seq step s (xs ++ [op]) =
      ((step (seq step s xs).1 op).1, (seq step s xs).2 ++ [(step (seq step s xs).1 op).2]) := by
  induction xs generalizing s with
  | nil => simp [seq]
  | cons x xs ih => simp [seq, ih]

/-- Continuation semantics of the small steps. -/
structure Atomic (o : Object S Op Out K) (step : S → Op → S × Out) (finish : K → S → S × Out) : Prop where
  start : ∀ op s, finish (o.start op) s = step s op
  more : ∀ k s s' k', o.mstep k s = (s', .inl k') → finish k s = finish k' s'
  done : ∀ k s s' out, o.mstep k s = (s', .inr out) → finish k s = (s', out)

/-- Calls of a thread which are not completed. -/
def pending (th : Thread Op K) : List Op :=
  match th.status with
  | .idle => th.todo
  | .waiting op _ => op :: th.todo
  | .inside op _ => op :: th.todo

structure Inv (o : Object S Op Out K) (step : S → Op → S × Out) (finish : K → S → S × Out) (s0 : S)
    (progs : Nat → List Op) (c : Config S Op Out K) : Prop where
  outs : (seq step s0 (c.hist.map (·.2.1))).2 = c.hist.map (·.2.2)
  progs : ∀ t, (completed c t).map (·.1) ++ pending (c.threads t) = progs t
  free : c.owner = none → c.shared = (seq step s0 (c.hist.map (·.2.1))).1
  waiting : ∀ t op k, (c.threads t).status = .waiting op k → k = o.start op
  inside : ∀ t op k, (c.threads t).status = .inside op k →
    c.owner = some t ∧ finish k c.shared = step (seq step s0 (c.hist.map (·.2.1))).1 op

theorem inv_sched {o : Object S Op Out K} {step : S → Op → S × Out} {finish : K → S → S × Out}
    (ha : Atomic o step finish) {s0 : S} {progs : Nat → List Op} {c : Config S Op Out K}
    (h : Inv o step finish s0 progs c) (t : Nat) : Inv o step finish s0 progs (sched o c t) := by
  unfold sched
  split
  · rename_i hst
    split
    · exact h
    · rename_i op rest htodo
      refine ⟨h.outs, ?_, h.free, ?_, ?_⟩
      · intro u
        have := h.progs u
        simp only [completed, setThread] at this ⊢
        by_cases hu : u = t
        · subst hu
          simp only [if_true]
          rw [← this]
          simp [pending, hst, htodo]
        · simp only [hu, if_false]; exact this
      · intro u op' k' hu
        simp only [setThread] at hu
        split at hu
        · simp at hu; obtain ⟨rfl, rfl⟩ := hu; rfl
        · exact h.waiting u op' k' hu
      · intro u op' k' hu
        simp only [setThread] at hu
        split at hu
        · simp at hu
        · exact h.inside u op' k' hu
  · rename_i op k hst
    split
    · exact h
    · rename_i hown
      refine ⟨h.outs, ?_, ?_, ?_, ?_⟩
      · intro u
        have := h.progs u
        simp only [completed, setThread] at this ⊢
        by_cases hu : u = t
        · subst hu
          simp only [if_true]
          rw [← this]
          simp [pending, hst]
        · simp only [hu, if_false]; exact this
      · intro hn; simp at hn
      · intro u op' k' hu
        simp only [setThread] at hu
        split at hu
        · simp at hu
        · exact h.waiting u op' k' hu
      · intro u op' k' hu
        simp only [setThread] at hu
        split at hu
        · rename_i hut
          simp at hu
          obtain ⟨rfl, rfl⟩ := hu
          subst hut
          refine ⟨rfl, ?_⟩
          simp only
          rw [h.waiting _ _ _ hst, ha.start, h.free hown]
        · have := (h.inside u op' k' hu).1
          rw [hown] at this; simp at this
  · rename_i op k hst
    obtain ⟨hown, hfin⟩ := h.inside t op k hst
    have huniq : ∀ u op' k', (c.threads u).status = .inside op' k' → u = t := by
      intro u op' k' hu
      have := (h.inside u op' k' hu).1
      rw [hown] at this; exact (Option.some.inj this).symm
    split
    · rename_i s' k' hm
      refine ⟨h.outs, ?_, ?_, ?_, ?_⟩
      · intro u
        have := h.progs u
        simp only [completed, setThread] at this ⊢
        by_cases hu : u = t
        · subst hu
          simp only [if_true]
          rw [← this]
          simp [pending, hst]
        · simp only [hu, if_false]; exact this
      · intro hn; simp only at hn; rw [hown] at hn; simp at hn
      · intro u op' k'' hu
        simp only [setThread] at hu
        split at hu
        · simp at hu
        · exact h.waiting u op' k'' hu
      · intro u op' k'' hu
        simp only [setThread] at hu
        split at hu
        · rename_i hut
          simp at hu
          obtain ⟨rfl, rfl⟩ := hu
          subst hut
          refine ⟨hown, ?_⟩
          simp only
          rw [← ha.more _ _ _ _ hm, hfin]
        · rename_i hut
          exact absurd (huniq u op' k'' hu) hut
    · rename_i s' out hm
      have hd := ha.done _ _ _ _ hm
      rw [hfin] at hd
      refine ⟨?_, ?_, ?_, ?_, ?_⟩
      · simp only [List.map_append, List.map_cons, List.map_nil]
        rw [seq_append]
        simp only [h.outs, hd]
      · intro u
        have := h.progs u
        simp only [completed, setThread, List.filter_append, List.map_append] at this ⊢
        by_cases hu : u = t
        · subst hu
          simp only [if_true]
          rw [← this]
          simp [pending, hst]
        · have hu' : ¬ t = u := fun e => hu e.symm
          simp only [hu, if_false]
          rw [← this]
          simp [hu']
      · intro _
        simp only [List.map_append, List.map_cons, List.map_nil]
        rw [seq_append, hd]
      · intro u op' k'' hu
        simp only [setThread] at hu
        split at hu
        · simp at hu
        · exact h.waiting u op' k'' hu
      · intro u op' k'' hu
        simp only [setThread] at hu
        split at hu
        · simp at hu
        · rename_i hut
          exact absurd (huniq u op' k'' hu) hut

theorem inv_exec {o : Object S Op Out K} {step : S → Op → S × Out} {finish : K → S → S × Out}
    (ha : Atomic o step finish) (s0 : S) (progs : Nat → List Op) (ts : List Nat) :
    Inv o step finish s0 progs (exec o (start s0 progs) ts) := by
  have h0 : Inv o step finish s0 progs (start s0 progs : Config S Op Out K) := by
    refine ⟨rfl, ?_, fun _ => rfl, ?_, ?_⟩
    · intro t; simp [completed, start, pending]
    · intro t op k h; simp [start] at h
    · intro t op k h; simp [start] at h
  unfold exec
  generalize (start s0 progs : Config S Op Out K) = c at h0
  induction ts generalizing c with
  | nil => exact h0
  | cons t ts ih => exact ih _ (inv_sched ha h0 t)

end Verif.LockProof
