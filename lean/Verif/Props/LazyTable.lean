import Verif.Model.LazyTable
import Verif.Props.LazyTableSpec
import Verif.Props.Elevation
import Mathlib.Algebra.Order.BigOperators.Group.List
import Mathlib.Data.List.Basic
import Mathlib.Tactic.Common

/-! # C108: threads which share a table filled on demand -/
namespace Verif.Props
open Verif Verif.LazyTable Verif.LazyTable.Config Verif.LazySpec

namespace LazyTableProof

variable {K V : Type} [DecidableEq K]

/-- The key of the call a thread is in. -/
def current : Phase K V → List K
  | .idle => []
  | .look k => [k]
  | .wait k _ => [k]
  | .check k => [k]
  | .write k _ => [k]
  | .again k => [k]

/-- What a thread in the middle of a call knows. -/
def Knows (load : K → Outcome V) (table : Assoc K V) : Phase K V → Prop
  | .wait k (some v) => load k = .ok v
  | .write k v => load k = .ok v
  | .again k => ∃ v, table.find k = some v
  | _ => True

structure Fine (load : K → Outcome V) (table : Assoc K V) (prog : List K) (th : Thread K V) : Prop where
  keys : prog = th.done.map (·.1) ++ current th.phase ++ th.todo
  answers : ∀ e ∈ th.done, e.2 = load e.1
  knows : Knows load table th.phase

/-- The phases in which a thread holds the lock. -/
def inside (early : Bool) : Phase K V → Bool
  | .check _ => true
  | .write _ _ => true
  | .again _ => early
  | _ => false

/-- Which phases occur. -/
def Shape (early : Bool) : Phase K V → Prop
  | .wait _ v => v.isSome = early
  | .check _ => early = false
  | _ => True

structure Inv (early : Bool) (load : K → Outcome V) (progs : Nat → List K) (c : Config K V) : Prop where
  faithful : Faithful load c.table
  fine : ∀ t, Fine load c.table (progs t) (c.threads t)
  lock : ∀ t, inside early (c.threads t).phase = true ↔ c.owner = some t
  shape : ∀ t, Shape early (c.threads t).phase

theorem knows_mono {load : K → Outcome V} {table table' : Assoc K V} (h : ∀ k v, table.find k = some v → ∃ v', table'.find k = some v')
    {p : Phase K V} (hk : Knows load table p) : Knows load table' p := by
  cases p with
  | again k => obtain ⟨v, hv⟩ := hk; exact h k v hv
  | wait k v => cases v <;> exact hk
  | _ => exact hk

theorem emplace_grows (table : Assoc K V) (k : K) (v : V) (k' : K) (v' : V) (h : table.find k' = some v') :
    (table.emplace k v).find k' = some v' := by
  rw [Assoc.find_emplace]
  split
  · rename_i he; subst he; simp [h]
  · exact h

theorem inv_start (early : Bool) (load : K → Outcome V) (table : Assoc K V) (progs : Nat → List K) (h : Faithful load table) :
    Inv early load progs (start table progs) :=
  ⟨h, fun _ => ⟨by simp [start, current], by simp [start], trivial⟩, by simp [start, inside], fun _ => trivial⟩

/-- A step changes at most the thread which takes it. -/
theorem Inv.update {early : Bool} {load : K → Outcome V} {progs : Nat → List K} {c c' : Config K V} (t : Nat) (h : Inv early load progs c)
    (hf : Faithful load c'.table) (hg : ∀ k v, c.table.find k = some v → c'.table.find k = some v)
    (ho : ∀ u, u ≠ t → c'.threads u = c.threads u) (ht : Fine load c'.table (progs t) (c'.threads t))
    (hl : inside early (c'.threads t).phase = true ↔ c'.owner = some t)
    (hl' : c'.owner = c.owner ∨ (c.owner = none ∨ c.owner = some t) ∧ (c'.owner = none ∨ c'.owner = some t))
    (hs : Shape early (c'.threads t).phase) : Inv early load progs c' := by
  refine ⟨hf, fun u => ?_, fun u => ?_, fun u => ?_⟩
  · by_cases hu : u = t
    · subst hu; exact ht
    · rw [ho u hu]
      have := h.fine u
      exact ⟨this.keys, this.answers, knows_mono (fun k v e => ⟨v, hg k v e⟩) this.knows⟩
  · by_cases hu : u = t
    · subst hu; exact hl
    · rw [ho u hu, h.lock u]
      rcases hl' with e | ⟨e, e'⟩
      · rw [e]
      · have hut : ¬ t = u := fun e => hu e.symm
        rcases e with e | e <;> rcases e' with e' | e' <;> simp [e, e', hut]
  · by_cases hu : u = t
    · subst hu; exact hs
    · rw [ho u hu]; exact h.shape u

theorem inv_step (early : Bool) (load : K → Outcome V) (progs : Nat → List K) (c : Config K V) (t : Nat) (h : Inv early load progs c) :
    Inv early load progs (step early load c t) := by
  obtain ⟨hkeys, hans, hknows⟩ := h.fine t
  have hlock := h.lock t
  have hshape := h.shape t
  unfold step
  split
  · exact h
  · split
    · rename_i hp
      split
      · exact h
      · rename_i k rest htodo
        rw [hp] at hkeys hlock
        rw [htodo] at hkeys
        refine h.update t h.faithful (fun _ _ e => e) ?_ ⟨?_, ?_, ?_⟩ ?_ (Or.inl rfl) ?_
        · intro u hu; simp [beginRead, next, hu]
        · simpa [beginRead, next, current] using hkeys
        · simpa [beginRead, next] using hans
        · simp [beginRead, next, Knows]
        · simpa [beginRead, next, inside] using hlock
        · simp [beginRead, next, Shape]
    · rename_i k hp
      rw [hp] at hkeys hlock
      split
      · rename_i v hv
        refine h.update t h.faithful (fun _ _ e => e) ?_ ⟨?_, ?_, ?_⟩ ?_ (Or.inl rfl) ?_
        · intro u hu; simp [endRead, finish, hu]
        · simpa [endRead, finish, current] using hkeys
        · intro e he
          simp only [endRead, finish, if_true, List.mem_append, List.mem_singleton] at he
          rcases he with he | rfl
          · exact hans e he
          · exact (h.faithful k v hv).symm
        · simp [endRead, finish, Knows]
        · simpa [endRead, finish, inside] using hlock
        · simp [endRead, finish, Shape]
      · split
        · rename_i he
          split
          · rename_i v hv
            refine h.update t h.faithful (fun _ _ e => e) ?_ ⟨?_, ?_, ?_⟩ ?_ (Or.inl rfl) ?_
            · intro u hu; simp [endRead, goto, hu]
            · simpa [endRead, goto, current] using hkeys
            · simpa [endRead, goto] using hans
            · simpa [endRead, goto, Knows] using hv
            · simpa [endRead, goto, inside] using hlock
            · simp [endRead, goto, Shape, he]
          all_goals
            rename_i x hv
            refine h.update t h.faithful (fun _ _ e => e) ?_ ⟨?_, ?_, ?_⟩ ?_ (Or.inl rfl) ?_
            · intro u hu; simp [endRead, finish, hu]
            · simpa [endRead, finish, current] using hkeys
            · intro e he
              simp only [endRead, finish, if_true, List.mem_append, List.mem_singleton] at he
              rcases he with he | rfl
              · exact hans e he
              · exact hv.symm
            · simp [endRead, finish, Knows]
            · simpa [endRead, finish, inside] using hlock
            · simp [endRead, finish, Shape]
        · rename_i he
          refine h.update t h.faithful (fun _ _ e => e) ?_ ⟨?_, ?_, ?_⟩ ?_ (Or.inl rfl) ?_
          · intro u hu; simp [endRead, goto, hu]
          · simpa [endRead, goto, current] using hkeys
          · simpa [endRead, goto] using hans
          · simp [endRead, goto, Knows]
          · simpa [endRead, goto, inside] using hlock
          · simp [endRead, goto, Shape, he]
    · rename_i k v hp
      rw [hp] at hkeys hlock hknows hshape
      split
      · exact h
      · rename_i hown
        split
        · rename_i v
          refine h.update t h.faithful (fun _ _ e => e) ?_ ⟨?_, ?_, ?_⟩ ?_ ?_ ?_
          · intro u hu; simp [lock, beginWrite, goto, hu]
          · simpa [lock, beginWrite, goto, current] using hkeys
          · simpa [lock, beginWrite, goto] using hans
          · simpa [lock, beginWrite, goto, Knows] using hknows
          · simp [lock, beginWrite, goto, inside]
          · simp [lock, beginWrite, goto, hown]
          · simp [lock, beginWrite, goto, Shape]
        · refine h.update t h.faithful (fun _ _ e => e) ?_ ⟨?_, ?_, ?_⟩ ?_ ?_ ?_
          · intro u hu; simp [lock, beginRead, goto, hu]
          · simpa [lock, beginRead, goto, current] using hkeys
          · simpa [lock, beginRead, goto] using hans
          · simp [lock, beginRead, goto, Knows]
          · simp [lock, beginRead, goto, inside]
          · simp [lock, beginRead, goto, hown]
          · simpa [lock, beginRead, goto, Shape] using hshape
    · rename_i k hp
      rw [hp] at hkeys hlock hshape
      have he : early = false := hshape
      have hown : c.owner = some t := hlock.1 rfl
      split
      · rename_i v hv
        refine h.update t h.faithful (fun _ _ e => e) ?_ ⟨?_, ?_, ?_⟩ ?_ ?_ ?_
        · intro u hu; simp [endRead, unlock, beginRead, goto, hu]
        · simpa [endRead, unlock, beginRead, goto, current] using hkeys
        · simpa [endRead, unlock, beginRead, goto] using hans
        · simpa [endRead, unlock, beginRead, goto, Knows] using ⟨v, hv⟩
        · simp [endRead, unlock, beginRead, goto, inside, he]
        · simp [endRead, unlock, beginRead, goto, hown]
        · simp [endRead, unlock, beginRead, goto, Shape]
      · split
        · rename_i v hv
          refine h.update t h.faithful (fun _ _ e => e) ?_ ⟨?_, ?_, ?_⟩ ?_ ?_ ?_
          · intro u hu; simp [endRead, beginWrite, goto, hu]
          · simpa [endRead, beginWrite, goto, current] using hkeys
          · simpa [endRead, beginWrite, goto] using hans
          · simpa [endRead, beginWrite, goto, Knows] using hv
          · simp [endRead, beginWrite, goto, inside, hown]
          · simp [endRead, beginWrite, goto, hown]
          · simp [endRead, beginWrite, goto, Shape]
        all_goals
          rename_i x hv
          refine h.update t h.faithful (fun _ _ e => e) ?_ ⟨?_, ?_, ?_⟩ ?_ ?_ ?_
          · intro u hu; simp [endRead, unlock, finish, hu]
          · simpa [endRead, unlock, finish, current] using hkeys
          · intro e he
            simp only [endRead, unlock, finish, if_true, List.mem_append, List.mem_singleton] at he
            rcases he with he | rfl
            · exact hans e he
            · exact hv.symm
          · simp [endRead, unlock, finish, Knows]
          · simp [endRead, unlock, finish, inside]
          · simp [endRead, unlock, finish, hown]
          · simp [endRead, unlock, finish, Shape]
    · rename_i k v hp
      rw [hp] at hkeys hlock hknows
      have hown : c.owner = some t := hlock.1 rfl
      have hfound : (c.table.emplace k v).find k = some ((c.table.find k).getD v) := by rw [Assoc.find_emplace]; simp
      have hfaith : Faithful load (c.table.emplace k v) := by
        intro k' v' e
        rw [Assoc.find_emplace] at e
        split at e
        · rename_i hk; subst hk
          cases hf : c.table.find k' with
          | none => simp [hf] at e; subst e; exact hknows
          | some w => simp [hf] at e; subst e; exact h.faithful k' w hf
        · exact h.faithful k' v' e
      split
      · rename_i he
        refine h.update t hfaith (emplace_grows c.table k v) ?_ ⟨?_, ?_, ?_⟩ ?_ ?_ ?_
        · intro u hu; simp [endWrite, beginRead, goto, hu]
        · simpa [endWrite, beginRead, goto, current] using hkeys
        · simpa [endWrite, beginRead, goto] using hans
        · simpa [endWrite, beginRead, goto, Knows] using ⟨_, hfound⟩
        · simp [endWrite, beginRead, goto, inside, hown, he]
        · simp [endWrite, beginRead, goto, hown]
        · simp [endWrite, beginRead, goto, Shape]
      · rename_i he
        refine h.update t hfaith (emplace_grows c.table k v) ?_ ⟨?_, ?_, ?_⟩ ?_ ?_ ?_
        · intro u hu; simp [endWrite, unlock, beginRead, goto, hu]
        · simpa [endWrite, unlock, beginRead, goto, current] using hkeys
        · simpa [endWrite, unlock, beginRead, goto] using hans
        · simpa [endWrite, unlock, beginRead, goto, Knows] using ⟨_, hfound⟩
        · simp [endWrite, unlock, beginRead, goto, inside, he]
        · simp [endWrite, unlock, beginRead, goto, hown]
        · simp [endWrite, unlock, beginRead, goto, Shape]
    · rename_i k hp
      rw [hp] at hkeys hlock hknows
      obtain ⟨v, hv⟩ := hknows
      rw [hv]
      cases early with
      | false =>
        refine h.update t h.faithful (fun _ _ e => e) ?_ ⟨?_, ?_, ?_⟩ ?_ (Or.inl rfl) ?_
        · intro u hu; simp [endRead, finish, hu]
        · simpa [endRead, finish, current] using hkeys
        · intro e he
          simp only [Bool.false_eq_true, if_false, endRead, finish, if_true, List.mem_append, List.mem_singleton] at he
          rcases he with he | rfl
          · exact hans e he
          · exact (h.faithful k v hv).symm
        · simp [endRead, finish, Knows]
        · simpa [endRead, finish, inside] using hlock
        · simp [endRead, finish, Shape]
      | true =>
        have hown : c.owner = some t := hlock.1 rfl
        refine h.update t h.faithful (fun _ _ e => e) ?_ ⟨?_, ?_, ?_⟩ ?_ ?_ ?_
        · intro u hu; simp [endRead, unlock, finish, hu]
        · simpa [endRead, unlock, finish, current] using hkeys
        · intro e he
          simp only [endRead, unlock, finish, if_true, List.mem_append, List.mem_singleton] at he
          rcases he with he | rfl
          · exact hans e he
          · exact (h.faithful k v hv).symm
        · simp [endRead, unlock, finish, Knows]
        · simp [endRead, unlock, finish, inside]
        · simp [endRead, unlock, finish, hown]
        · simp [endRead, unlock, finish, Shape]

theorem inv_run (early : Bool) (load : K → Outcome V) (progs : Nat → List K) (ts : List Nat) (c : Config K V)
    (h : Inv early load progs c) : Inv early load progs (run early load c ts) := by
  induction ts generalizing c with
  | nil => exact h
  | cons t ts ih => exact ih _ (inv_step early load progs c t h)

theorem answered {load : K → Outcome V} {table : Assoc K V} {prog : List K} {th : Thread K V} (h : Fine load table prog th) :
    Answered load prog th.done := by
  refine ⟨th.done.length, ?_⟩
  have e : prog.take th.done.length = th.done.map (·.1) := by
    rw [h.keys, List.append_assoc, ← List.length_map (f := fun e : K × Outcome V => e.1), List.take_left]
  rw [e, List.map_map]
  conv_lhs => rw [← List.map_id th.done]
  apply List.map_congr_left
  intro x hx
  simp [← h.answers x hx]

theorem run_append (early : Bool) (load : K → Outcome V) (c : Config K V) (as bs : List Nat) :
    run early load c (as ++ bs) = run early load (run early load c as) bs := by
  induction as generalizing c with
  | nil => rfl
  | cons a as ih => exact ih _

/-! ## No races -/

/-- No thread writes or is about to. -/
structure Calm (load : K → Outcome V) (tb : Assoc K V) (c : Config K V) : Prop where
  table : c.table = tb
  raced : c.raced = false
  writing : c.writing = none
  known : ∀ t k, k ∈ current (c.threads t).phase ++ (c.threads t).todo → (∃ v, tb.find k = some v) ∨ ∀ v, load k ≠ .ok v
  phase : ∀ t k v, (c.threads t).phase ≠ .wait k (some v) ∧ (c.threads t).phase ≠ .write k v

theorem calm_start (load : K → Outcome V) (table : Assoc K V) (progs : Nat → List K)
    (h : ∀ t, ∀ k ∈ progs t, (∃ v, table.find k = some v) ∨ ∀ v, load k ≠ .ok v) : Calm load table (start table progs) :=
  ⟨rfl, rfl, rfl, fun t k hk => h t k (by simpa [start, current] using hk), fun _ _ _ => by simp [start]⟩

theorem Calm.update {load : K → Outcome V} {tb : Assoc K V} {c c' : Config K V} (t : Nat) (h : Calm load tb c) (ht : c'.table = c.table)
    (hr : c'.raced = (c.raced || c.writing.isSome) ∨ c'.raced = c.raced) (hw : c'.writing = c.writing)
    (ho : ∀ u, u ≠ t → c'.threads u = c.threads u)
    (hk : ∀ k, k ∈ current (c'.threads t).phase ++ (c'.threads t).todo → k ∈ current (c.threads t).phase ++ (c.threads t).todo)
    (hp : ∀ k v, (c'.threads t).phase ≠ .wait k (some v) ∧ (c'.threads t).phase ≠ .write k v) : Calm load tb c' := by
  refine ⟨ht.trans h.table, ?_, hw.trans h.writing, fun u k hu => ?_, fun u k v => ?_⟩
  · rcases hr with e | e <;> simp [e, h.raced, h.writing]
  · by_cases e : u = t
    · subst e; exact h.known u k (hk k hu)
    · rw [ho u e] at hu; exact h.known u k hu
  · by_cases e : u = t
    · subst e; exact hp k v
    · rw [ho u e]; exact h.phase u k v

theorem calm_step (early : Bool) (load : K → Outcome V) (tb : Assoc K V) (c : Config K V) (t : Nat) (h : Calm load tb c) :
    Calm load tb (step early load c t) := by
  have hknown := h.known t
  have hphase := h.phase t
  unfold step
  split
  · exact h
  · split
    · rename_i hp
      split
      · exact h
      · rename_i k rest htodo
        refine h.update t rfl (Or.inl rfl) rfl (fun u hu => by simp [beginRead, next, hu]) ?_ ?_
        · intro k' hk'; simpa [beginRead, next, current, hp, htodo] using hk'
        · simp [beginRead, next]
    · rename_i k hp
      split
      · refine h.update t rfl (Or.inr rfl) rfl (fun u hu => by simp [endRead, finish, hu]) ?_ ?_
        · intro k' hk'
          simp only [endRead, finish, current, if_true, List.nil_append] at hk'
          exact List.mem_append_right _ hk'
        · simp [endRead, finish]
      · rename_i hn
        have hno : ∀ v, load k ≠ .ok v := by
          rcases hknown k (by simp [hp, current]) with ⟨v, hv⟩ | hno
          · rw [h.table] at hn; rw [hn] at hv; cases hv
          · exact hno
        split
        · split
          · rename_i v hv; exact absurd hv (hno v)
          all_goals
            refine h.update t rfl (Or.inr rfl) rfl (fun u hu => by simp [endRead, finish, hu]) ?_ ?_
            · intro k' hk'
              simp only [endRead, finish, current, if_true, List.nil_append] at hk'
              exact List.mem_append_right _ hk'
            · simp [endRead, finish]
        · refine h.update t rfl (Or.inr rfl) rfl (fun u hu => by simp [endRead, goto, hu]) ?_ ?_
          · intro k' hk'; simpa [endRead, goto, current, hp] using hk'
          · simp [endRead, goto]
    · rename_i k v hp
      split
      · exact h
      · split
        · rename_i v; exact absurd hp (hphase k v).1
        · refine h.update t rfl (Or.inl rfl) rfl (fun u hu => by simp [lock, beginRead, goto, hu]) ?_ ?_
          · intro k' hk'; simpa [lock, beginRead, goto, current, hp] using hk'
          · simp [lock, beginRead, goto]
    · rename_i k hp
      split
      · refine h.update t rfl (Or.inl rfl) rfl (fun u hu => by simp [endRead, unlock, beginRead, goto, hu]) ?_ ?_
        · intro k' hk'; simpa [endRead, unlock, beginRead, goto, current, hp] using hk'
        · simp [endRead, unlock, beginRead, goto]
      · rename_i hn
        have hno : ∀ v, load k ≠ .ok v := by
          rcases hknown k (by simp [hp, current]) with ⟨v, hv⟩ | hno
          · rw [h.table] at hn; rw [hn] at hv; cases hv
          · exact hno
        split
        · rename_i v hv; exact absurd hv (hno v)
        all_goals
          refine h.update t rfl (Or.inr rfl) rfl (fun u hu => by simp [endRead, unlock, finish, hu]) ?_ ?_
          · intro k' hk'
            simp only [endRead, unlock, finish, current, if_true, List.nil_append] at hk'
            exact List.mem_append_right _ hk'
          · simp [endRead, unlock, finish]
    · rename_i k v hp; exact absurd hp (hphase k v).2
    · rename_i k hp
      have key : ∀ o, Calm load tb ((if early = true then (c.endRead t).unlock else c.endRead t).finish t k o) := by
        intro o
        cases early
        all_goals
          refine h.update t rfl (Or.inr rfl) rfl (fun u hu => by simp [endRead, unlock, finish, hu]) ?_ ?_
          · intro k' hk'
            simp only [endRead, unlock, finish, current, if_true, List.nil_append] at hk'
            exact List.mem_append_right _ hk'
          · simp [endRead, unlock, finish]
      cases hf : c.table.find k <;> exact key _

theorem calm_run (early : Bool) (load : K → Outcome V) (tb : Assoc K V) (ts : List Nat) (c : Config K V) (h : Calm load tb c) :
    Calm load tb (run early load c ts) := by
  induction ts generalizing c with
  | nil => exact h
  | cons t ts ih => exact ih _ (calm_step early load tb c t h)

/-- The phases in the middle of a `find`. -/
def reads : Phase K V → Bool
  | .look _ => true
  | .check _ => true
  | .again _ => true
  | _ => false

/-- The phase in the middle of an `emplace`. -/
def writes : Phase K V → Bool
  | .write _ _ => true
  | _ => false

/-- The marks for races are right. -/
structure Tracks (c : Config K V) : Prop where
  reading : ∀ t, t ∈ c.reading ↔ reads (c.threads t).phase = true
  writing : ∀ t, c.writing = some t ↔ writes (c.threads t).phase = true

omit [DecidableEq K] in
theorem Tracks.update {c c' : Config K V} (t : Nat) (h : Tracks c) (ho : ∀ u, u ≠ t → c'.threads u = c.threads u)
    (hr : ∀ u, u ≠ t → (u ∈ c'.reading ↔ u ∈ c.reading)) (hr' : t ∈ c'.reading ↔ reads (c'.threads t).phase = true)
    (hw : ∀ u, u ≠ t → (c'.writing = some u ↔ c.writing = some u))
    (hw' : c'.writing = some t ↔ writes (c'.threads t).phase = true) : Tracks c' := by
  refine ⟨fun u => ?_, fun u => ?_⟩
  · by_cases e : u = t
    · subst e; exact hr'
    · rw [hr u e, ho u e]; exact h.reading u
  · by_cases e : u = t
    · subst e; exact hw'
    · rw [hw u e, ho u e]; exact h.writing u

omit [DecidableEq K] in
theorem tracks_start (table : Assoc K V) (progs : Nat → List K) : Tracks (start table progs) :=
  ⟨by simp [start, reads], by simp [start, writes]⟩

theorem tracks_step (early : Bool) (load : K → Outcome V) (progs : Nat → List K) (c : Config K V) (t : Nat) (hi : Inv early load progs c)
    (h : Tracks c) : Tracks (step early load c t) := by
  have hrd := h.reading t
  have hwr := h.writing t
  have hlock := hi.lock t
  -- nobody else writes if the lock is free or held by `t`
  have nobody : c.owner = none ∨ c.owner = some t → ∀ u, u ≠ t → c.writing ≠ some u := by
    intro ho u hu e
    have hw := (h.writing u).1 e
    have hin : inside early (c.threads u).phase = true := by
      revert hw; cases (c.threads u).phase <;> simp [writes, inside]
    have := (hi.lock u).1 hin
    rcases ho with e' | e' <;> rw [e'] at this
    · cases this
    · exact hu (Option.some.inj this).symm
  unfold step
  split
  · exact h
  · split
    · rename_i hp
      rw [hp] at hrd hwr
      split
      · exact h
      · refine h.update t (fun u hu => by simp [beginRead, next, hu]) (fun u hu => by simp [beginRead, next, hu]) ?_ (fun _ _ => Iff.rfl) ?_
        · simp [beginRead, next, reads]
        · simpa [beginRead, next, writes] using hwr
    · rename_i k hp
      rw [hp] at hrd hwr
      split
      · refine h.update t (fun u hu => by simp [endRead, finish, hu]) (fun u hu => by simp [endRead, finish, hu]) ?_ (fun _ _ => Iff.rfl) ?_
        · simp [endRead, finish, reads]
        · simpa [endRead, finish, writes] using hwr
      · split
        · split
          · refine h.update t (fun u hu => by simp [endRead, goto, hu]) (fun u hu => by simp [endRead, goto, hu]) ?_ (fun _ _ => Iff.rfl) ?_
            · simp [endRead, goto, reads]
            · simpa [endRead, goto, writes] using hwr
          all_goals
            refine h.update t (fun u hu => by simp [endRead, finish, hu]) (fun u hu => by simp [endRead, finish, hu]) ?_ (fun _ _ => Iff.rfl) ?_
            · simp [endRead, finish, reads]
            · simpa [endRead, finish, writes] using hwr
        · refine h.update t (fun u hu => by simp [endRead, goto, hu]) (fun u hu => by simp [endRead, goto, hu]) ?_ (fun _ _ => Iff.rfl) ?_
          · simp [endRead, goto, reads]
          · simpa [endRead, goto, writes] using hwr
    · rename_i k v hp
      rw [hp] at hrd hwr
      split
      · exact h
      · rename_i hown
        have no := nobody (Or.inl hown)
        split
        · refine h.update t (fun u hu => by simp [lock, beginWrite, goto, hu]) (fun u hu => by simp [lock, beginWrite, goto]) ?_ ?_ ?_
          · simpa [lock, beginWrite, goto, reads] using hrd
          · intro u hu
            have hut : ¬ t = u := fun e => hu e.symm
            simpa [lock, beginWrite, goto, hut] using no u hu
          · simp [lock, beginWrite, goto, writes]
        · refine h.update t (fun u hu => by simp [lock, beginRead, goto, hu]) (fun u hu => by simp [lock, beginRead, goto, hu]) ?_
            (fun _ _ => Iff.rfl) ?_
          · simp [lock, beginRead, goto, reads]
          · simpa [lock, beginRead, goto, writes] using hwr
    · rename_i k hp
      rw [hp] at hrd hwr hlock
      have no := nobody (Or.inr (hlock.1 rfl))
      split
      · refine h.update t (fun u hu => by simp [endRead, unlock, beginRead, goto, hu])
          (fun u hu => by simp [endRead, unlock, beginRead, goto, hu]) ?_ (fun _ _ => Iff.rfl) ?_
        · simp [endRead, unlock, beginRead, goto, reads]
        · simpa [endRead, unlock, beginRead, goto, writes] using hwr
      · split
        · refine h.update t (fun u hu => by simp [endRead, beginWrite, goto, hu]) (fun u hu => by simp [endRead, beginWrite, goto, hu]) ?_ ?_ ?_
          · simp [endRead, beginWrite, goto, reads]
          · intro u hu
            have hut : ¬ t = u := fun e => hu e.symm
            simpa [endRead, beginWrite, goto, hut] using no u hu
          · simp [endRead, beginWrite, goto, writes]
        all_goals
          refine h.update t (fun u hu => by simp [endRead, unlock, finish, hu]) (fun u hu => by simp [endRead, unlock, finish, hu]) ?_
            (fun _ _ => Iff.rfl) ?_
          · simp [endRead, unlock, finish, reads]
          · simpa [endRead, unlock, finish, writes] using hwr
    · rename_i k v hp
      rw [hp] at hrd hwr hlock
      have no := nobody (Or.inr (hlock.1 rfl))
      split
      all_goals
        refine h.update t (fun u hu => by simp [endWrite, unlock, beginRead, goto, hu])
          (fun u hu => by simp [endWrite, unlock, beginRead, goto, hu]) ?_ ?_ ?_
        · simp [endWrite, unlock, beginRead, goto, reads]
        · intro u hu; simpa [endWrite, unlock, beginRead, goto] using no u hu
        · simp [endWrite, unlock, beginRead, goto, writes]
    · rename_i k hp
      rw [hp] at hrd hwr
      have key : ∀ o, Tracks ((if early = true then (c.endRead t).unlock else c.endRead t).finish t k o) := by
        intro o
        cases early
        all_goals
          refine h.update t (fun u hu => by simp [endRead, unlock, finish, hu]) (fun u hu => by simp [endRead, unlock, finish, hu]) ?_
            (fun _ _ => Iff.rfl) ?_
          · simp [endRead, unlock, finish, reads]
          · simpa [endRead, unlock, finish, writes] using hwr
      cases hf : c.table.find k <;> exact key _

theorem tracks_run (early : Bool) (load : K → Outcome V) (progs : Nat → List K) (ts : List Nat) (c : Config K V) (hi : Inv early load progs c)
    (h : Tracks c) : Tracks (run early load c ts) := by
  induction ts generalizing c with
  | nil => exact h
  | cons t ts ih => exact ih _ (inv_step early load progs c t hi) (tracks_step early load progs c t hi h)

/-- A step which is not in the middle of another call does not race. -/
theorem unraced_step (early : Bool) (load : K → Outcome V) (c : Config K V) (t : Nat) (h : Tracks c) (hr : c.raced = false)
    (ho : ∀ u, u ≠ t → (c.threads u).phase = .idle) : (step early load c t).raced = false := by
  have hrd := h.reading t
  have hwr := h.writing t
  have nr : ∀ u, u ≠ t → u ∉ c.reading := by
    intro u hu e; have := (h.reading u).1 e; rw [ho u hu] at this; cases this
  have nw : ∀ u, u ≠ t → c.writing ≠ some u := by
    intro u hu e; have := (h.writing u).1 e; rw [ho u hu] at this; cases this
  have none_ : writes (c.threads t).phase = false → c.writing = none := by
    intro e
    cases hc : c.writing with
    | none => rfl
    | some u =>
      by_cases hu : u = t
      · subst hu; rw [hwr.1 hc] at e; cases e
      · exact absurd hc (nw u hu)
  have empty : reads (c.threads t).phase = false → c.reading = [] := by
    intro e
    rw [List.eq_nil_iff_forall_not_mem]
    intro u hu
    by_cases hut : u = t
    · subst hut; rw [hrd.1 hu] at e; cases e
    · exact nr u hut hu
  have filt : c.reading.filter (fun u => decide (u ≠ t)) = [] := by
    rw [List.filter_eq_nil_iff]
    intro u hu
    by_cases hut : u = t
    · simp [hut]
    · exact absurd hu (nr u hut)
  unfold step
  rw [hr]
  simp only [Bool.false_eq_true, if_false]
  split
  · rename_i hp
    rw [hp] at none_
    split
    · exact hr
    · simp [beginRead, next, hr, none_ rfl]
  · split
    · exact hr
    · split
      · split <;> exact hr
      · exact hr
  · rename_i k v hp
    rw [hp] at none_ empty
    split
    · exact hr
    · split
      · simp [lock, beginWrite, goto, hr, none_ rfl, empty rfl]
      · simp [lock, beginRead, goto, hr, none_ rfl]
  · rename_i k hp
    rw [hp] at none_
    split
    · simp [endRead, unlock, beginRead, goto, hr, none_ rfl]
    · split
      · have : (c.endRead t).reading = [] := filt
        simp only [beginWrite, goto, this]
        simp [endRead, hr, none_ rfl]
      · exact hr
      · exact hr
  · split <;> simp [endWrite, unlock, beginRead, goto, hr]
  · split <;> (split <;> exact hr)

/-! ## Progress -/

/-- The steps a thread still takes, at most. -/
def work (th : Thread K V) : Nat :=
  6 * th.todo.length + match th.phase with
    | .idle => 0
    | .look _ => 5
    | .wait _ _ => 4
    | .check _ => 3
    | .write _ _ => 2
    | .again _ => 1

theorem step_other (early : Bool) (load : K → Outcome V) (c : Config K V) (t u : Nat) (hu : u ≠ t) :
    (step early load c t).threads u = c.threads u := by
  unfold step
  repeat' split
  all_goals simp [next, goto, finish, beginRead, endRead, beginWrite, endWrite, lock, unlock, hu]

theorem step_work (early : Bool) (load : K → Outcome V) (c : Config K V) (t : Nat) (hr : c.raced = false) (hw : 0 < work (c.threads t))
    (hlock : ∀ k v, (c.threads t).phase = .wait k v → c.owner = none) : work ((step early load c t).threads t) < work (c.threads t) := by
  unfold step
  rw [hr]
  simp only [Bool.false_eq_true, if_false]
  split
  · rename_i hp
    split
    · rename_i ht; simp [work, hp, ht] at hw
    · rename_i k rest ht
      simp [work, hp, ht, beginRead, next]; omega
  all_goals rename_i hp
  · split
    · simp [work, hp, endRead, finish]
    · split
      · split <;> simp [work, hp, endRead, finish, goto]
      · simp [work, hp, endRead, goto]
  · rw [hlock _ _ hp]
    simp only
    split <;> simp [work, hp, lock, beginWrite, beginRead, goto]
  · split
    · simp [work, hp, endRead, unlock, beginRead, goto]
    · split <;> simp [work, hp, endRead, unlock, beginWrite, finish, goto]
  · split <;> simp [work, hp, endWrite, unlock, beginRead, goto]
  · split <;> (split <;> simp [work, hp, endRead, unlock, finish])

/-- Some thread can go on as long as one is not done. -/
theorem goes_on (early : Bool) (load : K → Outcome V) (progs : Nat → List K) (c : Config K V) (hi : Inv early load progs c)
    (hr : c.raced = false) (t : Nat) (hw : 0 < work (c.threads t)) :
    ∃ u, 0 < work (c.threads u) ∧ work ((step early load c u).threads u) < work (c.threads u) := by
  cases ho : c.owner with
  | none => exact ⟨t, hw, step_work early load c t hr hw fun _ _ _ => ho⟩
  | some u =>
    have hin := (hi.lock u).2 ho
    have hpos : 0 < work (c.threads u) := by
      unfold work; revert hin
      cases (c.threads u).phase <;> simp [inside]
    refine ⟨u, hpos, step_work early load c u hr hpos fun k v e => ?_⟩
    rw [e] at hin; cases hin

theorem done_of_work {load : K → Outcome V} {table : Assoc K V} {prog : List K} {th : Thread K V} (h : Fine load table prog th)
    (hw : work th = 0) : th.done = prog.map fun k => (k, load k) := by
  have hp : th.phase = .idle := by
    revert hw; unfold work; cases th.phase <;> simp
  have ht : th.todo = [] := by
    revert hw; unfold work; cases th.todo <;> simp
  have hk := h.keys
  rw [hp, ht] at hk
  simp only [current, List.append_nil] at hk
  rw [hk, List.map_map]
  conv_lhs => rw [← List.map_id th.done]
  apply List.map_congr_left
  intro x hx
  simp [← h.answers x hx]

theorem finishes (early : Bool) (load : K → Outcome V) (progs : Nat → List K) (n : Nat) (m : Nat) (c : Config K V)
    (hi : Inv early load progs c) (hn : ∀ t, n ≤ t → work (c.threads t) = 0)
    (hm : ((List.range n).map fun t => work (c.threads t)).sum ≤ m) :
    ∃ ts, (run early load c ts).raced = true ∨ ∀ t, work ((run early load c ts).threads t) = 0 := by
  induction m generalizing c with
  | zero =>
    refine ⟨[], Or.inr fun t => ?_⟩
    by_cases ht : n ≤ t
    · exact hn t ht
    · have := List.single_le_sum (l := (List.range n).map fun t => work (c.threads t)) (by simp) (work (c.threads t))
        (List.mem_map_of_mem (List.mem_range.2 (by omega)))
      simp only [run]; omega
  | succ m ih =>
    by_cases hr : c.raced = true
    · exact ⟨[], Or.inl hr⟩
    · by_cases hz : ∀ t, work (c.threads t) = 0
      · exact ⟨[], Or.inr hz⟩
      · push Not at hz
        obtain ⟨t, ht⟩ := hz
        obtain ⟨u, hu, hlt⟩ := goes_on early load progs c hi (by simpa using hr) t (by omega)
        have hun : u < n := by
          by_contra h; have := hn u (by omega); omega
        obtain ⟨ts, hts⟩ := ih (step early load c u) (inv_step early load progs c u hi)
          (fun w hw => by rw [step_other early load c u w (by omega)]; exact hn w hw) (by
            have : ((List.range n).map fun t => work ((step early load c u).threads t)).sum <
                ((List.range n).map fun t => work (c.threads t)).sum := by
              apply List.sum_lt_sum
              · intro w _
                by_cases hw : w = u
                · subst hw; omega
                · rw [step_other early load c u w hw]
              · exact ⟨u, List.mem_range.2 hun, hlt⟩
            omega)
        exact ⟨u :: ts, hts⟩

/-- A schedule in which no call begins before the others ended. -/
def Sequential (early : Bool) (load : K → Outcome V) (c : Config K V) : List Nat → Prop
  | [] => True
  | t :: ts => (∀ u, u ≠ t → (c.threads u).phase = .idle) ∧ Sequential early load (step early load c t) ts

theorem sequential_run (early : Bool) (load : K → Outcome V) (progs : Nat → List K) (ts : List Nat) (c : Config K V)
    (hi : Inv early load progs c) (ht : Tracks c) (hr : c.raced = false) (hs : Sequential early load c ts) :
    (run early load c ts).raced = false := by
  induction ts generalizing c with
  | nil => exact hr
  | cons t ts ih => exact ih _ (inv_step early load progs c t hi) (tracks_step early load progs c t hi ht) (unraced_step early load c t ht hr hs.1) hs.2

end LazyTableProof

open LazyTableProof

section
variable {K V : Type} [DecidableEq K]

/-- C108: threads which share the table of gradients (`early`) or of grids of heights, filled before in any faithful way, each asking for keys
of its own choice and scheduled in any order: up to the first data race every answer is what making the value afresh gives, in the order of the
questions; the table holds only such values, and a value in it is never replaced; no two threads change the table at a time. Partial: a data
race is possible, see `C108_violated_race`; `C108_no_race` and `C108_sequential` say when there is none. -/
theorem C108_answers_partial (early : Bool) (load : K → Outcome V) (table : Assoc K V) (hf : Faithful load table) (progs : Nat → List K)
    (ts ts' : List Nat) :
    let c := run early load (start table progs) ts
    (∀ t, Answered load (progs t) (c.threads t).done) ∧ Faithful load c.table ∧
      (∀ k v, c.table.find k = some v → (run early load c ts').table.find k = some v) ∧
      ∀ t u k v k' v', (c.threads t).phase = .write k v → (c.threads u).phase = .write k' v' → t = u := by
  intro c
  have hi := inv_run early load progs ts _ (inv_start early load table progs hf)
  refine ⟨fun t => answered (hi.fine t), hi.faithful, fun k v e => ?_, fun t u k v k' v' e e' => ?_⟩
  · have : ∀ (c : Config K V), c.table.find k = some v → (run early load c ts').table.find k = some v := by
      clear e
      induction ts' with
      | nil => exact fun _ e => e
      | cons t ts' ih =>
        intro c e
        refine ih _ ?_
        unfold step
        repeat' split
        all_goals first
          | exact e
          | exact emplace_grows _ _ _ _ _ e
    exact this c e
  · have h := (hi.lock t).1 (by rw [e]; rfl)
    have h' := (hi.lock u).1 (by rw [e']; rfl)
    rw [h] at h'; exact Option.some.inj h'

/-- C108: no schedule has a data race if every key that is asked for is in the table or has no value (its file is missing, its text is no
gradient); the table is not changed. -/
theorem C108_no_race (early : Bool) (load : K → Outcome V) (table : Assoc K V) (progs : Nat → List K)
    (hk : ∀ t, ∀ k ∈ progs t, (∃ v, table.find k = some v) ∨ ∀ v, load k ≠ .ok v) (ts : List Nat) :
    (run early load (start table progs) ts).raced = false ∧ (run early load (start table progs) ts).table = table :=
  have h := calm_run early load table ts _ (calm_start load table progs hk)
  ⟨h.raced, h.table⟩

/-- C108: there is no data race if no call begins before the others ended. -/
theorem C108_sequential (early : Bool) (load : K → Outcome V) (table : Assoc K V) (hf : Faithful load table) (progs : Nat → List K)
    (ts : List Nat) (hs : Sequential early load (start table progs) ts) : (run early load (start table progs) ts).raced = false :=
  sequential_run early load progs ts _ (inv_start early load table progs hf) (tracks_start table progs) rfl hs

/-- C108: in particular there is no data race as long as only one thread runs. -/
theorem C108_alone (early : Bool) (load : K → Outcome V) (table : Assoc K V) (hf : Faithful load table) (progs : Nat → List K)
    (t n : Nat) : (run early load (start table progs) (List.replicate n t)).raced = false := by
  apply C108_sequential early load table hf progs
  have : ∀ (c : Config K V), (∀ u, u ≠ t → (c.threads u).phase = .idle) → Sequential early load c (List.replicate n t) := by
    induction n with
    | zero => exact fun _ _ => trivial
    | succ n ih =>
      intro c hc
      exact ⟨hc, ih _ fun u hu => by rw [step_other early load c t u hu]; exact hc u hu⟩
  exact this _ fun _ _ => rfl

/-- C108: no deadlock, also not after exceptions: as long as no data race happened the threads can go on, whatever was scheduled so far, until
each of them has all its answers. -/
theorem C108_live (early : Bool) (load : K → Outcome V) (table : Assoc K V) (hf : Faithful load table) (progs : Nat → List K) (n : Nat)
    (hn : ∀ t, n ≤ t → progs t = []) (ts : List Nat) :
    ∃ ts', (run early load (start table progs) (ts ++ ts')).raced = true ∨
      ∀ t, ((run early load (start table progs) (ts ++ ts')).threads t).done = (progs t).map fun k => (k, load k) := by
  have hi := inv_run early load progs ts _ (inv_start early load table progs hf)
  have hz : ∀ t, n ≤ t → work ((run early load (start table progs) ts).threads t) = 0 := by
    intro t ht
    have := (hi.fine t).keys
    rw [hn t ht] at this
    have h := List.append_eq_nil_iff.1 this.symm
    have h' := List.append_eq_nil_iff.1 h.1
    unfold work
    rw [h.2]
    revert h'
    cases ((run early load (start table progs) ts).threads t).phase <;> simp [current]
  obtain ⟨ts', h⟩ := finishes early load progs n _ _ hi hz (le_refl _)
  refine ⟨ts', ?_⟩
  rw [run_append]
  rcases h with h | h
  · exact Or.inl h
  · refine Or.inr fun t => done_of_work ((inv_run early load progs ts' _ hi).fine t) (h t)

/-- C108 is violated: whatever the table and the threads ask for, if a thread asks for a key which is not in the table but has a value while
another thread asks for anything, some schedule has a data race: the `find` without the lock runs into the `emplace`. -/
theorem C108_violated_race (early : Bool) (load : K → Outcome V) (table : Assoc K V) (progs : Nat → List K) (t u : Nat) (htu : t ≠ u)
    (k k' : K) (ks ks' : List K) (v : V) (hk : table.find k = none) (hv : load k = .ok v) (ht : progs t = k :: ks) (hu : progs u = k' :: ks') :
    ∃ ts, (run early load (start table progs) ts).raced = true := by
  have hut : ¬ u = t := fun e => htu e.symm
  cases early with
  | true =>
    exact ⟨[t, t, u, t], by
      simp [run, step, start, beginRead, next, endRead, goto, lock, beginWrite, ht, hu, hk, hv, htu, hut]⟩
  | false =>
    exact ⟨[t, t, t, u, t], by
      simp [run, step, start, beginRead, next, endRead, goto, lock, beginWrite, ht, hu, hk, hv, htu, hut]⟩

end

/-- C108 for heights: a thread which asks for the height of a place in a tile with a file of at least four heights, however the other threads
are scheduled, gets (up to a data race) the grid of that file, and from it a height between four heights of the file. -/
theorem C108_heights_partial {Q F : Type} [DecidableEq Q] [Field F] [LinearOrder F] [IsStrictOrderedRing F] [FloorRing F]
    (files : Q → Option (List Int)) (box : Q → (F × F) × (F × F)) (progs : Nat → List Q) (ts : List Nat) (t : Nat) (q : Q)
    (o : Outcome Elevation.EleData)
    (ho : (q, o) ∈ ((run false (loadGrid files box) (start [] progs) ts).threads t).done) (heights : List Int) (hf : files q = some heights)
    (h4 : 4 ≤ heights.length) (lat lon : F)
    (hw : 1 ≤ ((box q).2.2 - (box q).1.2) / ((Nat.sqrt heights.length : Int) - 1 : Int) * (Elevation.scale : F))
    (hh : 1 ≤ ((box q).2.1 - (box q).1.1) / ((Nat.sqrt heights.length : Int) - 1 : Int) * (Elevation.scale : F))
    (hlat : (box q).1.1 ≤ lat) (hlon : (box q).1.2 ≤ lon) :
    q ∈ progs t ∧ ∃ d v a b c e, o = .ok d ∧ Elevation.getElevation d lat lon = .ok v ∧ a ∈ heights ∧ b ∈ heights ∧ c ∈ heights ∧ e ∈ heights ∧
      ElevationSpec.Between v [a, b, c, e] := by
  obtain ⟨n, hn⟩ := (C108_answers_partial false (loadGrid files box) [] (by intro k v e; cases e) progs ts []).1 t
  rw [hn] at ho
  obtain ⟨q', hq', he⟩ := List.mem_map.1 ho
  simp only [Prod.mk.injEq] at he
  obtain ⟨rfl, rfl⟩ := he
  refine ⟨List.mem_of_mem_take hq', ?_⟩
  obtain ⟨d, v, hd, hv, _, _, r, i, j, i', j', _, _, _, _, _, _, _, _, _, _, a, b, c, e, ha, hb, hc, hee, hbt, _⟩ :=
    C40_between_partial heights (box q').1.1 (box q').1.2 (box q').2.1 (box q').2.2 lat lon h4 hw hh hlat hlon
  exact ⟨d, v, a, b, c, e, by simp only [loadGrid, hf]; exact hd, hv, List.mem_of_getElem? ha, List.mem_of_getElem? hb, List.mem_of_getElem? hc,
    List.mem_of_getElem? hee, hbt⟩

namespace LazyTableProof.Sample

/-- Two tiles with files, one without. -/
def files : Nat → Option (List Int)
  | 0 => some [1, 2, 3, 4]
  | 1 => some [5, 6, 7, 8]
  | _ => none

/-- Boxes of one degree. -/
def box (q : Nat) : (Rat × Rat) × (Rat × Rat) := ((0, q), (1, q + 1))

/-- Two threads which ask for the same tiles, one of them without a file. -/
def progs : Nat → List Nat
  | 0 => [0, 2, 1]
  | 1 => [1, 2, 0]
  | _ => []

/-- One call after the other. -/
def one : List Nat := [0, 0, 0, 0, 0, 0, 1, 1, 1, 1, 1, 1, 0, 0, 0, 0, 1, 1, 1, 1, 0, 0, 1, 1]

def isSequential : Config Nat Elevation.EleData → List Nat → Bool
  | _, [] => true
  | c, t :: ts => (match (c.threads (1 - t)).phase with
      | .idle => true
      | _ => false) && isSequential (step false (loadGrid files box) c t) ts

end LazyTableProof.Sample

open LazyTableProof.Sample in
example : ((run false (loadGrid files box) (start [] progs) one).threads 0).done.map (fun e => (e.1, e.2.isOk)) = [(0, true), (2, false), (1, true)] ∧
    ((run false (loadGrid files box) (start [] progs) one).threads 1).done.map (fun e => (e.1, e.2.isOk)) = [(1, true), (2, false), (0, true)] ∧
    (run false (loadGrid files box) (start [] progs) one).raced = false ∧ isSequential (start [] progs) one = true := by
  decide +kernel

-- after the calls above every schedule of calls for these tiles is free of races and all of them can end
open LazyTableProof.Sample in
example (ts : List Nat) : ∃ ts', (run false (loadGrid files box) (start (run false (loadGrid files box) (start [] progs) one).table progs) (ts ++ ts')).raced = false ∧
    ∀ t, ((run false (loadGrid files box) (start (run false (loadGrid files box) (start [] progs) one).table progs) (ts ++ ts')).threads t).done =
      (progs t).map fun k => (k, loadGrid files box k) := by
  have hf : Faithful (loadGrid files box) (run false (loadGrid files box) (start [] progs) one).table :=
    (C108_answers_partial false (loadGrid files box) [] (by intro k v e; cases e) progs one []).2.1
  obtain ⟨ts', h⟩ := C108_live false (loadGrid files box) _ hf progs 2 (by intro t ht; match t, ht with | t + 2, _ => rfl) ts
  have hk : ∀ t, ∀ k ∈ progs t, (∃ v, (run false (loadGrid files box) (start [] progs) one).table.find k = some v) ∨ ∀ v, loadGrid files box k ≠ .ok v := by
    have h0 : ((run false (loadGrid files box) (start [] progs) one).table.find 0).isSome = true := by decide +kernel
    have h1 : ((run false (loadGrid files box) (start [] progs) one).table.find 1).isSome = true := by decide +kernel
    have key : ∀ k, k = 0 ∨ k = 1 ∨ k = 2 → (∃ v, (run false (loadGrid files box) (start [] progs) one).table.find k = some v) ∨ ∀ v, loadGrid files box k ≠ .ok v := by
      rintro k (rfl | rfl | rfl)
      · exact Or.inl (Option.isSome_iff_exists.1 h0)
      · exact Or.inl (Option.isSome_iff_exists.1 h1)
      · exact Or.inr fun v e => by simp [loadGrid, files] at e
    intro t k hk
    apply key
    match t, hk with
    | 0, hk => simp [progs] at hk; omega
    | 1, hk => simp [progs] at hk; omega
    | t + 2, hk => simp [progs] at hk
  have hr := (C108_no_race false (loadGrid files box) _ progs hk (ts ++ ts')).1
  refine ⟨ts', hr, ?_⟩
  rcases h with h | h
  · rw [hr] at h; cases h
  · exact h

-- the hypotheses of the race are met by the same threads before any tile is loaded
open LazyTableProof.Sample in
example : ∃ ts, (run false (loadGrid files box) (start [] progs) ts).raced = true := by
  cases h : loadGrid files box 0 with
  | ok v => exact C108_violated_race false (loadGrid files box) [] progs 0 1 (by decide) 0 1 [2, 1] [2, 0] v rfl h rfl rfl
  | throw e => exact absurd (show (loadGrid files box 0).isOk = true by decide +kernel) (by rw [h]; simp [Outcome.isOk])
  | ub e => exact absurd (show (loadGrid files box 0).isOk = true by decide +kernel) (by rw [h]; simp [Outcome.isOk])

end Verif.Props
