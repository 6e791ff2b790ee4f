import Verif.Model.CellTable
import Verif.Props.CellTableSpec
import Verif.Props.LazyTableSpec
import Verif.Props.LazyTable
import Verif.Props.Elevation
import Mathlib.Algebra.Order.BigOperators.Group.List
import Mathlib.Data.List.Basic
import Mathlib.Tactic.Common

/-! # C116: threads which ask one provider for heights of SRTM cells -/
namespace Verif.Props
open Verif Verif.CellTable Verif.CellTable.Config Verif.CellSpec
open Verif.LazySpec (Faithful)

namespace CellTableProof

variable {R K V : Type} [DecidableEq K]

/-- The call a thread is in. -/
def current : Phase R K V → List R
  | .idle => []
  | .look r => [r]
  | .wait r => [r]
  | .check r => [r]
  | .seek r _ _ => [r]
  | .write r _ _ _ => [r]
  | .again r => [r]

/-- The cell is in the map. -/
def Has (table : Assoc K V) (k : K) : Prop := ∃ v, table.find k = some v

/-- The cells `ks` of the tile are left. -/
def Left (keys : R → List K) (table : Assoc K V) (r : R) (ks : List K) : Prop :=
  (∀ k ∈ ks, k ∈ keys r) ∧ ∀ k ∈ keys r, k ∈ ks ∨ Has table k

/-- What a thread in the middle of a call knows. -/
def Knows (target : R → K) (keys : R → List K) (load : K → Outcome V) (table : Assoc K V) : Phase R K V → Prop
  | .seek r k ks => Left keys table r (k :: ks)
  | .write r k v ks => load k = .ok v ∧ Left keys table r (k :: ks)
  | .again r => target r ∈ keys r → Has table (target r)
  | _ => True

structure Fine (target : R → K) (keys : R → List K) (load : K → Outcome V) (table : Assoc K V) (prog : List R) (th : Thread R K V) : Prop where
  calls : prog = th.done.map (·.1) ++ current th.phase ++ th.todo
  answers : ∀ e ∈ th.done, Answer target keys load e.1 e.2
  knows : Knows target keys load table th.phase

/-- The phases in which a thread holds the lock. -/
def inside : Phase R K V → Bool
  | .check _ => true
  | .seek _ _ _ => true
  | .write _ _ _ _ => true
  | _ => false

structure Inv (target : R → K) (keys : R → List K) (load : K → Outcome V) (progs : Nat → List R) (c : Config R K V) : Prop where
  faithful : Faithful load c.table
  fine : ∀ t, Fine target keys load c.table (progs t) (c.threads t)
  lock : ∀ t, inside (c.threads t).phase = true ↔ c.owner = some t

variable {target : R → K} {keys : R → List K} {load : K → Outcome V} {progs : Nat → List R}

theorem left_mono {table table' : Assoc K V} (h : ∀ k, Has table k → Has table' k) {r : R} {ks : List K} (hl : Left keys table r ks) : Left keys table' r ks :=
  ⟨hl.1, fun k hk => (hl.2 k hk).imp id (h k)⟩

theorem knows_mono {table table' : Assoc K V} (h : ∀ k, Has table k → Has table' k) {p : Phase R K V} (hk : Knows target keys load table p) :
    Knows target keys load table' p := by
  cases p with
  | again r => exact fun e => h _ (hk e)
  | seek r k ks => exact left_mono h hk
  | write r k v ks => exact ⟨hk.1, left_mono h hk.2⟩
  | _ => exact hk

theorem inv_start (table : Assoc K V) (h : Faithful load table) : Inv target keys load progs (start table progs) :=
  ⟨h, fun _ => ⟨by simp [start, current], by simp [start], trivial⟩, by simp [start, inside]⟩

/-- A step changes at most the thread which takes it. -/
theorem Inv.update {c c' : Config R K V} (t : Nat) (h : Inv target keys load progs c)
    (hf : Faithful load c'.table) (hg : ∀ k v, c.table.find k = some v → c'.table.find k = some v)
    (ho : ∀ u, u ≠ t → c'.threads u = c.threads u) (ht : Fine target keys load c'.table (progs t) (c'.threads t))
    (hl : inside (c'.threads t).phase = true ↔ c'.owner = some t)
    (hl' : c'.owner = c.owner ∨ (c.owner = none ∨ c.owner = some t) ∧ (c'.owner = none ∨ c'.owner = some t)) : Inv target keys load progs c' := by
  refine ⟨hf, fun u => ?_, fun u => ?_⟩
  · by_cases hu : u = t
    · subst hu; exact ht
    · rw [ho u hu]
      have := h.fine u
      exact ⟨this.calls, this.answers, knows_mono (fun k ⟨v, e⟩ => ⟨v, hg k v e⟩) this.knows⟩
  · by_cases hu : u = t
    · subst hu; exact hl
    · rw [ho u hu, h.lock u]
      rcases hl' with e | ⟨e, e'⟩
      · rw [e]
      · have hut : ¬ t = u := fun e => hu e.symm
        rcases e with e | e <;> rcases e' with e' | e' <;> simp [e, e', hut]

/-- The loops go on while the lock is held. -/
theorem inv_visit {c c' : Config R K V} {t : Nat} (h : Inv target keys load progs c) (r : R) (ks : List K)
    (hin : inside (c.threads t).phase = true) (hcur : current (c.threads t).phase = [r]) (hth : c'.threads = c.threads) (how : c'.owner = c.owner)
    (hf : Faithful load c'.table) (hg : ∀ k v, c.table.find k = some v → c'.table.find k = some v) (hleft : Left keys c'.table r ks) :
    Inv target keys load progs (c'.visit t r ks) := by
  obtain ⟨hcalls, hans, -⟩ := h.fine t
  have hown := (h.lock t).1 hin
  rw [hcur] at hcalls
  cases ks with
  | nil =>
    refine h.update t hf hg ?_ ⟨?_, ?_, ?_⟩ ?_ (Or.inr ⟨Or.inr hown, Or.inl rfl⟩)
    · intro u hu; simp [visit, unlock, beginRead, goto, hu, hth]
    · simpa [visit, unlock, beginRead, goto, current, hth] using hcalls
    · simpa [visit, unlock, beginRead, goto, hth] using hans
    · simp only [visit, unlock, beginRead, goto, if_true, Knows]
      intro e
      rcases hleft.2 _ e with e | e
      · cases e
      · exact e
    · simp [visit, unlock, beginRead, goto, inside]
  | cons k ks =>
    refine h.update t hf hg ?_ ⟨?_, ?_, ?_⟩ ?_ (Or.inl how)
    · intro u hu; simp [visit, beginRead, goto, hu, hth]
    · simpa [visit, beginRead, goto, current, hth] using hcalls
    · simpa [visit, beginRead, goto, hth] using hans
    · simpa only [visit, beginRead, goto, if_true, Knows] using hleft
    · simp [visit, beginRead, goto, inside, how, hown]

theorem inv_step (c : Config R K V) (t : Nat) (h : Inv target keys load progs c) : Inv target keys load progs (step target keys load c t) := by
  obtain ⟨hcalls, hans, hknows⟩ := h.fine t
  have hlock := h.lock t
  -- a call which ends with an answer, outside of the lock or releasing it
  have ends : ∀ (c' : Config R K V) (r : R) (o : Outcome V), c'.table = c.table → c'.threads = c.threads → current (c.threads t).phase = [r] →
      (c'.owner = c.owner ∧ inside (c.threads t).phase = false ∨ inside (c.threads t).phase = true ∧ c'.owner = none) → Answer target keys load r o →
      Inv target keys load progs (c'.finish t r o) := by
    intro c' r o htab hth hcur how ho
    rw [hcur] at hcalls
    refine h.update t (by simpa [finish, htab] using h.faithful) (fun _ _ e => by simpa [finish, htab] using e) ?_ ⟨?_, ?_, ?_⟩ ?_ ?_
    · intro u hu; simp [finish, hu, hth]
    · simpa [finish, current, hth] using hcalls
    · intro e he
      simp only [finish, if_true, hth, List.mem_append, List.mem_singleton] at he
      rcases he with he | rfl
      · exact hans e he
      · exact ho
    · simp [finish, Knows]
    · rcases how with ⟨how, hin⟩ | ⟨hin, how⟩
      · rw [hin] at hlock
        simpa [finish, inside, how] using hlock
      · simp [finish, inside, how]
    · rcases how with ⟨how, -⟩ | ⟨hin, how⟩
      · exact Or.inl how
      · exact Or.inr ⟨Or.inr (hlock.1 hin), Or.inl how⟩
  unfold step
  split
  · exact h
  · split
    · rename_i hp
      split
      · exact h
      · rename_i r rest htodo
        rw [hp] at hcalls hlock
        rw [htodo] at hcalls
        refine h.update t h.faithful (fun _ _ e => e) ?_ ⟨?_, ?_, ?_⟩ ?_ (Or.inl rfl)
        · intro u hu; simp [beginRead, next, hu]
        · simpa [beginRead, next, current] using hcalls
        · simpa [beginRead, next] using hans
        · simp [beginRead, next, Knows]
        · simpa [beginRead, next, inside] using hlock
    · rename_i r hp
      split
      · rename_i v hv
        exact ends _ r _ rfl rfl (by rw [hp]; rfl) (Or.inl ⟨rfl, by rw [hp]; rfl⟩) (.cell v (h.faithful _ v hv))
      · rw [hp] at hcalls hlock
        refine h.update t h.faithful (fun _ _ e => e) ?_ ⟨?_, ?_, ?_⟩ ?_ (Or.inl rfl)
        · intro u hu; simp [endRead, goto, hu]
        · simpa [endRead, goto, current] using hcalls
        · simpa [endRead, goto] using hans
        · simp [endRead, goto, Knows]
        · simpa [endRead, goto, inside] using hlock
    · rename_i r hp
      rw [hp] at hcalls hlock
      split
      · exact h
      · rename_i hown
        refine h.update t h.faithful (fun _ _ e => e) ?_ ⟨?_, ?_, ?_⟩ ?_ (Or.inr ⟨Or.inl hown, Or.inr rfl⟩)
        · intro u hu; simp [Config.lock, beginRead, goto, hu]
        · simpa [Config.lock, beginRead, goto, current] using hcalls
        · simpa [Config.lock, beginRead, goto] using hans
        · simp [Config.lock, beginRead, goto, Knows]
        · simp [Config.lock, beginRead, goto, inside]
    · rename_i r hp
      split
      · rename_i v hv
        rw [hp] at hcalls hlock
        refine h.update t h.faithful (fun _ _ e => e) ?_ ⟨?_, ?_, ?_⟩ ?_ (Or.inr ⟨Or.inr (hlock.1 rfl), Or.inl rfl⟩)
        · intro u hu; simp [endRead, unlock, beginRead, goto, hu]
        · simpa [endRead, unlock, beginRead, goto, current] using hcalls
        · simpa [endRead, unlock, beginRead, goto] using hans
        · simp only [endRead, unlock, beginRead, goto, if_true, Knows]
          exact fun _ => ⟨v, hv⟩
        · simp [endRead, unlock, beginRead, goto, inside]
      · exact inv_visit h r (keys r) (by rw [hp]; rfl) (by rw [hp]; rfl) rfl rfl h.faithful (fun _ _ e => e) ⟨fun _ e => e, fun _ e => Or.inl e⟩
    · rename_i r k ks hp
      rw [hp] at hknows
      have hleft : Left keys c.table r (k :: ks) := hknows
      split
      · rename_i v hv
        refine inv_visit h r ks (by rw [hp]; rfl) (by rw [hp]; rfl) rfl rfl h.faithful (fun _ _ e => e)
          ⟨fun j hj => hleft.1 j (List.mem_cons_of_mem _ hj), fun j hj => ?_⟩
        rcases hleft.2 j hj with e | e
        · rcases List.mem_cons.1 e with rfl | e
          · exact Or.inr ⟨v, hv⟩
          · exact Or.inl e
        · exact Or.inr e
      · split
        · rename_i v hv
          rw [hp] at hcalls hlock
          refine h.update t h.faithful (fun _ _ e => e) ?_ ⟨?_, ?_, ?_⟩ ?_ (Or.inl rfl)
          · intro u hu; simp [endRead, beginWrite, goto, hu]
          · simpa [endRead, beginWrite, goto, current] using hcalls
          · simpa [endRead, beginWrite, goto] using hans
          · simp only [endRead, beginWrite, goto, if_true, Knows]
            exact ⟨hv, hleft⟩
          · simpa [endRead, beginWrite, goto, inside] using hlock
        · rename_i e he
          exact ends _ r _ rfl rfl (by rw [hp]; rfl) (Or.inr ⟨by rw [hp]; rfl, rfl⟩) (.refused k e (hleft.1 k (by simp)) he)
        · rename_i e he
          exact ends _ r _ rfl rfl (by rw [hp]; rfl) (Or.inr ⟨by rw [hp]; rfl, rfl⟩) (.broken k e (hleft.1 k (by simp)) he)
    · rename_i r k v ks hp
      rw [hp] at hknows
      obtain ⟨hv, hleft⟩ : load k = .ok v ∧ Left keys c.table r (k :: ks) := hknows
      have hgrow : ∀ k' v', c.table.find k' = some v' → (c.table.emplace k v).find k' = some v' := fun k' v' e => LazyTableProof.emplace_grows _ _ _ _ _ e
      have hhas : Has (c.table.emplace k v) k := by
        unfold Has
        rw [Assoc.find_emplace]
        simp only [if_true]
        cases c.table.find k <;> simp
      refine inv_visit h r ks (by rw [hp]; rfl) (by rw [hp]; rfl) rfl rfl ?_ hgrow ⟨fun j hj => hleft.1 j (List.mem_cons_of_mem _ hj), fun j hj => ?_⟩
      · intro k' v' e
        simp only [endWrite] at e
        rw [Assoc.find_emplace] at e
        split at e
        · rename_i hk
          subst hk
          cases hf : c.table.find k' with
          | none => rw [hf] at e; simp at e; rw [← e]; exact hv
          | some w => rw [hf] at e; simp at e; rw [← e]; exact h.faithful _ _ hf
        · exact h.faithful _ _ e
      · rcases hleft.2 j hj with e | ⟨w, e⟩
        · rcases List.mem_cons.1 e with rfl | e
          · exact Or.inr hhas
          · exact Or.inl e
        · exact Or.inr ⟨w, hgrow j w e⟩
    · rename_i r hp
      rw [hp] at hknows
      have hk : target r ∈ keys r → Has c.table (target r) := hknows
      split
      · rename_i v hv
        exact ends _ r _ rfl rfl (by rw [hp]; rfl) (Or.inl ⟨rfl, by rw [hp]; rfl⟩) (.cell v (h.faithful _ v hv))
      · rename_i hn
        refine ends _ r _ rfl rfl (by rw [hp]; rfl) (Or.inl ⟨rfl, by rw [hp]; rfl⟩) (.beside _ fun e => ?_)
        obtain ⟨v, hv⟩ := hk e
        rw [hn] at hv; cases hv

theorem inv_run (ts : List Nat) (c : Config R K V) (h : Inv target keys load progs c) : Inv target keys load progs (run target keys load c ts) := by
  induction ts generalizing c with
  | nil => exact h
  | cons t ts ih => exact ih _ (inv_step c t h)

theorem answered {table : Assoc K V} {prog : List R} {th : Thread R K V} (h : Fine target keys load table prog th) : Answered target keys load prog th.done :=
  ⟨⟨current th.phase ++ th.todo, by rw [h.calls, List.append_assoc]⟩, h.answers⟩

theorem run_append (c : Config R K V) (as bs : List Nat) : run target keys load c (as ++ bs) = run target keys load (run target keys load c as) bs := by
  induction as generalizing c with
  | nil => rfl
  | cons a as ih => exact ih _

theorem step_grows (c : Config R K V) (t : Nat) (k : K) (v : V) (e : c.table.find k = some v) : (step target keys load c t).table.find k = some v := by
  have hv : ∀ (c' : Config R K V) (r : R) (ks : List K), (c'.visit t r ks).table = c'.table := by intro c' r ks; cases ks <;> rfl
  unfold step
  repeat' split
  all_goals first
    | exact e
    | (rw [hv]; first | exact e | exact LazyTableProof.emplace_grows _ _ _ _ _ e)

theorem run_grows (ts : List Nat) (c : Config R K V) (k : K) (v : V) (e : c.table.find k = some v) : (run target keys load c ts).table.find k = some v := by
  induction ts generalizing c with
  | nil => exact e
  | cons t ts ih => exact ih _ (step_grows c t k v e)

/-! ## No races -/

/-- The phases of a call which finds its cell at once. -/
def Plain : Phase R K V → Prop
  | .idle => True
  | .look _ => True
  | _ => False

/-- No thread writes or is about to. -/
structure Calm (target : R → K) (tb : Assoc K V) (c : Config R K V) : Prop where
  table : c.table = tb
  raced : c.raced = false
  writing : c.writing = none
  known : ∀ t r, r ∈ current (c.threads t).phase ++ (c.threads t).todo → Has tb (target r)
  phase : ∀ t, Plain (c.threads t).phase

theorem calm_step (tb : Assoc K V) (c : Config R K V) (t : Nat) (h : Calm target tb c) : Calm target tb (step target keys load c t) := by
  have hknown := h.known t
  have hphase := h.phase t
  have upd : ∀ c' : Config R K V, c'.table = c.table → c'.raced = false → c'.writing = c.writing → (∀ u, u ≠ t → c'.threads u = c.threads u) →
      (∀ r, r ∈ current (c'.threads t).phase ++ (c'.threads t).todo → r ∈ current (c.threads t).phase ++ (c.threads t).todo) → Plain (c'.threads t).phase →
      Calm target tb c' := by
    intro c' h1 h2 h3 h4 h5 h6
    refine ⟨h1.trans h.table, h2, h3.trans h.writing, fun u r hr => ?_, fun u => ?_⟩
    · by_cases e : u = t
      · subst e; exact h.known u r (h5 r hr)
      · rw [h4 u e] at hr; exact h.known u r hr
    · by_cases e : u = t
      · subst e; exact h6
      · rw [h4 u e]; exact h.phase u
  unfold step
  split
  · exact h
  · split
    · rename_i hp
      split
      · exact h
      · rename_i r rest htodo
        refine upd _ rfl ?_ rfl (fun u hu => by simp [beginRead, next, hu]) ?_ ?_
        · simp [beginRead, next, h.raced, h.writing]
        · intro k' hk'; simpa [beginRead, next, current, hp, htodo] using hk'
        · simp [beginRead, next, Plain]
    · rename_i r hp
      obtain ⟨v, hv⟩ := hknown r (by simp [hp, current])
      split
      · refine upd _ rfl h.raced rfl (fun u hu => by simp [endRead, finish, hu]) ?_ ?_
        · intro k' hk'
          simp only [endRead, finish, current, if_true, List.nil_append] at hk'
          exact List.mem_append_right _ hk'
        · simp [endRead, finish, Plain]
      · rename_i hn
        rw [h.table, hv] at hn; cases hn
    all_goals
      rename_i hp
      rw [hp] at hphase
      exact hphase.elim

theorem calm_run (tb : Assoc K V) (ts : List Nat) (c : Config R K V) (h : Calm target tb c) : Calm target tb (run target keys load c ts) := by
  induction ts generalizing c with
  | nil => exact h
  | cons t ts ih => exact ih _ (calm_step tb c t h)

/-- The phases in the middle of a `find`. -/
def reads : Phase R K V → Bool
  | .look _ => true
  | .check _ => true
  | .seek _ _ _ => true
  | .again _ => true
  | _ => false

/-- The phase in the middle of an `emplace`. -/
def writes : Phase R K V → Bool
  | .write _ _ _ _ => true
  | _ => false

/-- The marks for races are right. -/
structure Tracks (c : Config R K V) : Prop where
  reading : ∀ t, t ∈ c.reading ↔ reads (c.threads t).phase = true
  writing : ∀ t, c.writing = some t ↔ writes (c.threads t).phase = true

omit [DecidableEq K] in
theorem Tracks.update {c c' : Config R K V} (t : Nat) (h : Tracks c) (ho : ∀ u, u ≠ t → c'.threads u = c.threads u)
    (hr : ∀ u, u ≠ t → (u ∈ c'.reading ↔ u ∈ c.reading)) (hr' : t ∈ c'.reading ↔ reads (c'.threads t).phase = true)
    (hw : ∀ u, u ≠ t → (c'.writing = some u ↔ c.writing = some u))
    (hw' : c'.writing = some t ↔ writes (c'.threads t).phase = true) : Tracks c' := by
  refine ⟨fun u => ?_, fun u => ?_⟩
  · by_cases e : u = t
    · subst e; exact hr'
    · rw [hr u e, ho u e]; exact h.reading u
  · by_cases e : u = t
    · subst e; exact hw'
    · rw [hw u e, ho u e]; exact h.writing u

omit [DecidableEq K] in
theorem tracks_start (table : Assoc K V) (progs : Nat → List R) : Tracks (start table progs : Config R K V) :=
  ⟨by simp [start, reads], by simp [start, writes]⟩

theorem tracks_step (c : Config R K V) (t : Nat) (hi : Inv target keys load progs c) (h : Tracks c) : Tracks (step target keys load c t) := by
  have hwr := h.writing t
  have hlock := hi.lock t
  -- nobody else writes if `t` holds the lock
  have nobody : inside (c.threads t).phase = true → ∀ u, u ≠ t → c.writing ≠ some u := by
    intro hin u hu e
    have hw := (h.writing u).1 e
    have hin' : inside (c.threads u).phase = true := by
      revert hw; cases (c.threads u).phase <;> simp [writes, inside]
    have h1 := (hi.lock u).1 hin'
    rw [hlock.1 hin] at h1
    exact hu (Option.some.inj h1).symm
  have vis : ∀ (c' : Config R K V) (r : R) (ks : List K), c'.threads = c.threads → (∀ u, u ≠ t → (u ∈ c'.reading ↔ u ∈ c.reading)) →
      (∀ u, u ≠ t → (c'.writing = some u ↔ c.writing = some u)) → c'.writing ≠ some t → Tracks (c'.visit t r ks) := by
    intro c' r ks hth hr hw hn
    cases ks
    · refine h.update t (fun u hu => by simp [visit, unlock, beginRead, goto, hu, hth]) (fun u hu => by simp [visit, unlock, beginRead, goto, hu, hr u hu])
        (by simp [visit, unlock, beginRead, goto, reads]) (fun u hu => by simpa [visit, unlock, beginRead, goto] using hw u hu)
        (by simpa [visit, unlock, beginRead, goto, writes] using hn)
    · refine h.update t (fun u hu => by simp [visit, beginRead, goto, hu, hth]) (fun u hu => by simp [visit, beginRead, goto, hu, hr u hu])
        (by simp [visit, beginRead, goto, reads]) (fun u hu => by simpa [visit, beginRead, goto] using hw u hu)
        (by simpa [visit, beginRead, goto, writes] using hn)
  unfold step
  split
  · exact h
  · split
    · rename_i hp
      split
      · exact h
      · rename_i r rest htodo
        rw [hp] at hwr
        refine h.update t (fun u hu => by simp [beginRead, next, hu]) (fun u hu => by simp [beginRead, next, hu]) ?_ (fun u hu => Iff.rfl) ?_
        · simp [beginRead, next, reads]
        · simpa [beginRead, next, writes] using hwr
    · rename_i r hp
      rw [hp] at hwr
      split
      · refine h.update t (fun u hu => by simp [endRead, finish, hu]) (fun u hu => by simp [endRead, finish, hu]) ?_ (fun u hu => Iff.rfl) ?_
        · simp [endRead, finish, reads]
        · simpa [endRead, finish, writes] using hwr
      · refine h.update t (fun u hu => by simp [endRead, goto, hu]) (fun u hu => by simp [endRead, goto, hu]) ?_ (fun u hu => Iff.rfl) ?_
        · simp [endRead, goto, reads]
        · simpa [endRead, goto, writes] using hwr
    · rename_i r hp
      rw [hp] at hwr
      split
      · exact h
      · refine h.update t (fun u hu => by simp [Config.lock, beginRead, goto, hu]) (fun u hu => by simp [Config.lock, beginRead, goto, hu]) ?_ (fun u hu => Iff.rfl) ?_
        · simp [Config.lock, beginRead, goto, reads]
        · simpa [Config.lock, beginRead, goto, writes] using hwr
    · rename_i r hp
      rw [hp] at hwr
      split
      · refine h.update t (fun u hu => by simp [endRead, unlock, beginRead, goto, hu]) (fun u hu => by simp [endRead, unlock, beginRead, goto, hu]) ?_
          (fun u hu => Iff.rfl) ?_
        · simp [endRead, unlock, beginRead, goto, reads]
        · simpa [endRead, unlock, beginRead, goto, writes] using hwr
      · exact vis _ r (keys r) rfl (fun u hu => by simp [endRead, hu]) (fun u hu => Iff.rfl) (by simpa [endRead, writes] using hwr)
    · rename_i r k ks hp
      have hin : inside (c.threads t).phase = true := by rw [hp]; rfl
      rw [hp] at hwr
      split
      · exact vis _ r ks rfl (fun u hu => by simp [endRead, hu]) (fun u hu => Iff.rfl) (by simpa [endRead, writes] using hwr)
      · split
        · refine h.update t (fun u hu => by simp [endRead, beginWrite, goto, hu]) (fun u hu => by simp [endRead, beginWrite, goto, hu]) ?_ (fun u hu => ?_) ?_
          · simp [endRead, beginWrite, goto, reads]
          · have := nobody hin u hu
            have hut : ¬ t = u := fun e => hu e.symm
            simp [endRead, beginWrite, goto, hut, this]
          · simp [endRead, beginWrite, goto, writes]
        all_goals
          refine h.update t (fun u hu => by simp [endRead, unlock, finish, hu]) (fun u hu => by simp [endRead, unlock, finish, hu]) ?_ (fun u hu => Iff.rfl) ?_
          · simp [endRead, unlock, finish, reads]
          · simpa [endRead, unlock, finish, writes] using hwr
    · rename_i r k v ks hp
      have hin : inside (c.threads t).phase = true := by rw [hp]; rfl
      refine vis _ r ks rfl (fun u hu => Iff.rfl) (fun u hu => ?_) (by simp [endWrite])
      have := nobody hin u hu
      simp [endWrite, this]
    · rename_i r hp
      rw [hp] at hwr
      split
      all_goals
        refine h.update t (fun u hu => by simp [endRead, finish, hu]) (fun u hu => by simp [endRead, finish, hu]) ?_ (fun u hu => Iff.rfl) ?_
        · simp [endRead, finish, reads]
        · simpa [endRead, finish, writes] using hwr

/-- A step while no other thread is in a call does not race. -/
theorem unraced_step (c : Config R K V) (t : Nat) (h : Tracks c) (hr : c.raced = false)
    (ho : ∀ u, u ≠ t → (c.threads u).phase = .idle) : (step target keys load c t).raced = false := by
  have hrd := h.reading t
  have hwr := h.writing t
  have nr : ∀ u, u ≠ t → u ∉ c.reading := by
    intro u hu e; have := (h.reading u).1 e; rw [ho u hu] at this; cases this
  have nw : ∀ u, u ≠ t → c.writing ≠ some u := by
    intro u hu e; have := (h.writing u).1 e; rw [ho u hu] at this; cases this
  have none_ : writes (c.threads t).phase = false → c.writing = none := by
    intro e
    cases hc : c.writing with
    | none => rfl
    | some u =>
      by_cases hu : u = t
      · subst hu; rw [hwr.1 hc] at e; cases e
      · exact absurd hc (nw u hu)
  have filt : c.reading.filter (fun u => decide (u ≠ t)) = [] := by
    rw [List.filter_eq_nil_iff]
    intro u hu
    by_cases hut : u = t
    · simp [hut]
    · exact absurd hu (nr u hut)
  have vis : ∀ (c' : Config R K V) (r : R) (ks : List K), c'.raced = false → c'.writing = none → (c'.visit t r ks).raced = false := by
    intro c' r ks h1 h2
    cases ks <;> simp [visit, unlock, beginRead, goto, h1, h2]
  unfold step
  rw [hr]
  simp only [Bool.false_eq_true, if_false]
  split
  · rename_i hp
    rw [hp] at none_
    split
    · exact hr
    · simp [beginRead, next, hr, none_ rfl]
  · split <;> exact hr
  · rename_i r hp
    rw [hp] at none_
    split
    · exact hr
    · simp [Config.lock, beginRead, goto, hr, none_ rfl]
  · rename_i r hp
    rw [hp] at none_
    split
    · simp [endRead, unlock, beginRead, goto, hr, none_ rfl]
    · exact vis _ _ _ hr (none_ rfl)
  · rename_i r k ks hp
    rw [hp] at none_
    split
    · exact vis _ _ _ hr (none_ rfl)
    · split
      · have : (c.endRead t).reading = [] := filt
        simp only [beginWrite, goto, this]
        simp [endRead, hr, none_ rfl]
      · exact hr
      · exact hr
  · exact vis _ _ _ hr rfl
  · split <;> exact hr

/-- A schedule in which no call begins before the others ended. -/
def Sequential (target : R → K) (keys : R → List K) (load : K → Outcome V) (c : Config R K V) : List Nat → Prop
  | [] => True
  | t :: ts => (∀ u, u ≠ t → (c.threads u).phase = .idle) ∧ Sequential target keys load (step target keys load c t) ts

theorem sequential_run (ts : List Nat) (c : Config R K V) (hi : Inv target keys load progs c) (ht : Tracks c) (hr : c.raced = false)
    (hs : Sequential target keys load c ts) : (run target keys load c ts).raced = false := by
  induction ts generalizing c with
  | nil => exact hr
  | cons t ts ih => exact ih _ (inv_step c t hi) (tracks_step c t hi ht) (unraced_step c t ht hr hs.1) hs.2

/-! ## Progress -/

/-- The steps a thread still takes, at most. -/
def work (keys : R → List K) (th : Thread R K V) : Nat :=
  (th.todo.map fun r => 2 * (keys r).length + 5).sum + match th.phase with
    | .idle => 0
    | .look r => 2 * (keys r).length + 4
    | .wait r => 2 * (keys r).length + 3
    | .check r => 2 * (keys r).length + 2
    | .seek _ _ ks => 2 * ks.length + 3
    | .write _ _ _ ks => 2 * ks.length + 2
    | .again _ => 1

theorem step_other (c : Config R K V) (t u : Nat) (hu : u ≠ t) : (step target keys load c t).threads u = c.threads u := by
  have vis : ∀ (c' : Config R K V) (r : R) (ks : List K), c'.threads = c.threads → (c'.visit t r ks).threads u = c.threads u := by
    intro c' r ks h1
    cases ks <;> simp [visit, unlock, beginRead, goto, h1, hu]
  unfold step
  repeat' split
  all_goals first
    | exact vis _ _ _ rfl
    | simp [next, goto, finish, beginRead, endRead, beginWrite, Config.lock, unlock, hu]

theorem step_work (c : Config R K V) (t : Nat) (hr : c.raced = false) (hw : 0 < work keys (c.threads t))
    (hlock : ∀ r, (c.threads t).phase = .wait r → c.owner = none) : work keys ((step target keys load c t).threads t) < work keys (c.threads t) := by
  have vis : ∀ (c' : Config R K V) (r : R) (ks : List K), c'.threads = c.threads → work keys ((c'.visit t r ks).threads t) =
      ((c.threads t).todo.map fun r => 2 * (keys r).length + 5).sum + (2 * ks.length + 1) := by
    intro c' r ks h1
    cases ks <;> simp [visit, unlock, beginRead, goto, h1, work]; omega
  unfold step
  rw [hr]
  simp only [Bool.false_eq_true, if_false]
  split
  · rename_i hp
    split
    · rename_i ht; simp [work, hp, ht] at hw
    · rename_i r rest ht
      simp [work, hp, ht, beginRead, next]; omega
  all_goals rename_i hp
  · split
    · simp [work, hp, endRead, finish]
    · simp [work, hp, endRead, goto]
  · rw [hlock _ hp]
    simp [work, hp, Config.lock, beginRead, goto]
  · split
    · simp [work, hp, endRead, unlock, beginRead, goto]
    · rw [vis (c.endRead t) _ _ rfl]; simp only [work, hp]; omega
  · split
    · rw [vis (c.endRead t) _ _ rfl]; simp only [work, hp]; omega
    · split <;> simp [work, hp, endRead, unlock, beginWrite, finish, goto]
  · rw [vis (c.endWrite _ _) _ _ rfl]; simp only [work, hp]; omega
  · split <;> simp [work, hp, endRead, finish]

/-- Some thread can go on as long as one is not done. -/
theorem goes_on (c : Config R K V) (hi : Inv target keys load progs c) (hr : c.raced = false) (t : Nat) (hw : 0 < work keys (c.threads t)) :
    ∃ u, 0 < work keys (c.threads u) ∧ work keys ((step target keys load c u).threads u) < work keys (c.threads u) := by
  cases ho : c.owner with
  | none => exact ⟨t, hw, step_work c t hr hw fun _ _ => ho⟩
  | some u =>
    have hin := (hi.lock u).2 ho
    have hpos : 0 < work keys (c.threads u) := by
      unfold work; revert hin
      cases (c.threads u).phase <;> simp [inside]
    refine ⟨u, hpos, step_work c u hr hpos fun r e => ?_⟩
    rw [e] at hin; cases hin

theorem done_of_work {table : Assoc K V} {prog : List R} {th : Thread R K V} (h : Fine target keys load table prog th)
    (hw : work keys th = 0) : th.done.map (·.1) = prog := by
  have hp : th.phase = .idle := by
    revert hw; unfold work; cases th.phase <;> simp
  have ht : th.todo = [] := by
    revert hw; unfold work; cases th.todo <;> simp
  have hk := h.calls
  rw [hp, ht] at hk
  simpa [current] using hk.symm

theorem finishes (n : Nat) (m : Nat) (c : Config R K V)
    (hi : Inv target keys load progs c) (hn : ∀ t, n ≤ t → work keys (c.threads t) = 0)
    (hm : ((List.range n).map fun t => work keys (c.threads t)).sum ≤ m) :
    ∃ ts, (run target keys load c ts).raced = true ∨ ∀ t, work keys ((run target keys load c ts).threads t) = 0 := by
  induction m generalizing c with
  | zero =>
    refine ⟨[], Or.inr fun t => ?_⟩
    by_cases ht : n ≤ t
    · exact hn t ht
    · have := List.single_le_sum (l := (List.range n).map fun t => work keys (c.threads t)) (by simp) (work keys (c.threads t))
        (List.mem_map_of_mem (List.mem_range.2 (by omega)))
      simp only [run]; omega
  | succ m ih =>
    by_cases hr : c.raced = true
    · exact ⟨[], Or.inl hr⟩
    · by_cases hz : ∀ t, work keys (c.threads t) = 0
      · exact ⟨[], Or.inr hz⟩
      · push Not at hz
        obtain ⟨t, ht⟩ := hz
        obtain ⟨u, hu, hlt⟩ := goes_on c hi (by simpa using hr) t (by omega)
        have hun : u < n := by
          by_contra h; have := hn u (by omega); omega
        obtain ⟨ts, hts⟩ := ih (step target keys load c u) (inv_step c u hi)
          (fun w hw => by rw [step_other c u w (by omega)]; exact hn w hw) (by
            have : ((List.range n).map fun t => work keys ((step target keys load c u).threads t)).sum <
                ((List.range n).map fun t => work keys (c.threads t)).sum := by
              apply List.sum_lt_sum
              · intro w _
                by_cases hw : w = u
                · subst hw; omega
                · rw [step_other c u w hw]
              · exact ⟨u, List.mem_range.2 hun, hlt⟩
            omega)
        exact ⟨u :: ts, hts⟩

omit [DecidableEq K] in
theorem covered {r : R} {o : Outcome V} (h : Answer target keys load r o) (hc : Covered target keys load r) : o = load (target r) := by
  cases h with
  | cell v hv => exact hv.symm
  | refused k e hk he => obtain ⟨v, hv⟩ := hc.2 k hk; rw [hv] at he; cases he
  | broken k e hk he => obtain ⟨v, hv⟩ := hc.2 k hk; rw [hv] at he; cases he
  | beside w hn => exact absurd hc.1 hn

end CellTableProof

open CellTableProof

section
variable {R K V : Type} [DecidableEq K]

/-- C116: threads which ask one provider, with cells loaded before in any faithful way, each making calls of its own choice and scheduled in any order: up to the
first data race the answers are to the first calls of the thread, in their order. Each of them is the cell asked for as its file gives it, or an exception of a cell
of the call's tile whose file is no good; if all files of the tile are good and the cell is one of the tile, then it is the cell. The map holds only cells as
their files give them, a cell in it is never replaced, and no two threads change the map at a time. Partial: a data race is possible (`C116_violated_race`), and
with a bad file the answer depends on what was asked before (`C116_violated_retry`); `C116_no_race` and `C116_sequential` say when there is no race. -/
theorem C116_answers_partial (target : R → K) (keys : R → List K) (load : K → Outcome V) (table : Assoc K V) (hf : Faithful load table) (progs : Nat → List R)
    (ts ts' : List Nat) :
    let c := run target keys load (start table progs) ts
    (∀ t, Answered target keys load (progs t) (c.threads t).done) ∧
      (∀ t, ∀ e ∈ (c.threads t).done, Covered target keys load e.1 → e.2 = load (target e.1)) ∧ Faithful load c.table ∧
      (∀ k v, c.table.find k = some v → (run target keys load c ts').table.find k = some v) ∧
      ∀ t u r k v ks r' k' v' ks', (c.threads t).phase = .write r k v ks → (c.threads u).phase = .write r' k' v' ks' → t = u := by
  intro c
  have hi := inv_run (target := target) (keys := keys) (progs := progs) ts _ (inv_start table hf)
  refine ⟨fun t => answered (hi.fine t), fun t e he hc => covered ((hi.fine t).answers e he) hc, hi.faithful, fun k v e => run_grows ts' c k v e,
    fun t u r k v ks r' k' v' ks' e e' => ?_⟩
  have h := (hi.lock t).1 (by rw [e]; rfl)
  have h' := (hi.lock u).1 (by rw [e']; rfl)
  rw [h] at h'; exact Option.some.inj h'

/-- C116: no schedule has a data race if every cell that is asked for was loaded before; the map is not changed. -/
theorem C116_no_race (target : R → K) (keys : R → List K) (load : K → Outcome V) (table : Assoc K V) (progs : Nat → List R)
    (hk : ∀ t, ∀ r ∈ progs t, ∃ v, table.find (target r) = some v) (ts : List Nat) :
    (run target keys load (start table progs) ts).raced = false ∧ (run target keys load (start table progs) ts).table = table :=
  have h := calm_run (keys := keys) (load := load) table ts _
    (⟨rfl, rfl, rfl, fun t r hr => hk t r (by simpa [start, current] using hr), fun _ => trivial⟩ : Calm target table (start table progs))
  ⟨h.raced, h.table⟩

/-- C116: there is no data race if no call begins before the others ended. -/
theorem C116_sequential (target : R → K) (keys : R → List K) (load : K → Outcome V) (table : Assoc K V) (hf : Faithful load table) (progs : Nat → List R)
    (ts : List Nat) (hs : Sequential target keys load (start table progs) ts) : (run target keys load (start table progs) ts).raced = false :=
  sequential_run ts _ (inv_start (target := target) (keys := keys) (progs := progs) table hf) (tracks_start table progs) rfl hs

/-- C116: no deadlock, also not after exceptions: as long as no data race happened the threads can go on, whatever was scheduled so far, until each of them has
the answers to all its calls. -/
theorem C116_live (target : R → K) (keys : R → List K) (load : K → Outcome V) (table : Assoc K V) (hf : Faithful load table) (progs : Nat → List R) (n : Nat)
    (hn : ∀ t, n ≤ t → progs t = []) (ts : List Nat) :
    ∃ ts', (run target keys load (start table progs) (ts ++ ts')).raced = true ∨
      ∀ t, ((run target keys load (start table progs) (ts ++ ts')).threads t).done.map (·.1) = progs t := by
  have hi := inv_run (target := target) (keys := keys) (progs := progs) ts _ (inv_start table hf)
  have hz : ∀ t, n ≤ t → work keys ((run target keys load (start table progs) ts).threads t) = 0 := by
    intro t ht
    have := (hi.fine t).calls
    rw [hn t ht] at this
    have h := List.append_eq_nil_iff.1 this.symm
    have h' := List.append_eq_nil_iff.1 h.1
    unfold work
    rw [h.2]
    revert h'
    cases ((run target keys load (start table progs) ts).threads t).phase <;> simp [current]
  obtain ⟨ts', h⟩ := finishes n _ _ hi hz (le_refl _)
  refine ⟨ts', ?_⟩
  rw [run_append]
  rcases h with h | h
  · exact Or.inl h
  · exact Or.inr fun t => done_of_work ((inv_run ts' _ hi).fine t) (h t)

/-- C116 is violated: if a thread asks for a place in a tile whose first cell is not loaded but has a good file, while another thread asks for anything, some
schedule has a data race: the `find` without the lock runs into the `emplace`. -/
theorem C116_violated_race (target : R → K) (keys : R → List K) (load : K → Outcome V) (table : Assoc K V) (progs : Nat → List R) (t u : Nat) (htu : t ≠ u)
    (r r' : R) (rs rs' : List R) (k : K) (ks : List K) (v : V) (hr : table.find (target r) = none) (hks : keys r = k :: ks) (hk : table.find k = none)
    (hv : load k = .ok v) (ht : progs t = r :: rs) (hu : progs u = r' :: rs') : ∃ ts, (run target keys load (start table progs) ts).raced = true := by
  have hut : ¬ u = t := fun e => htu e.symm
  exact ⟨[t, t, t, t, u, t], by
    simp [run, step, start, beginRead, next, endRead, goto, Config.lock, beginWrite, visit, ht, hu, hr, hks, hk, hv, htu, hut]⟩

/-- C116 is violated even for one thread: in a tile of two cells, where the first one has a good file and the second one none, the same question for a place in the
first cell is refused the first time and answered the second time. -/
theorem C116_violated_retry (target : R → K) (keys : R → List K) (load : K → Outcome V) (progs : Nat → List R) (r : R) (k k' : K) (hkk : k ≠ k') (v : V)
    (e : String) (hr : target r = k) (hks : keys r = [k, k']) (hv : load k = .ok v) (he : load k' = .throw e) (hp : progs 0 = [r, r]) :
    ((run target keys load (start [] progs) (List.replicate 9 0)).threads 0).done = [(r, .throw e), (r, .ok v)] := by
  simp [run, step, start, beginRead, next, endRead, goto, Config.lock, Config.unlock, finish, beginWrite, endWrite, visit, List.replicate, hp, hr, hks, hv, he, Assoc.find,
    Assoc.emplace, hkk]

end

/-- C116 for heights: a thread which asks for the height of a place of at least one degree north and east in a tile all of whose cells have good files, however the
other threads are scheduled, gets (up to a data race) the cell which covers the place, and from it the interpolation of the four samples of the file around the
place. Partial: provided that the sample values survive the decoding, as in C41. -/
theorem C116_heights_partial {F : Type} [Field F] [LinearOrder F] [IsStrictOrderedRing F] [FloorRing F] (signed : Bool)
    (file : Elevation.FileName → Option (List UInt8)) (progs : Nat → List (Place F)) (ts : List Nat) (t : Nat) (p : Place F) (o : Outcome Elevation.Cell)
    (ho : (p, o) ∈ ((run Place.cell Place.cells (loadCell file) (start [] progs) ts).threads t).done)
    (h1 : p.minLat ≤ p.lat) (h2 : p.lat ≤ p.maxLat) (h3 : p.minLon ≤ p.lon) (h4 : p.lon ≤ p.maxLon) (hlat : 1 ≤ p.lat) (hlon : 1 ≤ p.lon)
    (hf : ∀ k ∈ p.cells, ∃ c, loadCell file k = .ok c)
    (hdec : ∀ data, file (ElevationSpec.properName p.lat p.lon) = some data → ∀ (i : Nat) b0 b1, data[2 * i]? = some b0 → data[2 * i + 1]? = some b1 →
      (signed = true → b1.toNat < 128) ∧ (signed = false → b0.toNat < 128)) :
    p ∈ progs t ∧ ∃ cell h data n spp, o = .ok cell ∧ p.height signed cell = .ok h ∧
      file (ElevationSpec.properName p.lat p.lon) = some data ∧ (n = 1201 ∧ spp = 3 ∨ n = 3601 ∧ spp = 1) ∧
      ∃ (r c : Nat) (a b d e : Int), (r : Int) = ⌊Int.fract p.lat * 3600 / (spp : Nat)⌋ ∧ (c : Int) = ⌊Int.fract p.lon * 3600 / (spp : Nat)⌋ ∧
        r + 1 < n ∧ c + 1 < n ∧ ElevationSpec.Sample data n r c a ∧ ElevationSpec.Sample data n r (c + 1) b ∧ ElevationSpec.Sample data n (r + 1) c d ∧
        ElevationSpec.Sample data n (r + 1) (c + 1) e ∧
        h = ((a : F) * (1 - Int.fract (Int.fract p.lon * 3600 / (spp : Nat))) + b * Int.fract (Int.fract p.lon * 3600 / (spp : Nat))) *
              (1 - Int.fract (Int.fract p.lat * 3600 / (spp : Nat))) +
            (d * (1 - Int.fract (Int.fract p.lon * 3600 / (spp : Nat))) + e * Int.fract (Int.fract p.lon * 3600 / (spp : Nat))) *
              Int.fract (Int.fract p.lat * 3600 / (spp : Nat)) ∧
        ElevationSpec.Between h [a, b, d, e] := by
  have hall := C116_answers_partial Place.cell Place.cells (loadCell file) [] (by intro k v e; cases e) progs ts []
  have hmem : p.cell ∈ p.cells := ElevationProof.mem_cellKeys h1 h2 h3 h4
  have hans : o = loadCell file p.cell := hall.2.1 t (p, o) ho ⟨hmem, hf⟩
  obtain ⟨cell, hcell⟩ := hf _ hmem
  refine ⟨(hall.1 t).1.subset (List.mem_map_of_mem ho), ?_⟩
  have hcached : ElevationProof.Cached file [(p.cell, cell)] := by
    intro k c hk
    simp only [Assoc.find] at hk
    split at hk
    · rename_i e; cases hk; subst e; exact hcell
    · cases hk
  obtain ⟨cells', h, data, n, spp, hg, -, hdata, hn, r, c, a, b, d, e, q⟩ :=
    C41_srtm_partial signed file [(p.cell, cell)] hcached p.minLat p.minLon p.maxLat p.maxLon p.lat p.lon h1 h2 h3 h4 hlat hlon hf hdec
  refine ⟨cell, h, data, n, spp, hans.trans hcell, ?_, hdata, hn, r, c, a, b, d, e, q⟩
  have hfind : Assoc.find [(p.cell, cell)] (Elevation.trunc p.lat, Elevation.trunc p.lon) = some cell := by simp [Assoc.find, Place.cell]
  simp only [Elevation.getSrtm, hfind] at hg
  unfold Place.height
  revert hg
  generalize Elevation.interpolate signed cell ((p.lat - (Elevation.trunc p.lat : F)) * 3600) ((p.lon - (Elevation.trunc p.lon : F)) * 3600) = i
  intro hg
  cases i with
  | ok x => simp only [Outcome.bind, Outcome.ok.injEq, Prod.mk.injEq] at hg; rw [hg.2]
  | throw x => cases hg
  | ub x => cases hg

namespace CellTableProof.Sample

/-- Tiles of two cells. -/
def tile (r : Nat) : List Nat := [2 * (r / 2), 2 * (r / 2) + 1]

/-- One cell has no file. -/
def cellOf (k : Nat) : Outcome Nat := if k = 5 then .throw "domain_error" else .ok (10 * k)

/-- Two threads. -/
def calls : Nat → List Nat
  | 0 => [0, 3]
  | 1 => [1, 4, 4]
  | _ => []

/-- One call after the other. -/
def one : List Nat := List.replicate 9 0 ++ [1, 1] ++ List.replicate 9 0 ++ List.replicate 9 1

def isSequential : Config Nat Nat Nat → List Nat → Bool
  | _, [] => true
  | c, t :: ts => (match (c.threads (1 - t)).phase with
      | .idle => true
      | _ => false) && isSequential (step id tile cellOf c t) ts

/-- Every file is a flat cell (height 0). -/
def flat : Elevation.FileName → Option (List UInt8) := fun _ => some (List.replicate (1201 * 1201 * 2) 0)

/-- A place in a tile of one cell. -/
def place : Place ℚ := ⟨52, 13, 263 / 5, 68 / 5, 105 / 2, 27 / 2⟩

/-- A call which loads one cell. -/
theorem single_call {R K V : Type} [DecidableEq K] (target : R → K) (keys : R → List K) (load : K → Outcome V) (progs : Nat → List R) (r : R) (k : K) (v : V)
    (hr : target r = k) (hks : keys r = [k]) (hv : load k = .ok v) (hp : progs 0 = [r]) :
    ((run target keys load (start [] progs) (List.replicate 7 0)).threads 0).done = [(r, .ok v)] := by
  simp [run, step, start, beginRead, next, endRead, goto, Config.lock, Config.unlock, finish, beginWrite, endWrite, visit, List.replicate, hp, hr, hks, hv, Assoc.find,
    Assoc.emplace]

end CellTableProof.Sample

-- calls one after the other: cells of a tile are loaded together, and the tile with a cell without file is refused first and answered then
open CellTableProof.Sample in
example : ((run id tile cellOf (start [] calls) one).threads 0).done.map (fun e => (e.1, e.2.isOk)) = [(0, true), (3, true)] ∧
    ((run id tile cellOf (start [] calls) one).threads 1).done.map (fun e => (e.1, e.2.isOk)) = [(1, true), (4, false), (4, true)] ∧
    (run id tile cellOf (start [] calls) one).table.map (·.1) = [4, 3, 2, 1, 0] ∧
    (run id tile cellOf (start [] calls) one).raced = false ∧ isSequential (start [] calls) one = true := by
  decide +kernel

-- calls may be answered whether or not all cells of the tile are good
open CellTableProof.Sample in
example : Covered id tile cellOf 3 ∧ ¬ Covered id tile cellOf 4 :=
  ⟨⟨by decide, fun k hk => ⟨10 * k, by have : k = 2 ∨ k = 3 := by simpa [tile] using hk
                                       rcases this with rfl | rfl <;> rfl⟩⟩,
    fun h => by obtain ⟨v, hv⟩ := h.2 5 (by decide); cases hv⟩

-- after the calls above every schedule of them is free of races
open CellTableProof.Sample in
example (ts : List Nat) : (run id tile cellOf (start (run id tile cellOf (start [] calls) one).table calls) ts).raced = false := by
  have hb : ∀ k ∈ [0, 1, 3, 4], ((run id tile cellOf (start [] calls) one).table.find k).isSome = true := by decide +kernel
  refine (C116_no_race id tile cellOf _ calls (fun t r hr => ?_) ts).1
  refine Option.isSome_iff_exists.1 (hb r ?_)
  match t, hr with
  | 0, hr => simp [calls] at hr; simp; omega
  | 1, hr => simp [calls] at hr; simp; omega
  | t + 2, hr => simp [calls] at hr

-- before them some schedule has a race, and each can be finished if it has none
open CellTableProof.Sample in
example : (∃ ts, (run id tile cellOf (start [] calls) ts).raced = true) ∧
    ∀ ts, ∃ ts', (run id tile cellOf (start [] calls) (ts ++ ts')).raced = true ∨
      ∀ t, ((run id tile cellOf (start [] calls) (ts ++ ts')).threads t).done.map (·.1) = calls t :=
  ⟨C116_violated_race id tile cellOf [] calls 0 1 (by decide) 0 1 [3] [4, 4] 0 [1] 0 rfl rfl rfl rfl rfl rfl,
    fun ts => C116_live id tile cellOf [] (by intro k v e; cases e) calls 2 (by intro t ht; match t, ht with | t + 2, _ => rfl) ts⟩

-- the hypotheses about the second answer
open CellTableProof.Sample in
example : ((run id tile cellOf (start [] fun _ => [4, 4]) (List.replicate 9 0)).threads 0).done = [(4, .throw "domain_error"), (4, .ok 40)] :=
  C116_violated_retry id tile cellOf (fun _ => [4, 4]) 4 4 5 (by decide) 40 "domain_error" rfl rfl rfl rfl rfl

-- the hypotheses about heights
open CellTableProof.Sample in
example : ∃ cell h, (place, Outcome.ok cell) ∈ ((run Place.cell Place.cells (loadCell flat) (start [] fun _ => [place]) (List.replicate 7 0)).threads 0).done ∧
    place.height true cell = .ok h := by
  have hload : ∀ k, ∃ c, loadCell flat k = .ok c := fun k => ⟨_, by unfold loadCell flat Elevation.readCell; simp only [List.length_replicate, if_true]; rfl⟩
  obtain ⟨c, hc⟩ := hload (52, 13)
  have hdone := single_call Place.cell Place.cells (loadCell flat) (fun _ => [place]) place (52, 13) c (by decide +kernel) (by decide +kernel) hc rfl
  have hmem : (place, Outcome.ok c) ∈ ((run Place.cell Place.cells (loadCell flat) (start [] fun _ => [place]) (List.replicate 7 0)).threads 0).done := by
    rw [hdone]; simp
  obtain ⟨-, cell, h, data, n, spp, e, hh, -⟩ := C116_heights_partial true flat (fun _ => [place]) (List.replicate 7 0) 0 place (.ok c) hmem
    (by norm_num [place]) (by norm_num [place]) (by norm_num [place]) (by norm_num [place]) (by norm_num [place]) (by norm_num [place]) (fun k _ => hload k)
    (fun data hd i b0 b1 h0 h1 => by
      cases hd
      rw [List.getElem?_replicate] at h0 h1
      split at h0 <;> cases h0
      split at h1 <;> cases h1
      exact ⟨fun _ => by decide, fun _ => by decide⟩)
  cases e
  exact ⟨c, h, hmem, hh⟩

end Verif.Props
