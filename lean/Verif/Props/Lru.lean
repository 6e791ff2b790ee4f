import Verif.Proof.Lru

/-! # C01: the LRU cache is a bounded map which evicts the least recently used key -/
namespace Verif.Props
open Verif Verif.Lru

variable {K V : Type} [DecidableEq K]

/-- C01. For every capacity and every sequence of calls, the results observed by the caller are those of the
bounded map of `LruSpec` (overwrite on `put`, eviction of the entry with the oldest last use, `get` and
`promote` count as a use, `peek` and `exists` do not, absent keys raise and change nothing). -/
theorem C01_lru_refines_spec (m : Nat) (ops : List (Op K V)) :
    (Lru.run (Lru.init m : State K V) ops).2 = (LruSpec.run m LruSpec.empty ops).2 := by
  have := (LruProof.R_run (LruProof.R_init (K := K) (V := V) m) ops).1
  exact this

/-- No call sequence dereferences a dangling iterator or pops an empty list. -/
theorem C01_lru_no_ub (m : Nat) (ops : List (Op K V)) :
    Out.ub ∉ (Lru.run (Lru.init m : State K V) ops).2 := by
  rw [C01_lru_refines_spec]
  generalize (LruSpec.empty : LruSpec.Abs K V) = a
  induction ops generalizing a with
  | nil => simp [LruSpec.run]
  | cons op ops ih =>
    simp only [LruSpec.run, List.mem_cons, not_or]
    refine ⟨?_, ih _⟩
    cases op <;> simp only [LruSpec.step] <;> (try split) <;> simp

/-- The reported size never exceeds the capacity, whatever was called before. -/
theorem C01_lru_bounded (m : Nat) (ops : List (Op K V)) (n : Nat)
    (h : (Lru.step (Lru.run (Lru.init m : State K V) ops).1 .size).2 = .size n) : n ≤ m := by
  obtain ⟨_, hm, hR⟩ := LruProof.R_run (LruProof.R_init (K := K) (V := V) m) ops
  have hb : ∀ (a : LruSpec.Abs K V) (ops : List (Op K V)), a.entries.length ≤ m →
      (LruSpec.run m a ops).1.entries.length ≤ m := by
    intro a ops
    induction ops generalizing a with
    | nil => intro h; exact h
    | cons op ops ih =>
      intro hle
      apply ih
      have huse : ∀ k v, a.lookup k = some v → (a.use k v).length ≤ m := by
        intro k v hv
        unfold LruSpec.Abs.lookup at hv
        obtain ⟨e, he, -⟩ := Option.map_eq_some_iff.1 hv
        have hmem := List.mem_of_find?_eq_some he
        have hk := List.find?_some he
        have : (a.entries.filter (fun e => e.1 ≠ k)).length < a.entries.length :=
          List.length_filter_lt_length_iff_exists.2 ⟨e, hmem, by simpa using hk⟩
        simp only [LruSpec.Abs.use, List.length_cons]; omega
      cases op with
      | put k v =>
        simp only [LruSpec.step]
        split
        · rename_i hgt
          have hlen : (a.use k v).length ≤ m + 1 := by
            simp only [LruSpec.Abs.use, List.length_cons]
            have := List.length_filter_le (fun e => decide (e.1 ≠ k)) a.entries
            omega
          have hlt : (LruSpec.dropOldest (a.use k v)).length < (a.use k v).length := by
            unfold LruSpec.dropOldest
            apply List.length_filter_lt_length_iff_exists.2
            -- an entry with minimal time
            have : ∀ l : List (K × V × Nat), l ≠ [] → ∃ e ∈ l, ∀ f ∈ l, e.2.2 ≤ f.2.2 := by
              intro l
              induction l with
              | nil => simp
              | cons x l ih =>
                intro _
                by_cases hl : l = []
                · subst hl; exact ⟨x, by simp, by simp⟩
                · obtain ⟨e, he, hmin⟩ := ih hl
                  by_cases hx : x.2.2 ≤ e.2.2
                  · refine ⟨x, by simp, ?_⟩
                    intro f hf
                    rcases List.mem_cons.1 hf with rfl | hf
                    · exact Nat.le_refl _
                    · exact Nat.le_trans hx (hmin f hf)
                  · refine ⟨e, List.mem_cons_of_mem _ he, ?_⟩
                    intro f hf
                    rcases List.mem_cons.1 hf with rfl | hf
                    · omega
                    · exact hmin f hf
            obtain ⟨e, he, hmin⟩ := this (a.use k v) (by simp [LruSpec.Abs.use])
            refine ⟨e, he, ?_⟩
            simp only [Bool.not_eq_true, List.any_eq_false, decide_eq_true_eq]
            intro f hf
            have := hmin f hf
            omega
          omega
        · omega
      | peek k => simp only [LruSpec.step]; split <;> exact hle
      | get k =>
        simp only [LruSpec.step]
        split
        · exact hle
        · rename_i v hv; exact huse k v hv
      | promote k =>
        simp only [LruSpec.step]
        split
        · exact hle
        · rename_i v hv; exact huse k v hv
      | exists_ k => exact hle
      | size => exact hle
      | clear => simp [LruSpec.step]
  have h1 := hb LruSpec.empty ops (by simp [LruSpec.empty])
  have h2 := (LruProof.R_lengths hR).1
  simp only [Lru.step, Out.size.injEq] at h
  simp only [Lru.init] at h1 h2 h
  omega

/-- Non-trivial run: capacity 2, key 2 is used before key 3 arrives, so key 1 is evicted and key 2 stays. -/
example : (Lru.run (Lru.init 2 : State Nat Nat)
    [.put 2 20, .put 1 10, .get 2, .peek 1, .put 3 30, .exists_ 1, .exists_ 2, .get 1, .size]).2 =
    [.unit, .unit, .value 20, .value 10, .unit, .bool false, .bool true, .rangeError, .size 2] := by decide

end Verif.Props
