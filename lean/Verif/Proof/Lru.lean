import Mathlib.Data.List.Nodup
import Verif.Props.LruSpec

/-! Helper lemmas for C01: simulation between the cache and its specification. -/
namespace Verif.LruProof
open Verif Verif.Lru Verif.LruSpec

set_option linter.unusedSectionVars false
set_option linter.unusedSimpArgs false

variable {K V : Type} [DecidableEq K]

/-- Simulation relation. -/
structure R (s : State K V) (a : Abs K V) : Prop where
  ents : a.entries.map (fun e => (e.1, e.2.1)) = s.list.map (·.2)
  sorted : a.entries.Pairwise (fun x y => y.2.2 < x.2.2)
  lt : ∀ e ∈ a.entries, e.2.2 < a.clock
  keys : (s.list.map (·.2.1)).Nodup
  ids : (s.list.map (·.1)).Nodup
  idlt : ∀ n ∈ s.list, n.1 < s.next
  perm : s.map.Perm (s.list.map fun n => (n.2.1, n.1))

theorem map_keys_nodup {s : State K V} {a : Abs K V} (h : R s a) : (s.map.map (·.1)).Nodup := by
  have := h.perm.map (·.1)
  refine (this.nodup_iff).2 ?_
  simpa [List.map_map, Function.comp_def] using h.keys

theorem map_find_iff {s : State K V} {a : Abs K V} (h : R s a) (k : K) (it : Nat) :
    s.map.find k = some it ↔ ∃ v, (it, k, v) ∈ s.list := by
  constructor
  · intro hf
    have := Assoc.mem_of_find _ _ _ hf
    have := h.perm.mem_iff.1 this
    obtain ⟨n, hn, he⟩ := List.mem_map.1 this
    obtain ⟨i, k', v⟩ := n
    simp at he
    obtain ⟨rfl, rfl⟩ := he
    exact ⟨v, hn⟩
  · rintro ⟨v, hv⟩
    apply Assoc.find_of_mem _ _ _ (map_keys_nodup h)
    apply h.perm.mem_iff.2
    exact List.mem_map.2 ⟨_, hv, rfl⟩

theorem map_find_none {s : State K V} {a : Abs K V} (h : R s a) (k : K) :
    s.map.find k = none ↔ ∀ n ∈ s.list, n.2.1 ≠ k := by
  constructor
  · intro hf n hn hk
    obtain ⟨i, k', v⟩ := n
    subst hk
    have := (map_find_iff h k' i).2 ⟨v, hn⟩
    simp_all
  · intro hall
    cases hf : s.map.find k with
    | none => rfl
    | some it =>
      obtain ⟨v, hv⟩ := (map_find_iff h k it).1 hf
      exact absurd rfl (hall _ hv)

theorem deref_of_mem {l : List (Nat × K × V)} (hid : (l.map (·.1)).Nodup) {it : Nat} {k : K} {v : V}
    (h : (it, k, v) ∈ l) : deref l it = some (k, v) := by
  unfold deref
  induction l with
  | nil => simp at h
  | cons n l ih =>
    simp only [List.map_cons, List.nodup_cons] at hid
    rcases List.mem_cons.1 h with h | h
    · subst h; simp
    · have : n.1 ≠ it := by
        intro he
        exact hid.1 (List.mem_map.2 ⟨_, h, he.symm⟩)
      simp [List.find?_cons, this, ih hid.2 h]

/-- Removing by node identity is removing by key. -/
theorem eraseNode_eq {l : List (Nat × K × V)} (hid : (l.map (·.1)).Nodup)
    (hk : (l.map (·.2.1)).Nodup) {it : Nat} {k : K} {v : V} (h : (it, k, v) ∈ l) :
    eraseNode l it = l.filter (fun n => n.2.1 ≠ k) := by
  unfold eraseNode
  apply List.filter_congr
  intro n hn
  have : n.1 = it ↔ n.2.1 = k := by
    constructor
    · intro he
      have := List.inj_on_of_nodup_map hid hn h he
      rw [this]
    · intro he
      have := List.inj_on_of_nodup_map hk hn h he
      rw [this]
  simp [this]

theorem entries_filter {es : List (K × V × Nat)} {l : List (Nat × K × V)}
    (h : es.map (fun e => (e.1, e.2.1)) = l.map (·.2)) (k : K) :
    (es.filter (fun e => e.1 ≠ k)).map (fun e => (e.1, e.2.1)) =
      (l.filter (fun n => n.2.1 ≠ k)).map (·.2) := by
  have e1 : (es.filter (fun e => e.1 ≠ k)).map (fun e => (e.1, e.2.1)) =
      (es.map (fun e => (e.1, e.2.1))).filter (fun p => p.1 ≠ k) := by
    rw [List.filter_map]; rfl
  have e2 : (l.filter (fun n => n.2.1 ≠ k)).map (·.2) = (l.map (·.2)).filter (fun p => p.1 ≠ k) := by
    rw [List.filter_map]; rfl
  rw [e1, e2, h]

theorem lookup_eq {s : State K V} {a : Abs K V} (h : R s a) {it : Nat} {k : K} {v : V}
    (hm : (it, k, v) ∈ s.list) : a.lookup k = some v := by
  have hk := h.keys
  have he := h.ents
  revert hk he hm
  unfold Abs.lookup
  generalize a.entries = es
  generalize s.list = l
  intro hm hk he
  induction l generalizing es with
  | nil => simp at hm
  | cons n l ih =>
    cases es with
    | nil => simp at he
    | cons e es =>
      simp only [List.map_cons, List.cons.injEq, List.nodup_cons] at he hk
      rcases List.mem_cons.1 hm with h' | h'
      · subst h'
        simp at he
        simp [he.1.1, he.1.2]
      · have hne : e.1 ≠ k := by
          intro hek
          have : n.2.1 = k := by rw [← hek, ← he.1]
          exact hk.1 (List.mem_map.2 ⟨_, h', this.symm⟩)
        simp only [List.find?_cons, hne, decide_false]
        exact ih _ h' hk.2 he.2

theorem lookup_none {s : State K V} {a : Abs K V} (h : R s a) {k : K}
    (hm : ∀ n ∈ s.list, n.2.1 ≠ k) : a.lookup k = none := by
  unfold Abs.lookup
  have : a.entries.find? (fun e => e.1 = k) = none := by
    rw [List.find?_eq_none]
    intro e he hk
    have : (e.1, e.2.1) ∈ s.list.map (·.2) := by
      rw [← h.ents]; exact List.mem_map.2 ⟨e, he, rfl⟩
    obtain ⟨n, hn, hne⟩ := List.mem_map.1 this
    apply hm n hn
    rw [hne]; simpa using hk
  simp [this]

/-- Moving the used key to the front keeps the relation. -/
theorem R_touch {s : State K V} {a : Abs K V} (h : R s a) {it : Nat} {k : K} {v : V}
    (hm : (it, k, v) ∈ s.list) :
    R { s with list := (it, k, v) :: eraseNode s.list it }
      { entries := a.use k v, clock := a.clock + 1 } := by
  rw [eraseNode_eq h.ids h.keys hm]
  refine ⟨?_, ?_, ?_, ?_, ?_, ?_, ?_⟩
  · simp only [Abs.use, List.map_cons]
    rw [entries_filter h.ents k]
  · simp only [Abs.use, List.pairwise_cons]
    refine ⟨fun e he => h.lt _ (List.mem_of_mem_filter he), h.sorted.filter _⟩
  · intro e he
    simp only [Abs.use, List.mem_cons] at he
    rcases he with rfl | he
    · simp
    · have := h.lt _ (List.mem_of_mem_filter he); simp only; omega
  · simp only [List.map_cons, List.nodup_cons]
    refine ⟨?_, ?_⟩
    · simp
    · exact h.keys.sublist (List.filter_sublist.map _)
  · simp only [List.map_cons, List.nodup_cons]
    refine ⟨?_, ?_⟩
    · intro hin
      obtain ⟨n, hn, hne⟩ := List.mem_map.1 hin
      have h1 := List.mem_filter.1 hn
      have := List.inj_on_of_nodup_map h.ids h1.1 hm hne
      rw [this] at h1
      simp at h1
    · exact h.ids.sublist (List.filter_sublist.map _)
  · intro n hn
    rcases List.mem_cons.1 hn with rfl | hn
    · exact h.idlt _ hm
    · exact h.idlt _ (List.mem_of_mem_filter hn)
  · refine h.perm.trans ?_
    simp only [List.map_cons]
    have hperm : s.list.Perm ((it, k, v) :: s.list.filter (fun n => n.2.1 ≠ k)) := by
      have hk := h.keys
      revert hm hk
      generalize s.list = l
      intro hm hk
      induction l with
      | nil => simp at hm
      | cons n l ih =>
        simp only [List.map_cons, List.nodup_cons] at hk
        rcases List.mem_cons.1 hm with h' | h'
        · subst h'
          have : l.filter (fun n => n.2.1 ≠ k) = l := by
            rw [List.filter_eq_self]
            intro n hn
            have : n.2.1 ≠ k := by
              intro he; exact hk.1 (List.mem_map.2 ⟨n, hn, he⟩)
            simp [this]
          have e : ((it, k, v) :: l).filter (fun n => n.2.1 ≠ k) = l := by
            rw [List.filter_cons_of_neg (by simp), this]
          rw [e]
        · have hne : n.2.1 ≠ k := by
            intro he; exact hk.1 (List.mem_map.2 ⟨_, h', he.symm⟩)
          simp only [List.filter_cons, ne_eq, hne, not_false_eq_true, decide_true, if_true]
          refine ((ih h' hk.2).cons n).trans ?_
          exact List.Perm.swap _ _ _
    exact hperm.map (fun n => (n.2.1, n.1))

/-- The state just before the eviction test of `put`. -/
theorem R_insert {s : State K V} {a : Abs K V} (h : R s a) (k : K) (v : V) :
    ∃ s1 : State K V, (put s k v = evict s1) ∧ s1.maxSize = s.maxSize ∧
      R s1 { entries := a.use k v, clock := a.clock + 1 } := by
  have hfresh : ∀ n ∈ s.list, n.1 ≠ s.next := fun n hn => by have := h.idlt n hn; omega
  have key : ∀ mp : Assoc K Nat, mp.Perm ((s.list.filter (fun n => n.2.1 ≠ k)).map fun n => (n.2.1, n.1)) →
      R { list := (s.next, k, v) :: s.list.filter (fun n => n.2.1 ≠ k), map := (k, s.next) :: mp,
          maxSize := s.maxSize, next := s.next + 1 }
        { entries := a.use k v, clock := a.clock + 1 } := by
    intro mp hmp
    refine ⟨?_, ?_, ?_, ?_, ?_, ?_, ?_⟩
    · simp only [Abs.use, List.map_cons]
      rw [entries_filter h.ents k]
    · simp only [Abs.use, List.pairwise_cons]
      refine ⟨fun e he => h.lt _ (List.mem_of_mem_filter he), h.sorted.filter _⟩
    · intro e he
      simp only [Abs.use, List.mem_cons] at he
      rcases he with rfl | he
      · simp
      · have := h.lt _ (List.mem_of_mem_filter he); simp only; omega
    · simp only [List.map_cons, List.nodup_cons]
      refine ⟨by simp, h.keys.sublist (List.filter_sublist.map _)⟩
    · simp only [List.map_cons, List.nodup_cons]
      refine ⟨?_, h.ids.sublist (List.filter_sublist.map _)⟩
      intro hin
      obtain ⟨n, hn, hne⟩ := List.mem_map.1 hin
      exact hfresh n (List.mem_of_mem_filter hn) hne
    · intro n hn
      rcases List.mem_cons.1 hn with rfl | hn
      · simp
      · have := h.idlt n (List.mem_of_mem_filter hn); simp only; omega
    · simp only [List.map_cons]
      exact hmp.cons _
  have hmapfilter : (s.map.erase k).Perm ((s.list.filter (fun n => n.2.1 ≠ k)).map fun n => (n.2.1, n.1)) := by
    have h1 := h.perm.filter (fun e => decide (e.1 ≠ k))
    unfold Assoc.erase
    refine h1.trans ?_
    rw [List.filter_map]
    exact List.Perm.refl _
  cases hf : s.map.find k with
  | none =>
    have hn := (map_find_none h k).1 hf
    have hfl : s.list.filter (fun n => n.2.1 ≠ k) = s.list := by
      rw [List.filter_eq_self]; intro n hh; simpa using hn n hh
    refine ⟨_, ?_, ?_, key _ hmapfilter⟩
    · unfold put
      simp only [hf, hfl]
      rfl
    · rfl
  | some it =>
    obtain ⟨w, hw⟩ := (map_find_iff h k it).1 hf
    have hlt := h.idlt _ hw
    have hd : deref ((s.next, k, v) :: s.list) it = some (k, w) := by
      have h1 := deref_of_mem h.ids hw
      unfold deref at h1 ⊢
      have hne : ¬ s.next = it := by simp only at hlt; omega
      simp only [List.find?_cons, hne, decide_false]
      exact h1
    have he : eraseNode ((s.next, k, v) :: s.list) it =
        (s.next, k, v) :: s.list.filter (fun n => n.2.1 ≠ k) := by
      rw [← eraseNode_eq h.ids h.keys hw]
      unfold eraseNode
      have hne : ¬ s.next = it := by simp only at hlt; omega
      simp [List.filter_cons, hne]
    have hee : ((s.map.erase k).erase k) = s.map.erase k := by
      unfold Assoc.erase; rw [List.filter_filter]; simp
    refine ⟨_, ?_, ?_, key _ hmapfilter⟩
    · unfold put
      simp only [hf, hd, he]
      unfold Assoc.set
      rw [hee]
    · rfl

theorem dropOldest_eq (es : List (K × V × Nat)) (hs : es.Pairwise (fun x y => y.2.2 < x.2.2)) :
    dropOldest es = es.dropLast := by
  rcases List.eq_nil_or_concat es with rfl | ⟨i, l, rfl⟩
  · rfl
  · unfold dropOldest
    rw [List.concat_eq_append] at hs ⊢
    rw [List.pairwise_append] at hs
    obtain ⟨h1, _, h3⟩ := hs
    rw [List.filter_append, List.dropLast_concat]
    have e1 : i.filter (fun e => (i ++ [l]).any (fun f => f.2.2 < e.2.2)) = i := by
      rw [List.filter_eq_self]
      intro e he
      rw [List.any_eq_true]
      exact ⟨l, by simp, by simpa using h3 e he l (by simp)⟩
    have e2 : [l].filter (fun e => (i ++ [l]).any (fun f => f.2.2 < e.2.2)) = [] := by
      rw [List.filter_eq_nil_iff]
      intro e he
      simp only [List.mem_singleton] at he
      subst he
      rw [List.any_eq_true]
      rintro ⟨f, hf, hlt⟩
      simp only [List.mem_append, List.mem_singleton] at hf
      simp only [decide_eq_true_eq] at hlt
      rcases hf with hf | rfl
      · have := h3 f hf e (by simp); omega
      · omega
    rw [e1, e2, List.append_nil]

theorem R_lengths {s : State K V} {a : Abs K V} (h : R s a) :
    s.map.length = a.entries.length ∧ s.list.length = a.entries.length := by
  have h1 := h.perm.length_eq
  have h2 := congrArg List.length h.ents
  simp at h1 h2
  omega

theorem R_evict {s : State K V} {a : Abs K V} (h : R s a) :
    ∃ s', evict s = some s' ∧ s'.maxSize = s.maxSize ∧
      R s' { entries := if a.entries.length > s.maxSize then dropOldest a.entries else a.entries,
             clock := a.clock } := by
  obtain ⟨hl1, hl2⟩ := R_lengths h
  unfold evict
  by_cases hc : s.map.length > s.maxSize
  · rw [if_pos hc, if_pos (by omega)]
    rcases List.eq_nil_or_concat s.list with hnil | ⟨i, last, hi⟩
    · rw [hnil] at hl2; simp at hl2; omega
    · rw [List.concat_eq_append] at hi
      have hgl : s.list.getLast? = some last := by rw [hi]; simp
      rw [hgl]
      refine ⟨_, rfl, rfl, ?_⟩
      rw [dropOldest_eq _ h.sorted]
      have hdl : s.list.dropLast = i := by rw [hi]; simp
      have hk := h.keys
      rw [hi, List.map_append, List.nodup_append] at hk
      refine ⟨?_, ?_, ?_, ?_, ?_, ?_, ?_⟩
      · simp only [List.map_dropLast, h.ents]
      · exact h.sorted.sublist (List.dropLast_sublist _)
      · intro e he
        exact h.lt e ((List.dropLast_sublist _).subset he)
      · exact h.keys.sublist ((List.dropLast_sublist _).map _)
      · exact h.ids.sublist ((List.dropLast_sublist _).map _)
      · intro n hn
        exact h.idlt n ((List.dropLast_sublist _).subset hn)
      · simp only
        rw [hdl]
        have h1 := h.perm.filter (fun e => decide (e.1 ≠ last.2.1))
        unfold Assoc.erase
        refine h1.trans ?_
        rw [hi, List.map_append, List.filter_append]
        have e1 : (i.map fun n => (n.2.1, n.1)).filter (fun e => decide (e.1 ≠ last.2.1)) =
            i.map fun n => (n.2.1, n.1) := by
          rw [List.filter_eq_self]
          intro e he
          obtain ⟨n, hn, rfl⟩ := List.mem_map.1 he
          have := hk.2.2 n.2.1 (List.mem_map.2 ⟨n, hn, rfl⟩) last.2.1 (by simp)
          simpa using this
        rw [e1]
        simp
  · rw [if_neg hc, if_neg (by omega)]
    exact ⟨s, rfl, rfl, h⟩

/-- One step of the cache is one step of the specification. -/
theorem R_step {s : State K V} {a : Abs K V} (h : R s a) (op : Op K V) :
    (Lru.step s op).2 = (LruSpec.step s.maxSize a op).2 ∧
    (Lru.step s op).1.maxSize = s.maxSize ∧
    R (Lru.step s op).1 (LruSpec.step s.maxSize a op).1 := by
  cases op with
  | put k v =>
    obtain ⟨s1, h1, hm1, hR1⟩ := R_insert h k v
    obtain ⟨s2, h2, hm2, hR2⟩ := R_evict hR1
    simp only [Lru.step, LruSpec.step, h1, h2]
    rw [hm1] at hR2
    exact ⟨trivial, by rw [hm2, hm1], hR2⟩
  | peek k =>
    simp only [Lru.step, LruSpec.step]
    cases hf : s.map.find k with
    | none =>
      rw [lookup_none h ((map_find_none h k).1 hf)]
      exact ⟨rfl, rfl, h⟩
    | some it =>
      obtain ⟨v, hv⟩ := (map_find_iff h k it).1 hf
      simp only [deref_of_mem h.ids hv, lookup_eq h hv]
      exact ⟨trivial, trivial, h⟩
  | get k =>
    simp only [Lru.step, LruSpec.step]
    cases hf : s.map.find k with
    | none =>
      rw [lookup_none h ((map_find_none h k).1 hf)]
      exact ⟨rfl, rfl, h⟩
    | some it =>
      obtain ⟨v, hv⟩ := (map_find_iff h k it).1 hf
      have hs : splice s it = some { s with list := (it, k, v) :: eraseNode s.list it } := by
        unfold splice; rw [deref_of_mem h.ids hv]
      have hd : deref ((it, k, v) :: eraseNode s.list it) it = some (k, v) := by
        unfold deref; simp
      simp only [hs, hd, lookup_eq h hv]
      exact ⟨trivial, trivial, R_touch h hv⟩
  | promote k =>
    simp only [Lru.step, LruSpec.step]
    cases hf : s.map.find k with
    | none =>
      rw [lookup_none h ((map_find_none h k).1 hf)]
      exact ⟨rfl, rfl, h⟩
    | some it =>
      obtain ⟨v, hv⟩ := (map_find_iff h k it).1 hf
      have hs : splice s it = some { s with list := (it, k, v) :: eraseNode s.list it } := by
        unfold splice; rw [deref_of_mem h.ids hv]
      simp only [hs, lookup_eq h hv]
      exact ⟨trivial, trivial, R_touch h hv⟩
  | exists_ k =>
    simp only [Lru.step, LruSpec.step]
    refine ⟨?_, trivial, h⟩
    cases hf : s.map.find k with
    | none => rw [lookup_none h ((map_find_none h k).1 hf)]; rfl
    | some it =>
      obtain ⟨v, hv⟩ := (map_find_iff h k it).1 hf
      rw [lookup_eq h hv]; rfl
  | size =>
    simp only [Lru.step, LruSpec.step]
    exact ⟨by rw [(R_lengths h).1], trivial, h⟩
  | clear =>
    simp only [Lru.step, LruSpec.step]
    refine ⟨trivial, trivial, ?_⟩
    constructor <;> simp

theorem R_run {s : State K V} {a : Abs K V} (h : R s a) (ops : List (Op K V)) :
    (Lru.run s ops).2 = (LruSpec.run s.maxSize a ops).2 ∧
    (Lru.run s ops).1.maxSize = s.maxSize ∧
    R (Lru.run s ops).1 (LruSpec.run s.maxSize a ops).1 := by
  induction ops generalizing s a with
  | nil => exact ⟨rfl, rfl, h⟩
  | cons op ops ih =>
    obtain ⟨h1, h2, h3⟩ := R_step h op
    obtain ⟨i1, i2, i3⟩ := ih h3
    simp only [Lru.run, LruSpec.run]
    rw [h2] at i1 i2 i3
    exact ⟨by rw [h1, i1], i2, i3⟩

theorem R_init (m : Nat) : R (Lru.init m : State K V) (LruSpec.empty : Abs K V) := by
  constructor <;> simp [Lru.init, LruSpec.empty]

end Verif.LruProof

namespace Verif.LruProof
open Verif Verif.Lru Verif.LruSpec

set_option linter.unusedSectionVars false

variable {K V : Type} [DecidableEq K]

/-- Every cached pair satisfies `P`; the cache is well formed with limit `m`. -/
def Holds (P : K → V → Prop) (m : Nat) (s : State K V) : Prop :=
  ∃ a : Abs K V, R s a ∧ s.maxSize = m ∧ ∀ e ∈ a.entries, P e.1 e.2.1

theorem Holds.mono {P Q : K → V → Prop} {m : Nat} {s : State K V} (h : Holds P m s)
    (hPQ : ∀ k v, P k v → Q k v) : Holds Q m s := by
  obtain ⟨a, h1, h2, h3⟩ := h
  exact ⟨a, h1, h2, fun e he => hPQ _ _ (h3 e he)⟩

theorem Holds.init (P : K → V → Prop) (m : Nat) : Holds P m (Lru.init m : State K V) :=
  ⟨_, R_init m, rfl, by simp [LruSpec.empty]⟩

theorem lookup_mem {a : Abs K V} {k : K} {v : V} (h : a.lookup k = some v) :
    ∃ e ∈ a.entries, e.1 = k ∧ e.2.1 = v := by
  unfold Abs.lookup at h
  obtain ⟨e, he, hv⟩ := Option.map_eq_some_iff.1 h
  exact ⟨e, List.mem_of_find?_eq_some he, by simpa using List.find?_some he, hv⟩

theorem use_holds {P : K → V → Prop} {a : Abs K V} (h : ∀ e ∈ a.entries, P e.1 e.2.1) {k : K} {v : V}
    (hp : P k v) : ∀ e ∈ a.use k v, P e.1 e.2.1 := by
  intro e he
  simp only [Abs.use, List.mem_cons] at he
  rcases he with rfl | he
  · exact hp
  · exact h e (List.mem_of_mem_filter he)

theorem Holds.cases {P : K → V → Prop} {m : Nat} {s : State K V} (h : Holds P m s) (k : K) :
    (Lru.step s (.exists_ k)).2 = .bool false ∨
    ((Lru.step s (.exists_ k)).2 = .bool true ∧ ∃ v, P k v ∧ (Lru.step s (.peek k)).2 = .value v ∧
      (Lru.step s (.get k)).2 = .value v ∧ Holds P m (Lru.step s (.get k)).1 ∧
      Holds P m (Lru.step s (.promote k)).1) := by
  obtain ⟨a, hR, hm, hP⟩ := h
  have he := R_step hR (.exists_ k)
  have hp := R_step hR (.peek k)
  have hg := R_step hR (.get k)
  have hpr := R_step hR (.promote k)
  cases hl : a.lookup k with
  | none =>
    left; rw [he.1]; simp [LruSpec.step, hl]
  | some v =>
    right
    obtain ⟨e, hem, hk, hv⟩ := lookup_mem hl
    have hPv : P k v := by rw [← hk, ← hv]; exact hP e hem
    refine ⟨by rw [he.1]; simp [LruSpec.step, hl], v, hPv, by rw [hp.1]; simp [LruSpec.step, hl],
      by rw [hg.1]; simp [LruSpec.step, hl], ?_, ?_⟩
    · refine ⟨_, hg.2.2, by rw [hg.2.1, hm], ?_⟩
      simp only [LruSpec.step, hl]
      exact use_holds hP hPv
    · refine ⟨_, hpr.2.2, by rw [hpr.2.1, hm], ?_⟩
      simp only [LruSpec.step, hl]
      exact use_holds hP hPv

theorem Holds.put {P : K → V → Prop} {m : Nat} {s : State K V} (h : Holds P m s) (hm1 : 1 ≤ m)
    {k : K} {v : V} (hp : P k v) :
    Holds P m (Lru.step s (.put k v)).1 ∧
    (Lru.step (Lru.step s (.put k v)).1 (.get k)).2 = .value v ∧
    Holds P m (Lru.step (Lru.step s (.put k v)).1 (.get k)).1 := by
  obtain ⟨a, hR, hm, hP⟩ := h
  have hs := R_step hR (.put k v)
  have hholds : ∀ e ∈ (LruSpec.step s.maxSize a (.put k v)).1.entries, P e.1 e.2.1 := by
    simp only [LruSpec.step]
    intro e he
    apply use_holds hP hp
    split at he
    · exact List.mem_of_mem_filter he
    · exact he
  have hlook : (LruSpec.step s.maxSize a (.put k v)).1.lookup k = some v := by
    simp only [LruSpec.step]
    split
    · rename_i hgt
      have hlen : 1 < (a.use k v).length := by omega
      have hex : ∃ f ∈ a.use k v, f.2.2 < a.clock := by
        simp only [Abs.use, List.length_cons] at hlen
        cases hf : a.entries.filter (fun e => decide (e.1 ≠ k)) with
        | nil => rw [hf] at hlen; simp at hlen
        | cons f fs =>
          have hfm : f ∈ a.entries.filter (fun e => decide (e.1 ≠ k)) := by rw [hf]; simp
          exact ⟨f, List.mem_cons_of_mem _ hfm, hR.lt f (List.mem_of_mem_filter hfm)⟩
      obtain ⟨f, hf, hlt⟩ := hex
      have : dropOldest (a.use k v) = (k, v, a.clock) ::
          (a.entries.filter (fun e => decide (e.1 ≠ k))).filter
            (fun e => (a.use k v).any (fun f => f.2.2 < e.2.2)) := by
        unfold dropOldest
        conv => lhs; arg 2; unfold Abs.use
        rw [List.filter_cons_of_pos]
        rw [List.any_eq_true]
        exact ⟨f, hf, by simpa using hlt⟩
      simp only [this, Abs.lookup]
      simp
    · simp only [Abs.lookup, Abs.use]; simp
  have hg := R_step hs.2.2 (.get k)
  refine ⟨⟨_, hs.2.2, by rw [hs.2.1, hm], hholds⟩, ?_, ?_⟩
  · rw [hg.1]
    simp only [LruSpec.step] at hlook ⊢
    rw [hlook]
  · refine ⟨_, hg.2.2, by rw [hg.2.1, hs.2.1, hm], ?_⟩
    intro e he
    have : (LruSpec.step (Lru.step s (.put k v)).1.maxSize (LruSpec.step s.maxSize a (.put k v)).1
        (.get k)).1.entries = (LruSpec.step s.maxSize a (.put k v)).1.use k v := by
      generalize (LruSpec.step s.maxSize a (.put k v)).1 = b at hlook
      simp only [LruSpec.step, hlook]
    rw [this] at he
    exact use_holds hholds hp e he

end Verif.LruProof
