import Mathlib.Order.Basic
import Mathlib.Order.Defs.PartialOrder
import Verif.Props.GeoStoreSpec
import Verif.Props.MemStore
import Verif.Props.ElementStore
import Verif.Props.PersistentStore

/-! # C20, C21: the geo store -/
namespace Verif.Props
open Verif.GeoStore Verif.GeoStoreSpec

namespace GeoStoreProof
variable {K S E Q : Type} [LinearOrder K]

/-- The map holds exactly the stores of `A`, in the order of the keys and without null pointers. -/
structure Abs (m : Map K S) (A : Stores K S) : Prop where
  sorted : m.Pairwise fun a b => a.1 < b.1
  mem : ∀ k p, (k, p) ∈ m ↔ ∃ s, p = some s ∧ A k = some s

theorem mem_emplace (k : K) (v : Option S) (m : Map K S) (h : m.Pairwise fun a b => a.1 < b.1) :
    (emplace k v m).Pairwise (fun a b => a.1 < b.1) ∧
    ∀ k' p, (k', p) ∈ emplace k v m ↔ (k', p) ∈ m ∨ (k' = k ∧ p = v ∧ ∀ p', (k, p') ∉ m) := by
  induction m with
  | nil => simp [emplace]
  | cons e m ih =>
    obtain ⟨k', v'⟩ := e
    rw [List.pairwise_cons] at h
    obtain ⟨i1, i2⟩ := ih h.2
    unfold emplace
    split
    · rename_i hlt
      refine ⟨?_, ?_⟩
      · rw [List.pairwise_cons]
        refine ⟨?_, List.pairwise_cons.2 h⟩
        intro a ha
        rcases List.mem_cons.1 ha with rfl | ha
        · exact hlt
        · exact hlt.trans (h.1 a ha)
      · intro a p
        simp only [List.mem_cons, Prod.mk.injEq, not_or, not_and]
        constructor
        · rintro (⟨rfl, rfl⟩ | h')
          · refine .inr ⟨rfl, rfl, fun p' => ⟨fun hc => absurd hc hlt.ne, fun hc => ?_⟩⟩
            exact absurd (h.1 _ hc) (not_lt.2 hlt.le)
          · exact .inl h'
        · rintro (h' | ⟨rfl, rfl, -⟩)
          · exact .inr h'
          · exact .inl ⟨rfl, rfl⟩
    · split
      · rename_i hnlt hlt
        refine ⟨?_, ?_⟩
        · rw [List.pairwise_cons]
          refine ⟨?_, i1⟩
          rintro ⟨a, p⟩ ha
          rcases (i2 a p).1 ha with ha | ⟨rfl, -⟩
          · exact h.1 _ ha
          · exact hlt
        · intro a p
          simp only [List.mem_cons, i2, Prod.mk.injEq, not_or, not_and]
          constructor
          · rintro (h' | h' | ⟨h1, h2, h3⟩)
            · exact .inl (.inl h')
            · exact .inl (.inr h')
            · exact .inr ⟨h1, h2, fun p' => ⟨fun hc => absurd hc hlt.ne', h3 p'⟩⟩
          · rintro ((h' | h') | ⟨h1, h2, h3⟩)
            · exact .inl h'
            · exact .inr (.inl h')
            · exact .inr (.inr ⟨h1, h2, fun p' => (h3 p').2⟩)
      · rename_i hn1 hn2
        have : k' = k := le_antisymm (not_lt.1 hn1) (not_lt.1 hn2)
        subst this
        refine ⟨List.pairwise_cons.2 h, ?_⟩
        intro a p
        constructor
        · exact .inl
        · rintro (h' | ⟨-, -, h'⟩)
          · exact h'
          · exact absurd (h' v') (by simp)

theorem pointer_of_mem {m : Map K S} (h : m.Pairwise fun a b => a.1 < b.1) {k : K} {p : Option S} (hm : (k, p) ∈ m) :
    pointer k m = p := by
  induction m with
  | nil => simp at hm
  | cons e m ih =>
    obtain ⟨k', v'⟩ := e
    rw [List.pairwise_cons] at h
    unfold pointer
    rcases List.mem_cons.1 hm with heq | hm
    · cases heq; simp
    · rw [if_neg (h.1 _ hm).ne]; exact ih h.2 hm

theorem Abs.subscript {m : Map K S} {A : Stores K S} (h : Abs m A) {k : K} {s : S} (hk : A k = some s) :
    GeoStore.subscript k m = m ∧ pointer k m = some s := by
  have hm : (k, some s) ∈ m := (h.mem k (some s)).2 ⟨s, rfl, hk⟩
  refine ⟨?_, pointer_of_mem h.sorted hm⟩
  have hs := h.sorted
  clear h hk
  unfold GeoStore.subscript
  induction m with
  | nil => simp at hm
  | cons e m ih =>
    obtain ⟨k', v'⟩ := e
    rw [List.pairwise_cons] at hs
    unfold emplace
    rcases List.mem_cons.1 hm with heq | hm
    · cases heq; simp
    · have hlt := hs.1 _ hm
      rw [if_neg (not_lt.2 hlt.le), if_pos hlt, ih hm hs.2]

theorem Abs.put {m : Map K S} {A : Stores K S} (h : Abs m A) {k : K} {s : S} (hk : A k = some s) (s' : S) :
    Abs (GeoStore.put k s' m) (update A k s') := by
  have hkey : ∀ e : K × Option S, (if e.1 = k then (k, some s') else e).1 = e.1 := by
    intro e; split
    · rename_i h; exact h.symm
    · rfl
  refine ⟨?_, ?_⟩
  · unfold GeoStore.put
    rw [List.pairwise_map]
    refine h.sorted.imp ?_
    intro a b hab
    rw [hkey, hkey]; exact hab
  · intro k' p
    unfold GeoStore.put update
    simp only [List.mem_map]
    constructor
    · rintro ⟨⟨a, b⟩, h1, h2⟩
      by_cases ha : a = k
      · simp only [ha, if_true, Prod.mk.injEq] at h2
        obtain ⟨rfl, rfl⟩ := h2
        exact ⟨s', rfl, by simp⟩
      · simp only [ha, if_false, Prod.mk.injEq] at h2
        obtain ⟨rfl, rfl⟩ := h2
        obtain ⟨t, h3, h4⟩ := (h.mem _ _).1 h1
        exact ⟨t, h3, by simp [ha, h4]⟩
    · rintro ⟨t, rfl, h2⟩
      by_cases ha : k' = k
      · subst ha
        simp only [if_true, Option.some.injEq] at h2
        subst h2
        exact ⟨(k', some s), (h.mem _ _).2 ⟨s, rfl, hk⟩, by simp⟩
      · rw [if_neg ha] at h2
        exact ⟨(k', some t), (h.mem _ _).2 ⟨t, rfl, h2⟩, by simp [ha]⟩

theorem saveAll_ok {I : Iface S E Q} {s s' : S} {l : List (QuadKey × E)} (h : saveAll I s l = .ok s') : Saved I s l s' := by
  induction l generalizing s with
  | nil => simp only [saveAll, Outcome.ok.injEq] at h; subst h; exact .nil s
  | cons e l ih =>
    obtain ⟨q, e⟩ := e
    unfold saveAll at h
    cases hs : I.save s q e with
    | ok t => rw [hs] at h; exact .cons hs (ih h)
    | throw x => rw [hs] at h; simp [Outcome.bind] at h
    | ub x => rw [hs] at h; simp [Outcome.bind] at h

theorem Saved.append {I : Iface S E Q} {s s' s'' : S} {l l' : List (QuadKey × E)} (h : Saved I s l s') (h' : Saved I s' l' s'') :
    Saved I s (l ++ l') s'' := by
  induction h with
  | nil => exact h'
  | cons h1 _ ih => exact .cons h1 (ih h')

theorem importFile_ok {I : Iface S E Q} {s : S} {p : Option S} {l : List (List (QuadKey × E))} (h : importFile I (some s) l = .ok p) :
    ∃ s', p = some s' ∧ Saved I s l.flatten s' := by
  induction l generalizing s with
  | nil => simp only [importFile, Outcome.ok.injEq] at h; exact ⟨s, h.symm, .nil s⟩
  | cons a l ih =>
    unfold importFile withStore at h
    cases hs : saveAll I s a with
    | ok t =>
      simp only [hs, Outcome.bind] at h
      obtain ⟨s', h1, h2⟩ := ih h
      exact ⟨s', h1, Saved.append (saveAll_ok hs) h2⟩
    | throw x => simp [hs, Outcome.bind] at h
    | ub x => simp [hs, Outcome.bind] at h

theorem visit_ok {f : S → Outcome (S × List E)} {m m' : Map K S} {l : List E} {A : Stores K S} (h : Abs m A)
    (hv : visit f m = .ok (m', l)) :
    ∃ (A' : Stores K S) (part : K → List E), Abs m' A' ∧ l = (m.map Prod.fst).flatMap part ∧
      ∀ k, (∀ s, A k = some s → ∃ s', f s = .ok (s', part k) ∧ A' k = some s') ∧ (A k = none → A' k = none) := by
  induction m generalizing m' l A with
  | nil =>
    simp only [visit, Outcome.ok.injEq, Prod.mk.injEq] at hv
    obtain ⟨rfl, rfl⟩ := hv
    refine ⟨A, fun _ => [], h, rfl, ?_⟩
    intro k
    refine ⟨fun s hs => ?_, id⟩
    have := (h.mem k (some s)).2 ⟨s, rfl, hs⟩
    simp at this
  | cons e m ih =>
    obtain ⟨k0, p0⟩ := e
    obtain ⟨s0, rfl, hA0⟩ := (h.mem k0 p0).1 (by simp)
    have hsort := List.pairwise_cons.1 h.sorted
    unfold visit at hv
    cases hf : f s0 with
    | throw x => simp [hf, Outcome.bind] at hv
    | ub x => simp [hf, Outcome.bind] at hv
    | ok r =>
      cases hr : visit f m with
      | throw x => simp [hf, hr, Outcome.bind] at hv
      | ub x => simp [hf, hr, Outcome.bind] at hv
      | ok rest =>
        obtain ⟨rm, rl⟩ := rest
        simp only [hf, hr, Outcome.bind, Outcome.ok.injEq, Prod.mk.injEq] at hv
        obtain ⟨rfl, rfl⟩ := hv
        have hnot : ∀ p, (k0, p) ∉ m := fun p hp => lt_irrefl k0 (hsort.1 (k0, p) hp)
        have hAbs : Abs m (fun k => if k = k0 then none else A k) := by
          refine ⟨hsort.2, ?_⟩
          intro k p
          by_cases hk : k = k0
          · subst hk; simp [hnot p]
          · simp only [hk, if_false]
            rw [← h.mem]
            simp [hk]
        obtain ⟨A', part, i1, i2, i3⟩ := ih hAbs hr
        have hkeys : ∀ k, k ∈ m.map Prod.fst → k ≠ k0 := by
          rintro k hk rfl
          obtain ⟨⟨a, b⟩, h1, rfl⟩ := List.mem_map.1 hk
          exact hnot b h1
        refine ⟨fun k => if k = k0 then some r.1 else A' k, fun k => if k = k0 then r.2 else part k, ⟨?_, ?_⟩, ?_, ?_⟩
        · rw [List.pairwise_cons]
          refine ⟨?_, i1.sorted⟩
          rintro ⟨k, p⟩ hp
          obtain ⟨s, rfl, hs⟩ := (i1.mem k p).1 hp
          cases hA : (fun k => if k = k0 then none else A k) k with
          | none => rw [(i3 k).2 hA] at hs; cases hs
          | some s1 =>
            have := (hAbs.mem k (some s1)).2 ⟨s1, rfl, hA⟩
            exact hsort.1 (k, some s1) this
        · intro k p
          by_cases hk : k = k0
          · subst hk
            simp only [List.mem_cons, Prod.mk.injEq, true_and, if_true, Option.some.injEq]
            constructor
            · rintro (rfl | hp)
              · exact ⟨r.1, rfl, rfl⟩
              · obtain ⟨s, -, hs⟩ := (i1.mem k p).1 hp
                have := (i3 k).2 (by simp)
                rw [this] at hs; cases hs
            · rintro ⟨s, rfl, hs⟩
              exact .inl (by rw [hs])
          · simp only [List.mem_cons, Prod.mk.injEq, hk, false_and, false_or, if_false]
            exact i1.mem k p
        · simp only [List.map_cons, List.flatMap_cons, if_true]
          rw [i2]
          congr 1
          rw [List.flatMap_def, List.flatMap_def]
          congr 1
          apply List.map_congr_left
          intro k hk
          rw [if_neg (hkeys k hk)]
        · intro k
          by_cases hk : k = k0
          · subst hk
            simp only [if_true]
            refine ⟨fun s hs => ?_, fun hs => ?_⟩
            · rw [hA0] at hs; cases hs; exact ⟨r.1, hf, rfl⟩
            · rw [hA0] at hs; cases hs
          · simp only [hk, if_false]
            have := i3 k
            simp only [hk, if_false] at this
            exact this

theorem flatMap_filter {α β : Type} (l : List α) (p : α → Bool) (f : α → List β) (h : ∀ a ∈ l, p a = false → f a = []) :
    l.flatMap f = (l.filter p).flatMap f := by
  induction l with
  | nil => rfl
  | cons a l ih =>
    rw [List.flatMap_cons, ih (fun b hb => h b (by simp [hb]))]
    cases hp : p a with
    | true => rw [List.filter_cons_of_pos hp, List.flatMap_cons]
    | false => rw [List.filter_cons_of_neg (by simp [hp]), h a (by simp) hp, List.nil_append]

theorem anyData_ok {I : Iface S E Q} {q : QuadKey} {m : Map K S} {A : Stores K S} (h : Abs m A) :
    ∃ b, anyData I q m = .ok b ∧ (b = true ↔ ∃ k s, A k = some s ∧ I.hasData s q = true) := by
  have key : ∀ m' : Map K S, (∀ e ∈ m', e ∈ m) → ∃ b, anyData I q m' = .ok b ∧ (b = true ↔ ∃ k s, (k, some s) ∈ m' ∧ I.hasData s q = true) := by
    intro m'
    induction m' with
    | nil => intro _; exact ⟨false, rfl, by simp⟩
    | cons e m' ih =>
      intro hm
      obtain ⟨k0, p0⟩ := e
      obtain ⟨s0, rfl, hA0⟩ := (h.mem k0 p0).1 (hm _ (by simp))
      obtain ⟨b, h1, h2⟩ := ih (fun e he => hm e (by simp [he]))
      unfold anyData
      cases hd : I.hasData s0 q with
      | true => exact ⟨true, rfl, by simp only [true_iff]; exact ⟨k0, s0, by simp, hd⟩⟩
      | false =>
        refine ⟨b, h1, h2.trans ?_⟩
        constructor
        · rintro ⟨k, s, h3, h4⟩; exact ⟨k, s, by simp [h3], h4⟩
        · rintro ⟨k, s, h3, h4⟩
          rcases List.mem_cons.1 h3 with heq | h3
          · cases heq; rw [hd] at h4; cases h4
          · exact ⟨k, s, h3, h4⟩
  obtain ⟨b, h1, h2⟩ := key m (fun _ he => he)
  refine ⟨b, h1, h2.trans ?_⟩
  constructor
  · rintro ⟨k, s, h3, h4⟩
    obtain ⟨t, h5, h6⟩ := (h.mem _ _).1 h3
    cases h5; exact ⟨k, s, h6, h4⟩
  · rintro ⟨k, s, h3, h4⟩; exact ⟨k, s, (h.mem _ _).2 ⟨s, rfl, h3⟩, h4⟩

/-- The keys of the map are those of `A`. -/
theorem Abs.key {m : Map K S} {A : Stores K S} (h : Abs m A) (k : K) : k ∈ m.map Prod.fst ↔ ∃ s, A k = some s := by
  rw [List.mem_map]
  constructor
  · rintro ⟨⟨a, p⟩, h1, rfl⟩
    obtain ⟨s, -, h2⟩ := (h.mem _ _).1 h1
    exact ⟨s, h2⟩
  · rintro ⟨s, hs⟩; exact ⟨(k, some s), (h.mem _ _).2 ⟨s, rfl, hs⟩, rfl⟩

theorem Abs.keys_sorted {m : Map K S} {A : Stores K S} (h : Abs m A) : (m.map Prod.fst).Pairwise (· < ·) :=
  List.pairwise_map.2 h.sorted

/-- One call. -/
theorem step_means (I : Iface S E Q) {m : Map K S} {A : Stores K S} (h : Abs m A) (op : Op K S E Q)
    (hk : ∀ k saves, op = .add k saves → ∃ s, A k = some s)
    (hk' : ∀ k f t c, op = .addFile k f t c → ∃ s, A k = some s) (hf : ¬ Failed (step I m op).2) :
    ∃ A', Means I A op A' (step I m op).2 ∧ Abs (step I m op).1 A' := by
  cases op with
  | register k s =>
    obtain ⟨e1, e2⟩ := mem_emplace k (some s) m h.sorted
    refine ⟨_, ⟨rfl, rfl⟩, e1, ?_⟩
    intro k' p
    rw [show (step I m (.register k s)).1 = emplace k (some s) m from rfl, e2, h.mem]
    cases hA : A k with
    | none =>
      simp only [update]
      have hno : ∀ p', (k, p') ∉ m := by
        intro p' hp
        obtain ⟨t, -, ht⟩ := (h.mem _ _).1 hp
        rw [hA] at ht; cases ht
      by_cases hkk : k' = k
      · subst hkk
        simp only [hA, if_true, true_and, Option.some.injEq]
        constructor
        · rintro (⟨t, -, ht⟩ | ⟨rfl, -⟩)
          · cases ht
          · exact ⟨s, rfl, rfl⟩
        · rintro ⟨t, rfl, rfl⟩; exact .inr ⟨rfl, hno⟩
      · simp [hkk]
    | some t =>
      simp only
      constructor
      · rintro (h' | ⟨-, -, h'⟩)
        · exact h'
        · exact absurd ((h.mem k (some t)).2 ⟨t, rfl, hA⟩) (h' _)
      · exact .inl
  | add k saves =>
    obtain ⟨s, hs⟩ := hk k saves rfl
    obtain ⟨e1, e2⟩ := h.subscript hs
    have e3 : step I m (.add k saves) = match saveAll I s saves with
        | .ok s => (GeoStore.put k s m, .done)
        | o => (m, .failed (forget o)) := by
      simp only [step, e1, e2, withStore]
      cases saveAll I s saves <;> rfl
    rw [e3] at hf ⊢
    cases hsv : saveAll I s saves with
    | ok s' => exact ⟨_, ⟨rfl, s, s', hs, saveAll_ok hsv, rfl⟩, h.put hs s'⟩
    | throw x => simp [hsv, Failed] at hf
    | ub x => simp [hsv, Failed] at hf
  | addFile k f t c =>
    obtain ⟨s, hs⟩ := hk' k f t c rfl
    obtain ⟨e1, e2⟩ := h.subscript hs
    cases f with
    | none => simp [step, Failed] at hf
    | some elements =>
      cases him : importFile I (some s) elements with
      | throw x => simp [step, e1, e2, him, Failed] at hf
      | ub x => simp [step, e1, e2, him, Failed] at hf
      | ok p =>
        obtain ⟨s', rfl, hsv⟩ := importFile_ok him
        cases c with
        | false =>
          simp only [step, e1, e2, him, putPtr]
          refine ⟨_, ⟨rfl, elements, s, s', s', rfl, hs, hsv, rfl, fun _ => rfl, fun hc => by cases hc⟩, h.put hs s'⟩
        | true =>
          have h1 := h.put hs s'
          cases hcl : cleanUp I t s' with
          | throw x => simp [step, e1, e2, him, putPtr, withStore, hcl, Failed] at hf
          | ub x => simp [step, e1, e2, him, putPtr, withStore, hcl, Failed] at hf
          | ok s'' =>
            simp only [step, e1, e2, him, putPtr, withStore, hcl, if_true]
            have h2 := h1.put (k := k) (s := s') (by simp [update]) s''
            have e5 : update (update A k s') k s'' = update A k s'' := by
              funext k'; simp only [update]; split <;> rfl
            rw [e5] at h2
            refine ⟨_, ⟨rfl, elements, s, s', s'', rfl, hs, hsv, rfl, ?_, ?_⟩, h2⟩
            · intro hc; cases hc
            · intro _; cases t <;> exact hcl
  | tile q =>
    cases hv : visit (searchIfData I q) m with
    | throw x => simp [step, hv, Failed] at hf
    | ub x => simp [step, hv, Failed] at hf
    | ok r =>
      obtain ⟨m', l⟩ := r
      obtain ⟨A', part, i1, i2, i3⟩ := visit_ok h hv
      have hstep : step I m (.tile q) = (m', .elements l) := by simp [step, hv]
      rw [hstep]
      refine ⟨A', ⟨l, rfl, (m.map Prod.fst).filter (fun k => match A k with | none => false | some s => I.hasData s q),
        h.keys_sorted.filter _, ?_, part, ?_, ?_, ?_⟩, i1⟩
      · intro k
        rw [List.mem_filter, h.key]
        constructor
        · rintro ⟨⟨s, hs⟩, h2⟩; rw [hs] at h2; exact ⟨s, hs, h2⟩
        · rintro ⟨s, hs, h2⟩; exact ⟨⟨s, hs⟩, by rw [hs]; exact h2⟩
      · rw [i2]
        apply flatMap_filter
        intro k hkm hno
        obtain ⟨s, hs⟩ := (h.key k).1 hkm
        obtain ⟨s', h1, -⟩ := (i3 k).1 s hs
        rw [hs] at hno
        simp only [searchIfData, hno] at h1
        simp only [Bool.false_eq_true, if_false, Outcome.ok.injEq, Prod.mk.injEq] at h1
        exact h1.2.symm
      · intro k hkm
        obtain ⟨h1, h2⟩ := List.mem_filter.1 hkm
        obtain ⟨s, hs⟩ := (h.key k).1 h1
        rw [hs] at h2
        obtain ⟨s', h3, h4⟩ := (i3 k).1 s hs
        simp only [searchIfData, h2, if_true] at h3
        exact ⟨s, s', hs, h3, h4⟩
      · intro k hkm
        cases hA : A k with
        | none => exact (i3 k).2 hA
        | some s =>
          obtain ⟨s', h3, h4⟩ := (i3 k).1 s hA
          have hno : I.hasData s q = false := by
            rw [← Bool.not_eq_true]
            intro hd
            exact hkm (List.mem_filter.2 ⟨(h.key k).2 ⟨s, hA⟩, by rw [hA]; exact hd⟩)
          simp only [searchIfData, hno, Bool.false_eq_true, if_false, Outcome.ok.injEq, Prod.mk.injEq] at h3
          rw [h4, h3.1]
  | text t =>
    cases hv : visit (fun s => I.text s t) m with
    | throw x => simp [step, hv, Failed] at hf
    | ub x => simp [step, hv, Failed] at hf
    | ok r =>
      obtain ⟨m', l⟩ := r
      obtain ⟨A', part, i1, i2, i3⟩ := visit_ok h hv
      have hstep : step I m (.text t) = (m', .elements l) := by simp [step, hv]
      rw [hstep]
      refine ⟨A', ⟨l, rfl, m.map Prod.fst, h.keys_sorted, ?_, part, i2, ?_, ?_⟩, i1⟩
      · intro k; rw [h.key]; simp
      · intro k hkm
        obtain ⟨s, hs⟩ := (h.key k).1 hkm
        obtain ⟨s', h3, h4⟩ := (i3 k).1 s hs
        exact ⟨s, s', hs, h3, h4⟩
      · intro k hkm
        cases hA : A k with
        | none => exact (i3 k).2 hA
        | some s => exact absurd ((h.key k).2 ⟨s, hA⟩) hkm
  | hasData q =>
    obtain ⟨b, h1, h2⟩ := anyData_ok (I := I) (q := q) h
    have hstep : step I m (.hasData q) = (m, .flag b) := by simp [step, h1]
    rw [hstep]
    exact ⟨A, ⟨rfl, b, rfl, h2⟩, h⟩

theorem means_keeps {I : Iface S E Q} {A A' : Stores K S} {op : Op K S E Q} {out : Out E} (h : Means I A op A' out) {k : K}
    (hk : ∃ s, A k = some s) : ∃ s, A' k = some s := by
  obtain ⟨s0, hs0⟩ := hk
  have hup : ∀ k' s', ∃ s, update A k' s' k = some s := by
    intro k' s'; unfold update; split
    · exact ⟨_, rfl⟩
    · exact ⟨_, hs0⟩
  cases op with
  | register k' s =>
    obtain ⟨-, rfl⟩ := h
    cases hA : A k' with
    | none => exact hup ..
    | some _ => exact ⟨s0, hs0⟩
  | add k' saves => obtain ⟨-, s, s', -, -, rfl⟩ := h; exact hup ..
  | addFile k' f t c => obtain ⟨-, e, s, s', s'', -, -, -, rfl, -⟩ := h; exact hup ..
  | tile q =>
    obtain ⟨l, -, ks, -, -, part, -, h1, h2⟩ := h
    by_cases hk : k ∈ ks
    · obtain ⟨s, s', -, -, h3⟩ := h1 k hk; exact ⟨s', h3⟩
    · rw [h2 k hk]; exact ⟨s0, hs0⟩
  | text q =>
    obtain ⟨l, -, ks, -, -, part, -, h1, h2⟩ := h
    by_cases hk : k ∈ ks
    · obtain ⟨s, s', -, -, h3⟩ := h1 k hk; exact ⟨s', h3⟩
    · rw [h2 k hk]; exact ⟨s0, hs0⟩
  | hasData q => obtain ⟨rfl, -⟩ := h; exact ⟨s0, hs0⟩

theorem run_history (I : Iface S E Q) (ops : List (Op K S E Q)) {m : Map K S} {A : Stores K S} (h : Abs m A) (ks : List K)
    (hks : ∀ k ∈ ks, ∃ s, A k = some s) (hkey : Keyed ks ops) (hf : ∀ out ∈ (run I m ops).2, ¬ Failed out) :
    History I A ops (run I m ops).2 ∧ ∃ A', Abs (run I m ops).1 A' := by
  induction ops generalizing m A ks with
  | nil => exact ⟨.nil A, A, h⟩
  | cons op ops ih =>
    have hout : ∀ out ∈ (run I (step I m op).1 ops).2, ¬ Failed out := fun o ho => hf o (by simp [run, ho])
    have hthis : ¬ Failed (step I m op).2 := hf _ (by simp [run])
    have hk1 : ∀ k saves, op = .add k saves → ∃ s, A k = some s := by
      rintro k saves rfl; exact hks k hkey.1
    have hk2 : ∀ k f t c, op = .addFile k f t c → ∃ s, A k = some s := by
      rintro k f t c rfl; exact hks k hkey.1
    obtain ⟨A', h1, h2⟩ := step_means I h op hk1 hk2 hthis
    have hold : ∀ k ∈ ks, ∃ s, A' k = some s := fun k hk => means_keeps h1 (hks k hk)
    suffices hrest : History I A' ops (run I (step I m op).1 ops).2 ∧ ∃ A'', Abs (run I (step I m op).1 ops).1 A'' from
      ⟨.cons h1 hrest.1, hrest.2⟩
    cases op with
    | register k s =>
      refine ih h2 (k :: ks) ?_ hkey hout
      intro k' hk'
      rcases List.mem_cons.1 hk' with rfl | hk'
      · obtain ⟨-, rfl⟩ := h1
        cases hA : A k' with
        | none => exact ⟨s, by simp [update]⟩
        | some t => exact ⟨t, hA⟩
      · exact hold k' hk'
    | add k saves => exact ih h2 ks hold hkey.2 hout
    | addFile k f t c => exact ih h2 ks hold hkey.2 hout
    | tile q => exact ih h2 ks hold hkey hout
    | text q => exact ih h2 ks hold hkey hout
    | hasData q => exact ih h2 ks hold hkey hout

end GeoStoreProof

open GeoStoreProof

variable {K S E Q : Type} [LinearOrder K]

/-- C20 (partial): in every history whose additions use registered keys and in which no call fails, every call has its meaning: an
addition changes only the store first registered under the key, a search visits each store with data once. Missing: additions
under other keys, which are not rejected (`C20_violated_unregistered`). -/
theorem C20_dispatch_partial (I : Iface S E Q) (ops : List (Op K S E Q)) (hk : Keyed [] ops)
    (hf : ∀ out ∈ (run I init ops).2, ¬ Failed out) : History I (fun _ => none) ops (run I init ops).2 :=
  (run_history I ops ⟨List.Pairwise.nil, by simp [init]⟩ [] (by simp) hk hf).1

/-- The hypothesis `Abs` of the theorems on C21 holds after every such history. -/
theorem C21_reachable (I : Iface S E Q) (ops : List (Op K S E Q)) (hk : Keyed [] ops)
    (hf : ∀ out ∈ (run I init ops).2, ¬ Failed out) : ∃ A, Abs (run I init ops).1 A :=
  (run_history I ops (A := fun _ => none) ⟨List.Pairwise.nil, by simp [init]⟩ [] (by simp) hk hf).2

/-- C20 is violated: adding an element under a key which is not registered is undefined behaviour, whatever else is registered; an
import of a file without elements, or of a file of an unsupported format, leaves a null pointer in the map, so that the next
text search (and every search or `hasData` which reaches it) is undefined behaviour. -/
theorem C20_violated_unregistered (I : Iface S E Q) (k : K) (saves : List (QuadKey × E)) (target : Target) (t : Q) (q : QuadKey) :
    (run I init [.add k saves]).2 = [.failed (.ub "null store")] ∧
    (run I init [.addFile k (some []) target false, .text t, .tile q, .hasData q]).2 =
      [.done, .failed (.ub "null store"), .failed (.ub "null store"), .failed (.ub "null store")] ∧
    (run I init [.addFile k none target false, .text t]).2 =
      [.failed (.throw "domain_error"), .failed (.ub "null store")] := by
  refine ⟨?_, ?_, ?_⟩ <;>
    simp [run, step, init, subscript, emplace, pointer, withStore, importFile, putPtr, visit, anyData, forget]

/-! ## C21 -/

/-- All saves of an import go to the tile: this is what `C19_store_in_tile_partial` proves for imports into a tile. -/
def OnlyIn (q : QuadKey) (elements : List (List (QuadKey × E))) : Prop := ∀ saves ∈ elements, ∀ x ∈ saves, x.1 = q

theorem mem_saved {tokens : E → List UInt32} {s s' : MemStore.Store E} {l : List (QuadKey × E)}
    (h : Saved (memIface tokens) s l s') {q' : QuadKey} (hq : ∀ x ∈ l, x.1 ≠ q') :
    s'.elements.find q' = s.elements.find q' ∧ s'.bitmaps.find q' = s.bitmaps.find q' := by
  induction h with
  | nil => exact ⟨rfl, rfl⟩
  | @cons s s1 s2 q e l h1 _ ih =>
    obtain ⟨i1, i2⟩ := ih (fun x hx => hq x (by simp [hx]))
    have hne : q ≠ q' := hq (q, e) (by simp)
    simp only [memIface, MemStore.save] at h1
    split at h1
    · cases h1
    · simp only [Outcome.ok.injEq] at h1
      subst h1
      rw [i1, i2]
      simp only [Assoc.find_set]
      constructor <;> rw [if_neg hne.symm]

/-- What a caller can ask an in-memory store about a tile. -/
def SameTile (s s' : MemStore.Store E) (q : QuadKey) : Prop :=
  (∀ c, MemStore.searchTile s q c = MemStore.searchTile s' q c) ∧ MemStore.hasData s q = MemStore.hasData s' q ∧
  ∀ terms, MemStore.searchTextTile s terms q = MemStore.searchTextTile s' terms q

theorem sameTile {s s' : MemStore.Store E} {q : QuadKey} (h1 : s.elements.find q = s'.elements.find q)
    (h2 : s.bitmaps.find q = s'.bitmaps.find q) : SameTile s s' q := by
  refine ⟨fun c => ?_, ?_, fun terms => ?_⟩
  · simp only [MemStore.searchTile, h1]
  · simp only [MemStore.hasData, h1]
  · simp only [MemStore.searchTextTile, MemStore.hasData, MemStore.Store.tile, h1, h2]
    rfl

/-- C21 (partial): after a cancelled import into a tile, every other key and every other tile of the in-memory store is as before; the
tile itself is empty, so nothing of the import is visible, and if it had no data before it is as before, too. Missing: data
the tile had before, which is lost (`C21_violated_tile_lost`), and imports with a lod range (`C21_violated_range`). -/
theorem C21_cancelled_tile_partial (tokens : E → List UInt32) (m : Map K (MemStore.Store E)) (A : Stores K (MemStore.Store E))
    (hm : Abs m A) (k : K) (s : MemStore.Store E) (hk : A k = some s) (q : QuadKey) (elements : List (List (QuadKey × E)))
    (ho : OnlyIn q elements) (hf : ¬ Failed (step (memIface tokens) m (.addFile k (some elements) (.tile q) true)).2) :
    ∃ A' s', Abs (step (memIface tokens) m (.addFile k (some elements) (.tile q) true)).1 A' ∧
      (∀ k', k' ≠ k → A' k' = A k') ∧ A' k = some s' ∧
      (∀ q', q' ≠ q → SameTile s s' q') ∧ MemStore.hasData s' q = false ∧ MemStore.searchTile s' q none = [] ∧
      (MemStore.hasData s q = false → SameTile s s' q) := by
  obtain ⟨A', ⟨-, el, s0, s1, s2, h1, h2, h3, rfl, -, h5⟩, h6⟩ := step_means (memIface tokens) hm
    (.addFile k (some elements) (.tile q) true) (by simp) (by rintro k' f t c h; cases h; exact ⟨s, hk⟩) hf
  cases h1
  rw [hk] at h2
  cases h2
  have h5 := h5 rfl
  simp only [memIface, Outcome.ok.injEq] at h5
  subst h5
  have hne : (MemStore.erase s1 q).elements.find q = none := by simp [MemStore.erase, Assoc.find_erase]
  refine ⟨_, MemStore.erase s1 q, h6, ?_, ?_, ?_, ?_, ?_, ?_⟩
  · intro k' hne; simp [update, hne]
  · simp [update]
  · intro q' hq'
    have := mem_saved h3 (q' := q') (by
      intro x hx
      obtain ⟨l, hl, hx⟩ := List.mem_flatten.1 hx
      rw [ho l hl x hx]; exact hq'.symm)
    apply sameTile
    · simp [MemStore.erase, Assoc.find_erase, hq', this.1]
    · simp [MemStore.erase, Assoc.find_erase, hq', this.2]
  · simp [MemStore.hasData, hne]
  · simp [MemStore.searchTile, hne]
  · intro hno
    have hs : s.elements.find q = none := by simpa [MemStore.hasData] using hno
    refine ⟨fun c => ?_, ?_, fun terms => ?_⟩
    · simp [MemStore.searchTile, hne, hs]
    · simp [MemStore.hasData, hne, hs]
    · simp [MemStore.searchTextTile, MemStore.hasData, hne, hs]

/-- The hypothesis `OnlyIn` holds for imports into a tile: the elements of the file are stored by `ElementStore::store(element,
quadKey, ..)`. -/
theorem C21_import_only_in_tile (eng : Clipper.Engine) (style : Clipper.El → ℤ → ElementStore.StyleInfo) (q : QuadKey) (hq : TilesSpec.Valid q)
    (es : List Clipper.El) (hes : ∀ e ∈ es, ElementStoreSpec.Located e) (states : List ElementStore.State)
    (hs : es.map (fun e => ElementStore.storeInTile eng (style e) e q) = states.map .ok) :
    OnlyIn q (states.map ElementStore.State.saves) := by
  intro saves hsv x hx
  obtain ⟨st, hst, rfl⟩ := List.mem_map.1 hsv
  have : Outcome.ok st ∈ es.map (fun e => ElementStore.storeInTile eng (style e) e q) := by
    rw [hs]; exact List.mem_map.2 ⟨st, hst, rfl⟩
  obtain ⟨e, he, heq⟩ := List.mem_map.1 this
  obtain ⟨h1, h2⟩ := C19_store_in_tile_partial eng (style e) e (hes e he) q hq
  by_cases hl : 1 ≤ q.lod ∧ q.lod ≤ 19
  · obtain ⟨s, h3, h4, -⟩ := h1 hl.1 hl.2
    rw [h3] at heq
    cases heq
    exact ((h4 x.1 x.2).1 hx).1
  · rw [h2 hl] at heq; cases heq

/-- C21 is violated: an element stored earlier in the tile disappears with a cancelled import into it, even one without elements. -/
theorem C21_violated_tile_lost :
    let q : QuadKey := ⟨1, 0, 0⟩
    let r := run (K := Nat) (memIface (E := Nat) fun _ => []) init
      [.register 0 MemStore.init, .add 0 [(q, 5)], .tile q, .addFile 0 (some []) (.tile q) true, .tile q]
    r.2 = [.done, .done, .elements [5], .done, .elements []] := by
  with_unfolding_all rfl

/-- C21 is violated: a cancelled import with a lod range always fails, in both stores of the library, and what was stored before the
cancellation remains visible. -/
theorem C21_violated_range :
    (∀ (tokens : E → List UInt32) (s : MemStore.Store E), (memIface tokens).eraseRange s = .throw "domain_error") ∧
    (∀ (tokens : PersistentStore.El → List UInt32) (g : QuadKey → UInt32) (s : PersistentStore.Store),
      (persistentIface tokens g).eraseRange s = .throw "domain_error") ∧
    (let q : QuadKey := ⟨1, 0, 0⟩
     (run (K := Nat) (memIface (E := Nat) fun _ => []) init
      [.register 0 MemStore.init, .addFile 0 (some [[(q, 5)]]) .range true, .tile q]).2 =
      [.done, .failed (.throw "domain_error"), .elements [5]]) := by
  refine ⟨fun _ _ => rfl, fun _ _ _ => rfl, ?_⟩
  with_unfolding_all rfl

/-- For every store and history: a cancelled import with a lod range into a registered store fails whenever `erase(bbox, range)`
does. -/
theorem C21_range_always_fails (I : Iface S E Q) (hI : ∀ s, I.eraseRange s = .throw "domain_error") (m : Map K S) (A : Stores K S)
    (hm : Abs m A) (k : K) (s : S) (hk : A k = some s) (file : Option (List (List (QuadKey × E)))) :
    Failed (step I m (.addFile k file .range true)).2 := by
  by_contra hf
  obtain ⟨A', ⟨-, el, s0, s1, s2, -, -, -, -, -, h5⟩, -⟩ := step_means I hm
    (.addFile k file .range true) (by simp) (by rintro k' f t c h; cases h; exact ⟨s, hk⟩) hf
  have := h5 rfl
  simp only [hI] at this
  cases this

/-- C21 (partial) for the persistent store: the files of other tiles are untouched and the tile has no files. -/
theorem C21_cancelled_tile_persistent_partial (tokens : PersistentStore.El → List UInt32) (g : QuadKey → UInt32)
    (s s' s'' : PersistentStore.Store) (q : QuadKey) (elements : List (List (QuadKey × PersistentStore.El)))
    (ho : OnlyIn q elements) (h : Saved (persistentIface tokens g) s elements.flatten s')
    (he : (persistentIface tokens g).erase s' q = .ok s'') :
    PersistentStore.hasData s'' q = false ∧ ∀ q', q' ≠ q → s''.disk.find q' = s.disk.find q' := by
  have hopen : ∀ (t : PersistentStore.Store) (q' : QuadKey), q' ≠ q →
      (PersistentStore.openTile t q).2.2.2.find q' = t.disk.find q' := by
    intro t q' hne
    unfold PersistentStore.openTile
    split
    · rfl
    · simp [Assoc.find_set, hne]
  have hsave : ∀ l, (∀ x ∈ l, x.1 = q) → ∀ t t', Saved (persistentIface tokens g) t l t' →
      ∀ q', q' ≠ q → t'.disk.find q' = t.disk.find q' := by
    intro l hl t t' hs q' hne
    induction hs with
    | nil => rfl
    | @cons a b c q0 e l h1 _ ih =>
      have hq0 : q0 = q := hl (q0, e) (by simp)
      subst hq0
      rw [ih (fun x hx => hl x (by simp [hx]))]
      simp only [persistentIface, PersistentStore.save] at h1
      have := hopen a q' hne
      split at h1 <;> first | (cases h1; done) | skip
      all_goals
        split at h1 <;> first | (cases h1; done) | skip
      all_goals
        simp only [Outcome.ok.injEq] at h1
        subst h1
        simp only [Assoc.find_set, hne, if_false]
        exact this
  simp only [persistentIface, Outcome.ok.injEq] at he
  subst he
  refine ⟨?_, ?_⟩
  · simp [PersistentStore.hasData, PersistentStore.erase, Assoc.find_erase]
  · intro q' hne
    simp only [PersistentStore.erase, Assoc.find_erase, hne, if_false]
    rw [hopen _ _ hne]
    exact hsave _ (by
      intro x hx
      obtain ⟨l, hl, hx⟩ := List.mem_flatten.1 hx
      exact ho l hl x hx) _ _ h q' hne

/-- A history with two stores, a second registration under the same key and a search through both: the hypotheses of
`C20_dispatch_partial` are met. -/
example : let q : QuadKey := ⟨1, 0, 0⟩
    let ops : List (Op Nat (MemStore.Store Nat) Nat (BitmapIndex.Terms × (Nat → Bool) × List QuadKey)) :=
      [.register 2 MemStore.init, .register 1 MemStore.init, .add 2 [(q, 5)], .register 2 MemStore.init, .add 1 [(q, 6)],
        .addFile 2 (some [[(q, 7)], [(⟨1, 0, 1⟩, 8)]]) .range false, .tile q, .hasData ⟨1, 1, 1⟩]
    Keyed [] ops ∧ (run (memIface fun _ => []) init ops).2 =
      [.done, .done, .done, .done, .done, .done, .elements [6, 5, 7], .flag false] := by
  refine ⟨?_, ?_⟩
  · simp [Keyed]
  · with_unfolding_all rfl

end Verif.Props
