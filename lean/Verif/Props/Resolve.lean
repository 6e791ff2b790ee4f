import Verif.Proof.Resolve
import Verif.Props.Multipolygon
import Verif.Props.Tags
import Mathlib.Data.List.Sort

/-! # C96: what becomes of the relations of an OSM file -/
namespace Verif.Props
open Verif.Resolve Verif.ResolveSpec

variable {K : Type} [Field K] [LinearOrder K]

namespace ResolveProof
open Verif.ResolveProof
open Classical
set_option linter.unusedSectionVars false

/-! ## All relations -/

def nothing (d : Data K) : Pend K := ⟨fun _ => [], fun j => d.tags (.relation j), fun _ => 0⟩

theorem start_abs (env : Env K) (d : Data K) : start d = abs env d (fun _ => false) (nothing d) := by
  unfold start Verif.ResolveProof.abs
  congr 1
  funext k
  have h : cnt env d (fun _ => false) k = 0 := by simp [cnt]
  rw [h]
  cases k <;> simp [base, nothing]

theorem last_step {R : UInt64 → UInt64 → Prop} {a j : UInt64} (h : Relation.TransGen R a j) : ∃ c, R c j := by
  cases h with
  | single h => exact ⟨_, h⟩
  | tail _ h => exact ⟨_, h⟩

theorem resolveAll_good (env : Env K) (d : Data K) (hd : Fine env d) (ids : List UInt64) (hn : ids.Nodup) (hs : ∀ i ∈ ids, (d.relations.find i).isSome) :
    ∃ N, ∀ n ≥ N, ∀ done, Inv env d done (nothing d) → (∀ j ∈ ids, done j = true → ∃ c, Follows env.getId d c j) →
      ∃ done', resolveAll env d n ids (abs env d done (nothing d)) = .ok (abs env d done' (nothing d)) ∧ (∀ j, done j = true → done' j = true) ∧ ∀ j ∈ ids, done' j = true := by
  induction ids with
  | nil => exact ⟨0, fun n _ done _ _ => ⟨done, rfl, fun _ h => h, by simp⟩⟩
  | cons i ids ih =>
    rw [List.nodup_cons] at hn
    obtain ⟨N, hN⟩ := ih hn.2 fun j hj => hs j (by simp [hj])
    obtain ⟨M, hM⟩ := good env d hd i (hs i (by simp))
    refine ⟨max N M, fun n hnn done hI hr => ?_⟩
    obtain ⟨done', h1, h2, h3, h4, h5⟩ := hM n (by omega) done (nothing d) hI (fun j _ _ => ⟨rfl, rfl⟩) fun hdn => by
      obtain ⟨c, hc⟩ := hr i (by simp) hdn
      exact hd.steady c i hc
    obtain ⟨done'', g1, g2, g3⟩ := hN n (by omega) done' h5 fun j hj hdj => by
      rcases h4 j hdj with h | rfl | h
      · exact hr j (by simp [hj]) h
      · exact absurd hj hn.1
      · exact last_step h
    refine ⟨done'', by rw [resolveAll, h1]; exact g1, fun j hj => g2 j (h2 j hj), fun j hj => ?_⟩
    rcases List.mem_cons.1 hj with rfl | hj
    · exact g2 _ h3
    · exact g3 j hj

/-! ## What relations consist of -/

theorem names_unique {d : Data K} {m : Member} {k k' : Key} (h : Names d m k) (h' : Names d m k') : k = k' := by
  rw [← lookup_iff] at h h'
  rw [h] at h'
  exact Option.some.inj h'

theorem forall_names_unique {d : Data K} {l : List Member} {ks ks' : List Key} (h : List.Forall₂ (Names d) l ks) (h' : List.Forall₂ (Names d) l ks') : ks = ks' := by
  induction h generalizing ks' with
  | nil => cases h'; rfl
  | cons h _ ih =>
    cases h' with
    | cons h1 h2 => rw [names_unique h h1, ih h2]

theorem wantB_spec (d : Data K) (ms : List Member) :
    ∃ ks, List.Forall₂ (Names d) (ms.filter fun m => decide (m.role ≠ "outline" ∧ ∃ k, Names d m k)) ks ∧ wantB d ms = ks.map .old := by
  induction ms with
  | nil => exact ⟨[], .nil, rfl⟩
  | cons m ms ih =>
    obtain ⟨ks, h1, h2⟩ := ih
    unfold wantB at h2 ⊢
    by_cases ho : m.role = "outline"
    · refine ⟨ks, ?_, ?_⟩
      · rw [List.filter_cons_of_neg (by simp [ho])]; exact h1
      · rw [List.filterMap_cons_none (by simp [ho])]; exact h2
    · cases hl : lookup d m with
      | none =>
        have hno : ¬ ∃ k, Names d m k := by
          rintro ⟨k, hk⟩
          rw [← lookup_iff, hl] at hk; cases hk
        refine ⟨ks, ?_, ?_⟩
        · rw [List.filter_cons_of_neg (by simp [hno])]; exact h1
        · rw [List.filterMap_cons_none (by simp [hl])]; exact h2
      | some k =>
        have hk := (lookup_iff d m k).1 hl
        refine ⟨k :: ks, ?_, ?_⟩
        · rw [List.filter_cons_of_pos (by simpa [ho] using ⟨k, hk⟩)]; exact .cons hk h1
        · rw [List.filterMap_cons_some (b := .old k) (by simp [ho, hl]), h2]; rfl

theorem names_id {d : Data K} {m : Member} {k : Key} (h : Names d m k) : k.id = m.refId := lookup_id ((lookup_iff d m k).2 h)

theorem back_names (d : Data K) (a : UInt64) (k : Key) : back d a k = true ↔ NamesBack d a k := by
  cases k with
  | relation r => exact back_iff d a r
  | node i => simp [back, NamesBack]
  | way i => simp [back, NamesBack]
  | area i => simp [back, NamesBack]

theorem already_old (env : Env K) (ks : List Key) (i : UInt64) : alreadyProcessed env (ks.map .old) i = true ↔ i ∈ ks.map Key.id := by
  unfold alreadyProcessed
  rw [List.any_map, List.any_eq_true, List.mem_map]
  constructor
  · rintro ⟨k, hk, h⟩; exact ⟨k, hk, by simpa [Ref.id] using h⟩
  · rintro ⟨k, hk, h⟩; exact ⟨k, hk, by simpa [Ref.id] using h⟩

theorem foldP_spec (env : Env K) (d : Data K) (a : UInt64) (ms : List Member) : ∀ (pre : List Key), (pre.map Key.id).Nodup → (∀ k ∈ pre, ¬ NamesBack d a k) →
    ∃ more, ms.foldl (stepP env d a) (pre.map .old) = (pre ++ more).map .old ∧ (∃ sub, sub.Sublist ms ∧ List.Forall₂ (Names d) sub more) ∧
      ((pre ++ more).map Key.id).Nodup ∧ (∀ k ∈ pre ++ more, ¬ NamesBack d a k) := by
  induction ms with
  | nil => intro pre h1 h2; exact ⟨[], by simp, ⟨[], .slnil, .nil⟩, by simpa using h1, by simpa using h2⟩
  | cons m ms ih =>
    intro pre h1 h2
    rw [List.foldl_cons]
    have skip : stepP env d a (pre.map .old) m = pre.map .old → ∃ more, ms.foldl (stepP env d a) (stepP env d a (pre.map .old) m) = (pre ++ more).map .old ∧
        (∃ sub, sub.Sublist (m :: ms) ∧ List.Forall₂ (Names d) sub more) ∧ ((pre ++ more).map Key.id).Nodup ∧ (∀ k ∈ pre ++ more, ¬ NamesBack d a k) := by
      intro h
      rw [h]
      obtain ⟨more, g1, ⟨sub, g2, g3⟩, g4, g5⟩ := ih pre h1 h2
      exact ⟨more, g1, ⟨sub, g2.cons _, g3⟩, g4, g5⟩
    cases hl : lookup d m with
    | none => exact skip (by simp [stepP, hl])
    | some k =>
      by_cases hc : (alreadyProcessed env (pre.map .old) k.id || back d a k) = true
      · exact skip (by simp only [stepP, hl, hc, if_true])
      · have hs : stepP env d a (pre.map .old) m = (pre ++ [k]).map .old := by simp only [stepP, hl, hc]; simp
        rw [hs]
        rw [Bool.or_eq_true, not_or, already_old, back_names] at hc
        obtain ⟨more, g1, ⟨sub, g2, g3⟩, g4, g5⟩ := ih (pre ++ [k]) (by
          rw [List.map_append, List.nodup_append]
          refine ⟨h1, by simp, ?_⟩
          intro x hx y hy
          simp only [List.map_cons, List.map_nil, List.mem_singleton] at hy
          rw [hy]; rintro rfl; exact hc.1 hx) (by
          intro x hx
          rcases List.mem_append.1 hx with h | h
          · exact h2 x h
          · rw [List.mem_singleton] at h; rw [h]; exact hc.2)
        rw [List.append_assoc] at g1 g4 g5
        exact ⟨k :: more, g1, ⟨m :: sub, g2.cons_cons _, .cons ((lookup_iff d m k).1 hl) g3⟩, g4, g5⟩

theorem wantP_spec (env : Env K) (d : Data K) (a : UInt64) (ms : List Member) :
    ∃ ks, (∃ sub, sub.Sublist ms ∧ List.Forall₂ (Names d) sub ks) ∧ (ks.map Key.id).Nodup ∧ (∀ k ∈ ks, ¬ NamesBack d a k) ∧
      (∀ m ∈ ms, ∀ k, Names d m k → ¬ NamesBack d a k → m.refId ∈ ks.map Key.id) ∧ wantP env d a ms = ks.map .old := by
  obtain ⟨ks, h1, h2, h3, h4⟩ := foldP_spec env d a ms [] (by simp) (by simp)
  rw [List.nil_append] at h1 h3 h4
  refine ⟨ks, h2, h3, h4, fun m hm k hk hb => ?_, h1⟩
  have := covers env d a ms [] m hm k ((lookup_iff d m k).2 hk)
  have h1' : ms.foldl (stepP env d a) [] = ks.map .old := h1
  rw [h1', Bool.or_eq_true, already_old, back_names] at this
  rw [← names_id hk]
  exact this.resolve_right hb

theorem consists_want (env : Env K) (d : Data K) (hd : Fine env d) {a : UInt64} {own : List Tag} {ms : List Member} (hf : d.relations.find a = some (own, ms)) :
    Consists env d a own ms (want env d a) := by
  unfold Consists
  simp only [want, hf]
  by_cases hM : IsKind env.getId own .multipolygon
  · obtain ⟨areas, h⟩ := hd.assembled a own ms hf hM
    have h' := (areas_iff env d ms areas).1 h
    exact .inl ⟨hM, areas, h, by simp only [hM, if_true, wantM, h']⟩
  · by_cases hB : IsKind env.getId own .building
    · obtain ⟨ks, h1, h2⟩ := wantB_spec d ms
      exact .inr (.inl ⟨hB, ks, h1, by simp only [hM, hB, if_true, if_false, h2]⟩)
    · have hP := ((kind_cases env.getId own).resolve_left hM).resolve_left hB
      obtain ⟨ks, h1, h2, h3, h4, h5⟩ := wantP_spec env d a ms
      exact .inr (.inr ⟨hP, ks, h1, h2, h3, h4, by simp only [hM, hB, if_false, h5]⟩)

theorem want_of_consists (env : Env K) (d : Data K) {a : UInt64} {own : List Tag} {ms : List Member} (hf : d.relations.find a = some (own, ms)) {refs : List (Ref K)}
    (h : Consists env d a own ms refs) : IsKind env.getId own .plain ∨ want env d a = refs := by
  rcases h with ⟨hM, areas, h, rfl⟩ | ⟨hB, ks, h, rfl⟩ | ⟨hP, -⟩
  · right
    rw [areas_iff] at h
    simp only [want, hf, hM, if_true, wantM, h]
  · right
    have hM : ¬ IsKind env.getId own .multipolygon := hB.1
    obtain ⟨ks', h1, h2⟩ := wantB_spec d ms
    rw [forall_names_unique h h1, ← h2]
    simp only [want, hf, hM, hB, if_true, if_false]
  · exact .inl hP

/-! ## Tags -/

theorem mergeAll_spec (env : Env K) (hs : OsmSpec.Sorts env.sort) (d : Data K) (ms : List Member) : ∀ t : List Tag, t.Pairwise (fun a b => a.key < b.key) →
    (mergeAll env d ms t).Pairwise (fun a b => a.key < b.key) ∧ (∀ x ∈ mergeAll env d ms t, x ∈ t ∨ ∃ i, OuterArea d ms i ∧ x ∈ d.tags (.area i)) ∧
    (∀ x ∈ t, ∃ u ∈ mergeAll env d ms t, u.key = x.key) ∧
    (Complete d ms → ∀ i, OuterArea d ms i → ∀ x ∈ d.tags (.area i), ∃ u ∈ mergeAll env d ms t, u.key = x.key) := by
  induction ms with
  | nil => intro t ht; exact ⟨ht, fun x hx => .inl hx, fun x hx => ⟨x, hx, rfl⟩, fun _ i hi => by obtain ⟨m, hm, _⟩ := hi; cases hm⟩
  | cons m ms ih =>
    intro t ht
    have weak : ∀ i, OuterArea d ms i → OuterArea d (m :: ms) i := by
      rintro i ⟨m', hm', h⟩; exact ⟨m', List.mem_cons_of_mem _ hm', h⟩
    have hcomp : Complete d (m :: ms) → Complete d ms := fun h m' hm' => h m' (List.mem_cons_of_mem _ hm')
    -- the step does nothing
    have skip : (∀ i, OuterArea d (m :: ms) i → OuterArea d ms i) →
        (mergeAll env d ms t).Pairwise (fun a b => a.key < b.key) ∧ (∀ x ∈ mergeAll env d ms t, x ∈ t ∨ ∃ i, OuterArea d (m :: ms) i ∧ x ∈ d.tags (.area i)) ∧
        (∀ x ∈ t, ∃ u ∈ mergeAll env d ms t, u.key = x.key) ∧
        (Complete d (m :: ms) → ∀ i, OuterArea d (m :: ms) i → ∀ x ∈ d.tags (.area i), ∃ u ∈ mergeAll env d ms t, u.key = x.key) := by
      intro h
      obtain ⟨g1, g2, g3, g4⟩ := ih t ht
      refine ⟨g1, fun x hx => (g2 x hx).imp_right ?_, g3, fun hc i hi => g4 (hcomp hc) i (h i hi)⟩
      rintro ⟨i, hi, hx⟩; exact ⟨i, weak i hi, hx⟩
    have only : ∀ {i}, OuterArea d (m :: ms) i → ¬ (m.type = "w" ∧ m.role = "outer" ∧ d.ctx.wayMap.find m.refId = none ∧ (d.ctx.areaMap.find m.refId).isSome) → OuterArea d ms i := by
      rintro i ⟨m', hm', h1, h2, rfl, h4, h5⟩ hne
      rcases List.mem_cons.1 hm' with rfl | hm'
      · exact absurd ⟨h1, h2, h4, h5⟩ hne
      · exact ⟨m', hm', h1, h2, rfl, h4, h5⟩
    unfold mergeAll
    by_cases hw : m.type = "w"
    · simp only [hw, if_true]
      rcases found_cases d m.refId with ⟨w, hw1, hf1⟩ | ⟨hw1, x, ha1, hf1⟩ | ⟨hw1, ha1, hr1, hf1⟩ | ⟨hw1, ha1, hr1, hf1⟩
      · simp only [hf1]; exact skip fun i hi => only hi (by simp [hw1])
      · simp only [hf1]
        by_cases ho : m.role = "outer"
        · simp only [ho, if_true]
          obtain ⟨c1, c2, c3⟩ := C37_merge env.sort hs t (d.tags (.area m.refId))
          obtain ⟨g1, g2, g3, g4⟩ := ih _ c1
          have hself : OuterArea d (m :: ms) m.refId := ⟨m, by simp, hw, ho, rfl, hw1, by rw [ha1]; rfl⟩
          refine ⟨g1, fun y hy => ?_, fun y hy => ?_, fun hc i hi y hy => ?_⟩
          · rcases g2 y hy with h | ⟨i, hi, h⟩
            · rcases c2 y h with h | h
              · exact .inl h
              · exact .inr ⟨_, hself, h⟩
            · exact .inr ⟨i, weak i hi, h⟩
          · obtain ⟨u, hu, he⟩ := c3 y (.inl hy)
            obtain ⟨v, hv, he'⟩ := g3 u hu
            exact ⟨v, hv, he'.trans he⟩
          · by_cases hi' : i = m.refId
            · subst hi'
              obtain ⟨u, hu, he⟩ := c3 y (.inr hy)
              obtain ⟨v, hv, he'⟩ := g3 u hu
              exact ⟨v, hv, he'.trans he⟩
            · refine g4 (hcomp hc) i ?_ y hy
              obtain ⟨m', hm', h1, h2, h3, h4⟩ := hi
              rcases List.mem_cons.1 hm' with rfl | hm'
              · exact absurd h3.symm hi'
              · exact ⟨m', hm', h1, h2, h3, h4⟩
        · simp only [ho, if_false]; exact skip fun i hi => only hi (by simp [ho])
      · simp only [hf1]; exact skip fun i hi => only hi (by simp [ha1])
      · simp only [hf1]
        refine ⟨ht, fun x hx => .inl hx, fun x hx => ⟨x, hx, rfl⟩, fun hc => ?_⟩
        have := hc m (by simp) hw
        simp [hw1, ha1, hr1] at this
    · simp only [hw, if_false]; exact skip fun i hi => only hi (by simp [hw])

theorem tagged_merged (env : Env K) (hs : OsmSpec.Sorts env.sort) (d : Data K) {a : UInt64} {own : List Tag} {ms : List Member} (hf : d.relations.find a = some (own, ms)) :
    Tagged env d own ms (merged env d a) := by
  unfold Tagged
  simp only [merged, hf]
  by_cases h : IsKind env.getId own .multipolygon ∧ own.length < 2
  · right
    rw [if_pos h]
    have ht : own.Pairwise (fun a b => a.key < b.key) := by
      match own, h.2 with
      | [], _ => exact .nil
      | [t], _ => simp
    exact ⟨h, mergeAll_spec env hs d ms own ht⟩
  · left
    rw [if_neg h]
    exact ⟨h, rfl⟩

/-! ## Elements -/

theorem each_ok {I A B : Type} {P : I → Prop} {f : I → A → Outcome B} {R : A → B → Prop} (l : List A) (h : ∀ a ∈ l, ∃ b, R a b ∧ ∀ i, P i → f i a = .ok b) :
    ∃ bs, List.Forall₂ R l bs ∧ ∀ i, P i → each (f i) l = .ok bs := by
  induction l with
  | nil => exact ⟨[], .nil, fun _ _ => rfl⟩
  | cons a l ih =>
    obtain ⟨b, h1, h2⟩ := h a (by simp)
    obtain ⟨bs, g1, g2⟩ := ih fun x hx => h x (by simp [hx])
    exact ⟨b :: bs, .cons h1 g1, fun i hi => by simp [each, h2 i hi, g2 i hi, Outcome.bind]⟩

/-- The state when all relations are resolved. -/
structure Final (env : Env K) (d : Data K) (s : State K) : Prop where
  elements : ∀ a, (d.relations.find a).isSome → s.elements a = want env d a
  tags : ∀ a, (d.relations.find a).isSome → s.tags (.relation a) = merged env d a ++ marks env.getId d (.relation a)
  rest : ∀ k, (∀ a, k ≠ .relation a) → s.tags k = d.tags k ++ marks env.getId d k

theorem child_cases (env : Env K) (d : Data K) {a : UInt64} {own : List Tag} {ms : List Member} (hf : d.relations.find a = some (own, ms)) {r : Ref K}
    (hr : r ∈ want env d a) : (∃ x, r = .new x) ∨ (∃ k, r = .old k ∧ (∃ m, Names d m k) ∧ ∀ b, k = .relation b → Follows env.getId d a b) := by
  simp only [want, hf] at hr
  by_cases hM : IsKind env.getId own .multipolygon
  · left
    simp only [hM, if_true, wantM] at hr
    split at hr
    · obtain ⟨x, -, rfl⟩ := List.mem_map.1 hr; exact ⟨x, rfl⟩
    · cases hr
  · right
    by_cases hB : IsKind env.getId own .building
    · simp only [hM, hB, if_true, if_false, wantB, List.mem_filterMap] at hr
      obtain ⟨m, hm, h⟩ := hr
      split at h
      · cases h
      · cases hl : lookup d m with
        | none => rw [hl] at h; cases h
        | some k =>
          rw [hl] at h
          cases h
          refine ⟨k, rfl, ⟨m, (lookup_iff d m k).1 hl⟩, ?_⟩
          rintro b rfl
          obtain ⟨h1, h2, h3, h4⟩ := lookup_relation hl
          exact ⟨own, ms, m, hf, hm, h3, h4, .inr (.inl ⟨hB, h1, h2⟩)⟩
    · have hP := ((kind_cases env.getId own).resolve_left hM).resolve_left hB
      obtain ⟨ks, ⟨sub, hsub, h1⟩, -, h3, -, h5⟩ := wantP_spec env d a ms
      simp only [hM, hB, if_false, h5] at hr
      obtain ⟨k, hk, rfl⟩ := List.mem_map.1 hr
      obtain ⟨m, hm, hnm⟩ : ∃ m ∈ sub, Names d m k := by
        clear h3 h5 hr hsub
        induction h1 with
        | nil => cases hk
        | cons h _ ih =>
          rcases List.mem_cons.1 hk with rfl | hk
          · exact ⟨_, by simp, h⟩
          · obtain ⟨m, hm, h⟩ := ih hk; exact ⟨m, by simp [hm], h⟩
      refine ⟨k, rfl, ⟨m, hnm⟩, ?_⟩
      rintro b rfl
      obtain ⟨h1, h2, h4, h5⟩ := lookup_relation ((lookup_iff d m _).2 hnm)
      exact ⟨own, ms, m, hf, hsub.subset hm, h4, h5, .inr (.inr ⟨hP, h1, h2, h3 _ hk⟩)⟩

def Delivered0 (env : Env K) (d : Data K) (k : Key) : Prop :=
  ∃ e, Becomes env d (.old k) e ∧ ∀ n, ∀ s, Final env d s → element env d s n (.old k) = .ok e

/-- What is handed on for an element, once the stack is deep enough. -/
def Delivered (env : Env K) (d : Data K) (k : Key) : Prop :=
  ∃ e, Becomes env d (.old k) e ∧ ∃ N, ∀ n ≥ N, ∀ s, Final env d s → element env d s n (.old k) = .ok e

theorem node_ok (env : Env K) (d : Data K) {i : UInt64} (h : (d.ctx.nodeMap.find i).isSome) : Delivered0 env d (.node i) := by
  obtain ⟨x, hx⟩ := Option.isSome_iff_exists.1 h
  refine ⟨.node i (x.tags ++ marks env.getId d (.node i)) x.coordinate, .node hx, fun n s hF => ?_⟩
  cases n <;> simp [element, hx, hF.rest (.node i) (by simp), Data.tags]

theorem way_ok (env : Env K) (d : Data K) {i : UInt64} (h : (d.ctx.wayMap.find i).isSome) : Delivered0 env d (.way i) := by
  obtain ⟨x, hx⟩ := Option.isSome_iff_exists.1 h
  refine ⟨.way i (x.tags ++ marks env.getId d (.way i)) x.coordinates, .way hx, fun n s hF => ?_⟩
  cases n <;> simp [element, hx, hF.rest (.way i) (by simp), Data.tags]

theorem area_ok (env : Env K) (d : Data K) {i : UInt64} (h : (d.ctx.areaMap.find i).isSome) : Delivered0 env d (.area i) := by
  obtain ⟨x, hx⟩ := Option.isSome_iff_exists.1 h
  refine ⟨.area i (x.tags ++ marks env.getId d (.area i)) x.coordinates, .area hx, fun n s hF => ?_⟩
  cases n <;> simp [element, hx, hF.rest (.area i) (by simp), Data.tags]

theorem relation_ok {env : Env K} (hs : OsmSpec.Sorts env.sort) {d : Data K} (hd : Fine env d) (a : UInt64) (ha : (d.relations.find a).isSome) :
    Delivered env d (.relation a) := by
  induction a using (wf hd.acyclic).induction with
  | _ a ih =>
    obtain ⟨⟨own, ms⟩, hf⟩ := Option.isSome_iff_exists.1 ha
    have ih' : ∀ b, Follows env.getId d a b → Delivered env d (.relation b) := fun b hb => ih b hb (by obtain ⟨_, _, _, _, _, rfl, h, _⟩ := hb; exact h)
    choose f hf1 hf2 using ih'
    obtain ⟨N, hN⟩ := bound (R := Follows env.getId d a) (Q := fun b n => ∀ hb : Follows env.getId d a b, ∀ s, Final env d s → element env d s n (.old (.relation b)) = .ok (f b hb)) ms
      fun b hb => by
        obtain ⟨M, hM⟩ := hf2 b hb
        exact ⟨M, fun n hn _ s hF => hM n hn s hF⟩
    obtain ⟨es, h1, h2⟩ := each_ok (I := Nat × State K) (P := fun i => N ≤ i.1 ∧ Final env d i.2) (f := fun i => element env d i.2 i.1) (R := Becomes env d) (want env d a) fun r hr => by
      rcases child_cases env d hf hr with ⟨x, rfl⟩ | ⟨key, rfl, ⟨m, hm⟩, hfl⟩
      · refine ⟨_, .new (i := Ref.id env (.new x)) fun j hj => by simp [Ref.id, hj], fun i _ => ?_⟩
        cases i.1 <;> rw [element]
      · have leaf : Delivered0 env d key → ∃ b, Becomes env d (.old key) b ∧ ∀ i : Nat × State K, (N ≤ i.1 ∧ Final env d i.2) → element env d i.2 i.1 (.old key) = .ok b := by
          rintro ⟨e, h1, h2⟩
          exact ⟨e, h1, fun i hi => h2 _ _ hi.2⟩
        rcases hm with ⟨-, rfl, h⟩ | ⟨-, rfl, h⟩ | ⟨-, rfl, -, h⟩ | ⟨-, -, rfl, h⟩
        · exact leaf (node_ok env d h)
        · exact leaf (area_ok env d h)
        · exact leaf (way_ok env d h)
        · have hab := hfl _ rfl
          obtain ⟨own', ms', m', hf', hm', he, -⟩ := id hab
          rw [hf] at hf'; cases hf'
          refine ⟨f m.refId hab, hf1 _ hab, fun i hi => ?_⟩
          have := hN m' hm'
          rw [he] at this
          exact this hab i.1 hi.1 hab i.2 hi.2
    refine ⟨_, .relation hf (tagged_merged env hs d hf) (consists_want env d hd hf) h1, N + 1, fun n hn s hF => ?_⟩
    obtain ⟨k, rfl⟩ : ∃ k, n = k + 1 := ⟨n - 1, by omega⟩
    rw [element, hF.elements a ha, h2 (k, s) ⟨by simp; omega, hF⟩, Outcome.bind, hF.tags a ha]

theorem find_isSome {V : Type} {l : Assoc UInt64 V} {k : UInt64} (h : k ∈ l.map (·.1)) : (Assoc.find l k).isSome := by
  induction l with
  | nil => cases h
  | cons p l ih =>
    obtain ⟨k', v⟩ := p
    rw [Assoc.find]
    split
    · rfl
    · rename_i hne
      rw [List.map_cons, List.mem_cons] at h
      rcases h with h | h
      · simp_all
      · exact ih h

theorem Delivered0.delivered {env : Env K} {d : Data K} {k : Key} (h : Delivered0 env d k) : Delivered env d k := by
  obtain ⟨e, h1, h2⟩ := h
  exact ⟨e, h1, 0, fun n _ => h2 n⟩

theorem key_ok {env : Env K} (hs : OsmSpec.Sorts env.sort) {d : Data K} (hd : Fine env d) (k : Key) (hk : k ∈ All d) : Delivered env d k := by
  unfold All at hk
  rw [List.mem_append, List.mem_append, List.mem_append] at hk
  rcases hk with ((hk | hk) | hk) | hk
  · obtain ⟨r, hr, rfl⟩ := List.mem_map.1 hk
    exact relation_ok hs hd r.1 (find_isSome (List.mem_map_of_mem hr))
  · obtain ⟨r, hr, rfl⟩ := List.mem_map.1 hk
    exact (node_ok env d (find_isSome (List.mem_map_of_mem hr))).delivered
  · obtain ⟨r, hr, rfl⟩ := List.mem_map.1 hk
    exact (way_ok env d (find_isSome (List.mem_map_of_mem hr))).delivered
  · obtain ⟨r, hr, rfl⟩ := List.mem_map.1 hk
    exact (area_ok env d (find_isSome (List.mem_map_of_mem hr))).delivered

theorem keys_ok {env : Env K} (hs : OsmSpec.Sorts env.sort) {d : Data K} (hd : Fine env d) (l : List Key) (hl : ∀ k ∈ l, k ∈ All d) :
    ∃ es, List.Forall₂ (fun k e => Becomes env d (.old k) e) l es ∧ ∃ N, ∀ n ≥ N, ∀ s, Final env d s → each (fun k => element env d s n (.old k)) l = .ok es := by
  induction l with
  | nil => exact ⟨[], .nil, 0, fun _ _ _ _ => rfl⟩
  | cons k l ih =>
    obtain ⟨es, h1, N, hN⟩ := ih fun x hx => hl x (by simp [hx])
    obtain ⟨e, h2, M, hM⟩ := key_ok hs hd k (hl k (by simp))
    refine ⟨e :: es, .cons h2 h1, max N M, fun n hn s hF => ?_⟩
    simp [each, hM n (by omega) s hF, hN n (by omega) s hF, Outcome.bind]

theorem cnt_all (env : Env K) (d : Data K) {done : UInt64 → Bool} (h : ∀ j ∈ d.relations.map (·.1), done j = true) (k : Key) : cnt env d done k = times env.getId d k := by
  unfold cnt times
  congr 1
  apply List.map_congr_left
  intro r hr
  rw [if_pos (h r.1 (List.mem_map_of_mem hr)), marksOf]
  split
  · apply List.countP_congr
    intro m _
    simp [lookup_iff]
  · rfl

theorem final_abs (env : Env K) (d : Data K) {done : UInt64 → Bool} (h : ∀ j ∈ d.relations.map (·.1), done j = true) : Final env d (abs env d done (nothing d)) := by
  have hd : ∀ a, (d.relations.find a).isSome → done a = true := by
    intro a ha
    obtain ⟨v, hv⟩ := Option.isSome_iff_exists.1 ha
    exact h a (List.mem_map_of_mem (f := (·.1)) (find_mem hv))
  refine ⟨fun a ha => by simp [hd a ha], fun a ha => ?_, fun k hk => ?_⟩
  · simp only [Verif.ResolveProof.abs, base, hd a ha, if_true, cnt_all env d h, nothing, Nat.add_zero]; rfl
  · rw [show (Verif.ResolveProof.abs env d done (nothing d)).tags k = base env d done (nothing d) k ++ List.replicate (cnt env d done k + 0) marker from rfl]
    have : base env d done (nothing d) k = d.tags k := by
      cases k with
      | relation a => exact absurd rfl (hk a)
      | node i => rfl
      | way i => rfl
      | area i => rfl
    rw [this, cnt_all env d h, Nat.add_zero]; rfl

theorem fine {env : Env K} {d : Data K} (h : Sound env d) : Fine env d where
  nodup := h.relations
  acyclic := h.acyclic
  tags a own ms hf := h.tags _ (find_mem hf)
  strings := h.strings
  assembled a own ms hf := h.assembled _ (find_mem hf)
  steady a b hab own ms hf := by
    rcases h.steady a b own ms hab hf with h | ⟨refs, h1, h2⟩
    · exact .inl h
    · exact (want_of_consists env d hf h1).imp_right fun he => by rw [he]; exact h2
  unmixed a own ms hf := h.unmixed _ (find_mem hf)

theorem times_pos (getId : String → UInt32) (d : Data K) (hn : (d.relations.map (·.1)).Nodup) (k : Key) : 0 < times getId d k ↔ PartOfBuilding getId d k := by
  unfold times PartOfBuilding
  rw [Nat.pos_iff_ne_zero, ne_eq, List.sum_eq_zero_iff]
  push Not
  constructor
  · rintro ⟨x, hx, hne⟩
    obtain ⟨⟨i, own, ms⟩, hr, rfl⟩ := List.mem_map.1 hx
    split_ifs at hne with hb
    · rw [← Nat.pos_iff_ne_zero, List.countP_pos_iff] at hne
      obtain ⟨m, hm, hk⟩ := hne
      exact ⟨i, own, ms, find_of_mem hn hr, hb, m, hm, of_decide_eq_true hk⟩
    · exact absurd rfl hne
  · rintro ⟨i, own, ms, hf, hb, m, hm, hk⟩
    refine ⟨_, List.mem_map_of_mem (find_mem hf), ?_⟩
    rw [if_pos hb, ← Nat.pos_iff_ne_zero, List.countP_pos_iff]
    exact ⟨m, hm, decide_eq_true hk⟩

theorem nodup_all {env : Env K} {d : Data K} (h : Sound env d) : (All d).Nodup := by
  have inj : ∀ {V : Type} (l : Assoc UInt64 V) (f : UInt64 → Key), Function.Injective f → (l.map (·.1)).Nodup → (l.map fun r => f r.1).Nodup := by
    intro V l f hf hn
    have := hn.map hf
    rwa [List.map_map] at this
  unfold All
  simp only [List.nodup_append]
  refine ⟨⟨⟨inj _ .relation (fun _ _ h => by cases h; rfl) h.relations, inj _ .node (fun _ _ h => by cases h; rfl) h.nodes, ?_⟩,
    inj _ .way (fun _ _ h => by cases h; rfl) h.ways, ?_⟩, inj _ .area (fun _ _ h => by cases h; rfl) h.areas, ?_⟩
  all_goals
    simp only [List.mem_append, List.mem_map]
    grind

end ResolveProof
open _root_.Verif.Props.ResolveProof

/-- C96: when all nodes, ways and relations of a file are read, exactly one element is handed on for each of them, whatever the order in which the relations are resolved: nodes and
ways with their tags and places; relations with the elements they name, or with the areas which are assembled from their lines; and whatever a building relation names has a mark
for each time it is named. Partial: what `Sound` excludes, see `C96_violated_order`, `C35_violated_cycle` and `C35_violated_twice`; the stack must be deep enough. -/
theorem C96_relations_partial (env : Env K) (hs : OsmSpec.Sorts env.sort) (d : Data K) (hd : Sound env d) :
    (All d).Nodup ∧ ∃ es, List.Forall₂ (fun k e => Becomes env d (.old k) e) (All d) es ∧
      ∀ ids : List UInt64, ids.Perm (d.relations.map (·.1)) → ∃ N, ∀ n ≥ N, complete env d n ids = .ok es := by
  have hf := fine hd
  refine ⟨nodup_all hd, ?_⟩
  obtain ⟨es, g1, M, hM⟩ := keys_ok hs hf (All d) fun _ h => h
  refine ⟨es, g1, fun ids hp => ?_⟩
  obtain ⟨N, hN⟩ := resolveAll_good env d hf ids (hp.nodup_iff.2 hd.relations) fun i hi => find_isSome (hp.mem_iff.1 hi)
  refine ⟨max N M, fun n hn => ?_⟩
  obtain ⟨done, h1, -, h3⟩ := hN n (by omega) (fun _ => false) ⟨by simp, by simp [nothing], by simp [nothing]⟩ (by simp)
  unfold complete
  rw [start_abs env d, h1]
  exact hM n (by omega) _ (final_abs env d (done := done) fun j hj => h3 j (hp.mem_iff.2 hj))

/-- C96: the elements which building relations name, and only these, are hidden: they are drawn as parts of the building, not by themselves (BuildingBuilder.cpp:359-367). -/
theorem C96_hidden (env : Env K) (d : Data K) (hn : (d.relations.map (·.1)).Nodup)
    (ht : ∀ k, ((d.tags k).map Tag.key).Pairwise (· ≤ ·) ∧ ∀ t ∈ d.tags k, t.key < 0xFFFFFFFF) (k : Key) (e : Element (Geo K)) (h : Becomes env d (.old k) e) :
    (Building.hasIgnore e.tags = true ↔ PartOfBuilding env.getId d k) ∧
    ∀ (b : Building.Env K) (s : Building.State K),
      (PartOfBuilding env.getId d k → Building.top b s e = .ok s) ∧ (¬ PartOfBuilding env.getId d k → Building.top b s e = Building.visit b s e) := by
  have key : Building.hasIgnore e.tags = true ↔ PartOfBuilding env.getId d k := by
    rw [← times_pos env.getId d hn k]
    cases h with
    | @node i n h =>
      have := ht (.node i)
      simp only [Data.tags, h, Option.map_some, Option.getD_some] at this
      exact C77_ignore _ this.1 this.2 _
    | @way i n h =>
      have := ht (.way i)
      simp only [Data.tags, h, Option.map_some, Option.getD_some] at this
      exact C77_ignore _ this.1 this.2 _
    | @area i n h =>
      have := ht (.area i)
      simp only [Data.tags, h, Option.map_some, Option.getD_some] at this
      exact C77_ignore _ this.1 this.2 _
    | @relation i own ms tags refs es h htag hc he =>
      have := ht (.relation i)
      simp only [Data.tags, h, Option.map_some, Option.getD_some] at this
      rcases htag with ⟨-, rfl⟩ | ⟨-, h1, h2, -⟩
      · exact C77_ignore _ this.1 this.2 _
      · refine C77_ignore _ ?_ (fun t hx => ?_) _
        · rw [List.pairwise_map]; exact h1.imp fun hlt => UInt32.le_of_lt hlt
        · rcases h2 t hx with hx | ⟨j, -, hx⟩
          · exact this.2 t hx
          · exact (ht (.area j)).2 t hx
  refine ⟨key, fun b s => ⟨fun hp => ?_, fun hp => ?_⟩⟩
  · cases e with
    | node => rfl
    | way => rfl
    | area i t c => simp only [Building.top]; rw [if_pos (key.2 hp)]
    | relation i t ms => simp only [Building.top]; rw [if_pos (key.2 hp)]
  · cases e with
    | node => simp only [Building.top, Building.visit]
    | way => simp only [Building.top, Building.visit]
    | area i t c => simp only [Building.top]; rw [if_neg (fun h => hp (key.1 h))]
    | relation i t ms => simp only [Building.top]; rw [if_neg (fun h => hp (key.1 h))]

open Multipolygon MultipolygonSpec in
/-- C96 with C36: a multipolygon all of whose lines are present and closed, one of them the outer line, becomes a relation of one area for each line, the outer one first.
`lines` are the members of type "w" with their lines. -/
theorem C96_multipolygon (env : Env K) (d : Data K) (P : Geo K → Prop) (hx : Exact (Osm.geoEq env.eps) P) {i : UInt64} {own : List Tag} {ms : List Resolve.Member}
    (hf : d.relations.find i = some (own, ms)) (hk : IsKind env.getId own .multipolygon) (lines : List (Multipolygon.Member (Geo K) × Seq (Geo K)))
    (hl : List.Forall₂ (Finds d) (ms.filter fun m => decide (m.type = "w")) (lines.map Prod.fst)) (h : ∀ m ∈ lines, LineOf m.1 m.2)
    (hP : ∀ m ∈ lines, ∀ x ∈ m.2.coordinates, P x) (outer : Seq (Geo K)) (ho : linesOf ["outer"] lines = [outer])
    (hc : ∀ s ∈ linesOf ["outer", "inner"] lines, ClosedLine s.coordinates) {e : Element (Geo K)} (he : Becomes env d (.old (.relation i)) e) :
    ∃ tags areas, e = .relation i tags (areas.map fun a => .area a.1 [] a.2) ∧
      List.Forall₂ (fun (s : Seq (Geo K)) (a : UInt64 × List (Geo K)) => a.2 = s.coordinates.dropLast ∨ a.2 = s.coordinates.dropLast.reverse)
        (outer :: linesOf ["inner"] lines) areas := by
  obtain ⟨areas, h1, h2⟩ := C36_relation_simple (Osm.geoEq env.eps) P hx Osm.isClockwise env.contains lines h hP outer ho hc
  cases he with
  | @relation _ own' ms' tags refs es hf' ht hcons hes =>
    rw [hf] at hf'; cases hf'
    rcases hcons with ⟨-, areas', ⟨rs, hr, hp⟩, rfl⟩ | ⟨hb, -⟩ | ⟨hb, -⟩
    · rw [_root_.Verif.ResolveProof.finds_unique hr hl, h1] at hp
      cases hp
      have : ∃ as : List (UInt64 × List (Geo K)), es = as.map (fun a => .area a.1 [] a.2) ∧ as.map Prod.snd = areas.map (·.coordinates) := by
        clear h1 h2 hr
        rw [List.forall₂_map_left_iff] at hes
        induction hes with
        | nil => exact ⟨[], rfl, rfl⟩
        | @cons a b l l' h _ ih =>
          obtain ⟨as, rfl, h2⟩ := ih
          cases h with
          | @new _ j hj => exact ⟨(j, a.coordinates) :: as, rfl, by simp [h2]⟩
      obtain ⟨as, rfl, h3⟩ := this
      refine ⟨_, as, rfl, ?_⟩
      have h4 : List.Forall₂ (fun (s : Seq (Geo K)) (c : List (Geo K)) => c = s.coordinates.dropLast ∨ c = s.coordinates.dropLast.reverse)
          (outer :: linesOf ["inner"] lines) (as.map Prod.snd) := by
        rw [h3, List.forall₂_map_right_iff]
        exact h2
      rwa [List.forall₂_map_right_iff] at h4
    · exact absurd hk hb.1
    · exact absurd hk hb.1

/-! ## Files -/

namespace ResolveProof.File
open Osm (Path Node)

def names (s : String) : UInt32 := if s = "type" then 1 else if s = "multipolygon" then 2 else if s = "building" then 3 else 4

def env : Env ℚ := ⟨1 / 1000, names, fun l => l.insertionSort fun a b => a.key ≤ b.key, fun _ _ => false, fun _ => 0⟩

theorem sorts : OsmSpec.Sorts env.sort := by
  intro l
  have : Std.Total fun a b : Tag => a.key ≤ b.key := ⟨fun a b => by simp only [UInt32.le_iff_toNat_le]; omega⟩
  have : IsTrans Tag fun a b : Tag => a.key ≤ b.key := ⟨fun a b c h1 h2 => by simp only [UInt32.le_iff_toNat_le] at *; omega⟩
  exact ⟨List.perm_insertionSort _ l, List.pairwise_insertionSort _ l⟩

def square (x r : ℚ) : List (Geo ℚ) := [⟨-r, x - r⟩, ⟨-r, x + r⟩, ⟨r, x + r⟩, ⟨r, x - r⟩]

/-- A building of an outline and a part, and a part which is missing; a route with a node and a route which names a way; an area with a hole. -/
def data : Data ℚ :=
  ⟨⟨[(5, ⟨5, [], ⟨0, 0⟩⟩)], [(13, ⟨13, [], square 9 1 ++ [⟨-1, 8⟩]⟩), (14, ⟨14, [⟨7, 8⟩], [⟨0, 0⟩, ⟨1, 1⟩]⟩)],
    [(10, ⟨10, [⟨6, 7⟩], square 0 2⟩), (11, ⟨11, [⟨6, 7⟩], square 0 1⟩), (12, ⟨12, [⟨9, 7⟩], square 9 2⟩)]⟩,
   [(1, [⟨1, 3⟩], [⟨"w", 10, "outline"⟩, ⟨"w", 11, "part"⟩, ⟨"w", 99, "part"⟩]), (2, [⟨1, 4⟩], [⟨"n", 5, ""⟩, ⟨"r", 3, ""⟩, ⟨"n", 5, ""⟩]), (3, [⟨1, 4⟩], [⟨"w", 14, ""⟩]),
    (4, [⟨1, 2⟩], [⟨"w", 12, "outer"⟩, ⟨"w", 13, "inner"⟩])]⟩

def isOk {A : Type} : Outcome A → Bool
  | .ok _ => true
  | _ => false

theorem of_isOk {A : Type} {o : Outcome A} (h : isOk o = true) : ∃ a, o = .ok a := by
  cases o with
  | ok a => exact ⟨a, rfl⟩
  | _ => cases h

theorem find_cases {a : UInt64} {own : List Tag} {ms : List Resolve.Member} (h : data.relations.find a = some (own, ms)) :
    (a = 1 ∧ own = [⟨1, 3⟩] ∧ ms = [⟨"w", 10, "outline"⟩, ⟨"w", 11, "part"⟩, ⟨"w", 99, "part"⟩]) ∨
    (a = 2 ∧ own = [⟨1, 4⟩] ∧ ms = [⟨"n", 5, ""⟩, ⟨"r", 3, ""⟩, ⟨"n", 5, ""⟩]) ∨ (a = 3 ∧ own = [⟨1, 4⟩] ∧ ms = [⟨"w", 14, ""⟩]) ∨
    (a = 4 ∧ own = [⟨1, 2⟩] ∧ ms = [⟨"w", 12, "outer"⟩, ⟨"w", 13, "inner"⟩]) := by
  have := _root_.Verif.ResolveProof.find_mem h
  simpa [data] using this

theorem names_type : names "type" = 1 := rfl
theorem names_multipolygon : names "multipolygon" = 2 := by decide +kernel
theorem names_building : names "building" = 3 := by decide +kernel

theorem follows {a b : UInt64} (h : Follows env.getId data a b) : a = 2 ∧ b = 3 := by
  obtain ⟨own, ms, m, hf, hm, rfl, hs, h⟩ := h
  rcases find_cases hf with ⟨rfl, rfl, rfl⟩ | ⟨rfl, rfl, rfl⟩ | ⟨rfl, rfl, rfl⟩ | ⟨rfl, rfl, rfl⟩
  all_goals
    simp only [IsKind, env, names_type, names_multipolygon, names_building] at h
    simp only [List.mem_cons, List.not_mem_nil, or_false] at hm
  · rcases hm with rfl | rfl | rfl <;> simp at h
  · rcases hm with rfl | rfl | rfl <;> simp at h ⊢
  · subst hm; simp at h
  · rcases hm with rfl | rfl <;> simp [data, Assoc.find] at h

theorem sound : Sound env data where
  nodes := by decide
  ways := by decide
  areas := by decide
  relations := by decide
  acyclic := by
    intro a h
    have h1 := h
    rw [Relation.TransGen.head'_iff] at h
    obtain ⟨c, h, -⟩ := h
    obtain ⟨c', h'⟩ := last_step h1
    have := (follows h).1
    have := (follows h').2
    simp_all
  tags := by decide
  strings := by decide +kernel
  assembled := by
    intro r hr hk
    obtain ⟨i, own, ms⟩ := r
    rcases find_cases (_root_.Verif.ResolveProof.find_of_mem (l := data.relations) (by decide) hr) with ⟨rfl, rfl, rfl⟩ | ⟨rfl, rfl, rfl⟩ | ⟨rfl, rfl, rfl⟩ | ⟨rfl, rfl, rfl⟩
    · simp [IsKind, env, names_type, names_multipolygon] at hk
    · simp [IsKind, env, names_type, names_multipolygon] at hk
    · simp [IsKind, env, names_type, names_multipolygon] at hk
    · simp only [_root_.Verif.ResolveProof.areas_iff]
      exact of_isOk (by decide +kernel)
  steady := by
    intro a b own ms h hf
    obtain ⟨-, rfl⟩ := follows h
    left
    rcases find_cases hf with ⟨h, -⟩ | ⟨h, -⟩ | ⟨-, rfl, -⟩ | ⟨h, -⟩
    · cases h
    · cases h
    · simp [IsKind, env, names_type, names_multipolygon, names_building]
    · cases h
  unmixed := by
    intro r hr hk _ i hi hb
    obtain ⟨j, own, ms⟩ := r
    have hf := _root_.Verif.ResolveProof.find_of_mem (l := data.relations) (by decide) hr
    rcases find_cases hf with ⟨rfl, rfl, rfl⟩ | ⟨rfl, rfl, rfl⟩ | ⟨rfl, rfl, rfl⟩ | ⟨rfl, rfl, rfl⟩
    · simp [IsKind, env, names_type, names_multipolygon] at hk
    · simp [IsKind, env, names_type, names_multipolygon] at hk
    · simp [IsKind, env, names_type, names_multipolygon] at hk
    · obtain ⟨m, hm, -, ho, rfl, -⟩ := hi
      simp only [List.mem_cons, List.not_mem_nil, or_false] at hm
      rcases hm with rfl | rfl
      · obtain ⟨j, own, ms, hf, hk, m, hm, hn⟩ := hb
        rcases find_cases hf with ⟨rfl, rfl, rfl⟩ | ⟨rfl, rfl, rfl⟩ | ⟨rfl, rfl, rfl⟩ | ⟨rfl, rfl, rfl⟩
        · have := names_id hn
          simp only [List.mem_cons, List.not_mem_nil, or_false] at hm
          rcases hm with rfl | rfl | rfl <;> simp [Key.id] at this
        · simp [IsKind, env, names_type, names_building] at hk
        · simp [IsKind, env, names_type, names_building] at hk
        · simp [IsKind, env, names_type, names_building] at hk
      · simp at ho

end ResolveProof.File
open _root_.Verif.Props.ResolveProof.File

/-- A file which meets the hypotheses of `C96_relations_partial` and `C96_hidden`. -/
example : Sound env data ∧ OsmSpec.Sorts env.sort ∧ (∀ k, ((data.tags k).map Tag.key).Pairwise (· ≤ ·) ∧ ∀ t ∈ data.tags k, t.key < 0xFFFFFFFF) ∧
    PartOfBuilding env.getId data (.area 10) := by
  refine ⟨sound, sorts, fun k => ?_, 1, [⟨1, 3⟩], _, rfl, ?_, ⟨"w", 10, "outline"⟩, by simp, ?_⟩
  · cases k <;> simp only [Data.tags, data, Assoc.find] <;> (repeat' split) <;> simp
  · simp [IsKind, env, names_type, names_multipolygon, names_building]
  · exact .inr (.inl ⟨rfl, rfl, by simp [data, Assoc.find]⟩)

/-- What is handed on for it: the numbers of the elements, of the members of relations, and whether elements are hidden. -/
example : (match complete env data 3 [1, 2, 3, 4] with
    | .ok es => es.map fun e => (e.id, match e with | .relation _ _ ms => ms.map Element.id | _ => [], match e with | .relation .. => false | _ => Building.hasIgnore e.tags)
    | _ => []) =
  [(1, [11], false), (2, [5, 3], false), (3, [14], false), (4, [12, 0], false), (5, [], false), (13, [], false), (14, [], false), (10, [], true), (11, [], true),
    (12, [], false)] := by
  decide +kernel

open MultipolygonSpec in
/-- The hypotheses of `C96_multipolygon` hold for the area with a hole. -/
example : ∃ (P : Geo ℚ → Prop) (lines : List (Multipolygon.Member (Geo ℚ) × Multipolygon.Seq (Geo ℚ))) (outer : Multipolygon.Seq (Geo ℚ)) (own : List Tag) (ms : List Resolve.Member),
    Exact (Osm.geoEq env.eps) P ∧ data.relations.find 4 = some (own, ms) ∧ IsKind env.getId own .multipolygon ∧
    List.Forall₂ (Finds data) (ms.filter fun m => decide (m.type = "w")) (lines.map Prod.fst) ∧ (∀ m ∈ lines, LineOf m.1 m.2) ∧ (∀ m ∈ lines, ∀ x ∈ m.2.coordinates, P x) ∧
    linesOf ["outer"] lines = [outer] ∧ (∀ s ∈ linesOf ["outer", "inner"] lines, ClosedLine s.coordinates) ∧ ∃ e, Becomes env data (.old (.relation 4)) e := by
  refine ⟨fun x => x ∈ square 9 2 ++ square 9 1, [(⟨12, "outer", .area (square 9 2)⟩, ⟨12, square 9 2 ++ [⟨-2, 7⟩]⟩), (⟨13, "inner", .way (square 9 1 ++ [⟨-1, 8⟩])⟩, ⟨13, square 9 1 ++ [⟨-1, 8⟩]⟩)],
    ⟨12, square 9 2 ++ [⟨-2, 7⟩]⟩, _, _, ?_, rfl, ?_, ?_, ?_, ?_, ?_, ?_, ?_⟩
  · intro a b ha hb
    have : ∀ a ∈ square 9 2 ++ square 9 1, ∀ b ∈ square 9 2 ++ square 9 1, (Osm.geoEq env.eps a b = true ↔ a = b) := by decide +kernel
    exact this a ha b hb
  · simp [IsKind, env, names_type, names_multipolygon]
  · refine .cons ⟨rfl, rfl, .inr (.inl ⟨rfl, _, rfl, rfl⟩)⟩ (.cons ⟨rfl, rfl, .inl ⟨_, rfl, rfl⟩⟩ .nil)
  · intro m hm
    simp only [List.mem_cons, List.not_mem_nil, or_false] at hm
    rcases hm with rfl | rfl
    · exact ⟨rfl, by simp, .inr ⟨⟨-2, 7⟩, [⟨-2, 11⟩, ⟨2, 11⟩, ⟨2, 7⟩], by simp [square]; norm_num, by simp [square]; norm_num⟩⟩
    · exact ⟨rfl, by simp, .inl rfl⟩
  · intro m hm
    simp only [List.mem_cons, List.not_mem_nil, or_false] at hm
    rcases hm with rfl | rfl <;> decide +kernel
  · rfl
  · intro s hs
    simp only [linesOf, List.mem_map, List.mem_filter, List.mem_cons, List.not_mem_nil, or_false] at hs
    obtain ⟨m, ⟨rfl | rfl, -⟩, rfl⟩ := hs
    · exact ⟨by simp [square], by simp [square]; norm_num⟩
    · exact ⟨by simp [square], by simp [square]; norm_num⟩
  · obtain ⟨-, es, h, -⟩ := C96_relations_partial env sorts data sound
    have : All data = [.relation 1, .relation 2, .relation 3, .relation 4] ++ (All data).drop 4 := rfl
    rw [this] at h
    cases h with
    | cons _ h => cases h with
      | cons _ h => cases h with
        | cons _ h => cases h with
          | cons h _ => exact ⟨_, h⟩

namespace ResolveProof.File

/-- A closed way which is the outline of a building, and the outer line of a multipolygon without tags of its own. -/
def mixed : Data ℚ := ⟨⟨[], [], [(10, ⟨10, [⟨5, 6⟩], square 0 1⟩)]⟩, [(1, [⟨1, 3⟩], [⟨"w", 10, "outline"⟩]), (2, [⟨1, 2⟩], [⟨"w", 10, "outer"⟩])]⟩

/-- A closed way which is the outline of a building without parts. -/
def alone : Data ℚ := ⟨⟨[], [], [(10, ⟨10, [⟨5, 6⟩], square 0 1⟩)]⟩, [(1, [⟨1, 3⟩], [⟨"w", 10, "outline"⟩])]⟩

theorem tagOf (k v : UInt32) (t : Tag) : Building.hasTag k v [t] = (v == if t.key = k then t.value else 0xFFFFFFFF) := by
  by_cases h : t.key = k <;> simp [Building.hasTag, Building.getTagValue, Building.searchTag, h]

theorem of_single {A : Type} {o : Outcome (List A)} (h : (match o with | .ok [_] => true | _ => false) = true) : ∃ a, o = .ok [a] := by
  split at h
  · exact ⟨_, rfl⟩
  · cases h

theorem env_type : env.getId "type" = 1 := names_type
theorem env_multipolygon : env.getId "multipolygon" = 2 := names_multipolygon
theorem env_building : env.getId "building" = 3 := names_building

theorem mixed_complete : ∃ a, complete env mixed 3 [1, 2] = .ok [.relation 1 [⟨1, 3⟩] [], .relation 2 [⟨1, 2⟩, ⟨5, 6⟩, ⟨0xFFFFFFFF, 0⟩] [a],
      .area 10 [⟨5, 6⟩, ⟨0xFFFFFFFF, 0⟩] (square 0 1)] ∧
    complete env mixed 3 [2, 1] = .ok [.relation 1 [⟨1, 3⟩] [], .relation 2 [⟨1, 2⟩, ⟨5, 6⟩] [a], .area 10 [⟨5, 6⟩, ⟨0xFFFFFFFF, 0⟩] (square 0 1)] := by
  have hr1 : mixed.relations.find 1 = some ([⟨1, 3⟩], [⟨"w", 10, "outline"⟩]) := rfl
  have hr2 : mixed.relations.find 2 = some ([⟨1, 2⟩], [⟨"w", 10, "outer"⟩]) := rfl
  have ha : mixed.ctx.areaMap.find 10 = some ⟨10, [⟨5, 6⟩], square 0 1⟩ := rfl
  have hw : mixed.ctx.wayMap.find 10 = none := rfl
  have hk : keys mixed = [.relation 1, .relation 2, .area 10] := rfl
  obtain ⟨a, hp⟩ : ∃ a, Multipolygon.process (Osm.geoEq env.eps) Osm.isClockwise env.contains (rings mixed [⟨"w", 10, "outer"⟩]) = .ok [a] := of_single (by decide +kernel)
  have hm : Osm.mergeTags env.sort [⟨1, 2⟩] [⟨5, 6⟩, ⟨0xFFFFFFFF, 0⟩] = [⟨1, 2⟩, ⟨5, 6⟩, ⟨0xFFFFFFFF, 0⟩] := by
    simp [Osm.mergeTags, Osm.uniqueKeys, env]
  have hm' : Osm.mergeTags env.sort [⟨1, 2⟩] [⟨5, 6⟩] = [⟨1, 2⟩, ⟨5, 6⟩] := by
    simp [Osm.mergeTags, Osm.uniqueKeys, env]
  refine ⟨.area (Ref.id env (.new a)) [] a.coordinates, ?_, ?_⟩
  · simp [complete, resolveAll, resolve, hr1, hr2, start, Data.tags, tagOf, env_type, env_multipolygon, env_building, foldMembers, visitBuilding, lookup, ha, Outcome.bind,
      addToRelation, mark, visitMultipolygon, visitRings, found, hw, hp, append, setTags, marker, hm, hk, each, element]
  · simp [complete, resolveAll, resolve, hr1, hr2, start, Data.tags, tagOf, env_type, env_multipolygon, env_building, foldMembers, visitBuilding, lookup, ha, Outcome.bind,
      addToRelation, mark, visitMultipolygon, visitRings, found, hw, hp, append, setTags, marker, hm', hk, each, element]

theorem alone_find {a : UInt64} {own : List Tag} {ms : List Resolve.Member} (h : alone.relations.find a = some (own, ms)) :
    a = 1 ∧ own = [⟨1, 3⟩] ∧ ms = [⟨"w", 10, "outline"⟩] := by
  have := _root_.Verif.ResolveProof.find_mem h
  simpa [alone] using this

theorem alone_follows {a b : UInt64} : ¬ Follows env.getId alone a b := by
  rintro ⟨own, ms, m, hf, hm, rfl, hs, h⟩
  obtain ⟨rfl, rfl, rfl⟩ := alone_find hf
  simp only [IsKind, env_type, env_multipolygon, env_building] at h
  simp only [List.mem_cons, List.not_mem_nil, or_false] at hm
  subst hm
  simp at h

theorem alone_kind {r : UInt64 × List Tag × List Resolve.Member} (hr : r ∈ alone.relations) : ¬ IsKind env.getId r.2.1 .multipolygon := by
  simp only [alone, List.mem_cons, List.not_mem_nil, or_false] at hr
  subst hr
  simp [IsKind, env_type, env_multipolygon]

theorem alone_sound : Sound env alone where
  nodes := by decide
  ways := by decide
  areas := by decide
  relations := by decide
  acyclic := by
    intro a h
    obtain ⟨c, h⟩ := last_step h
    exact alone_follows h
  tags := by decide
  strings := by decide +kernel
  assembled r hr hk := absurd hk (alone_kind hr)
  steady a b own ms h := absurd h alone_follows
  unmixed r hr hk := absurd hk (alone_kind hr)

end ResolveProof.File

/-- C96 is violated without `unmixed`: whether a multipolygon is hidden depends on the order in which the hash map lists the relations. -/
theorem C96_violated_order : ∃ (env : Env ℚ) (d : Data ℚ) (es es' : List (Element (Geo ℚ))), OsmSpec.Sorts env.sort ∧
    complete env d 3 [1, 2] = .ok es ∧ complete env d 3 [2, 1] = .ok es' ∧ ¬ PartOfBuilding env.getId d (.relation 2) ∧
    (∃ e ∈ es, e.id = 2 ∧ Building.hasIgnore e.tags = true) ∧ (∃ e ∈ es', e.id = 2 ∧ Building.hasIgnore e.tags = false) := by
  obtain ⟨a, h1, h2⟩ := mixed_complete
  refine ⟨env, mixed, _, _, sorts, h1, h2, ?_, ⟨_, List.mem_cons_of_mem _ (List.mem_cons_self ..), rfl, by simp only [Element.tags]; decide⟩,
    ⟨_, List.mem_cons_of_mem _ (List.mem_cons_self ..), rfl, by simp only [Element.tags]; decide⟩⟩
  rintro ⟨i, own, ms, hf, -, m, hm, hn⟩
  have hmem := _root_.Verif.ResolveProof.find_mem hf
  have := names_id hn
  simp only [mixed, List.mem_cons, Prod.mk.injEq, List.not_mem_nil, or_false] at hmem
  rcases hmem with ⟨rfl, rfl, rfl⟩ | ⟨rfl, rfl, rfl⟩ <;>
    (simp only [List.mem_cons, List.not_mem_nil, or_false] at hm; subst hm; simp [Key.id] at this)

/-- C96, a consequence users do not expect: a building relation which names only its outline is not drawn at all. The relation has no members, and the outline is hidden.
All hypotheses of `C96_relations_partial` hold, and the outline alone is drawn, `C96_hidden`. -/
theorem C96_violated_outline : Sound env alone ∧ ∃ es, complete env alone 3 [1] = .ok es ∧ (∃ e ∈ es, e.id = 10) ∧
    ∀ (b : Building.Env ℚ) (s : Building.State ℚ), Building.topAll b s es = .ok s := by
  refine ⟨alone_sound, [.relation 1 [⟨1, 3⟩] [], .area 10 [⟨5, 6⟩, ⟨0xFFFFFFFF, 0⟩] (square 0 1)], ?_, ⟨_, List.mem_cons_of_mem _ (List.mem_cons_self ..), rfl⟩, fun b s => ?_⟩
  · have hr1 : alone.relations.find 1 = some ([⟨1, 3⟩], [⟨"w", 10, "outline"⟩]) := rfl
    have ha : alone.ctx.areaMap.find 10 = some ⟨10, [⟨5, 6⟩], square 0 1⟩ := rfl
    have hk : keys alone = [.relation 1, .area 10] := rfl
    simp [complete, resolveAll, resolve, hr1, start, Data.tags, tagOf, env_type, env_multipolygon, env_building, foldMembers, visitBuilding, lookup, ha, Outcome.bind,
      addToRelation, mark, marker, hk, each, element]
  · have h1 : Building.hasIgnore [⟨1, 3⟩] = false := by decide
    have h2 : Building.hasIgnore [⟨5, 6⟩, ⟨0xFFFFFFFF, 0⟩] = true := by decide
    simp [Building.topAll, Building.top, Element.tags, h1, h2, Building.visit, Outcome.bind]

end Verif.Props
