import Verif.Props.QuadKeyBuilderSpec
import Mathlib.Data.List.Basic
import Mathlib.Data.List.Nodup

/-! # C26: building a tile -/
namespace Verif.Props
open Verif.QuadKeyBuilder Verif.QuadKeyBuilderSpec

namespace QuadKeyBuilderProof
variable {C : Type}

/-- `offered`: all elements which reached `visitElement`; `clipped`: ids of clipped elements. -/
structure Inv (style : Element C → StyleInfo) (s : State C) (offered : List (Element C)) (clipped : List UInt64) : Prop where
  nodup : s.builders.Nodup
  cycle : ∀ b, (b ∉ s.builders ∧ callsOf b s.trace = []) ∨
    (b ∈ s.builders ∧ ∃ es, es ≠ [] ∧ callsOf b s.trace = .prepare b :: es.map (.visit b))
  styled : ∀ b e, e ∈ visited b s.trace → e ∈ offered ∧ (style e).empty = false ∧ b ∈ (style e).builders
  once : ∀ b i, i ≠ 0 → ((visited b s.trace).filter (fun e => e.id == i)).length ≤ 1
  known : ∀ b e, e ∈ visited b s.trace → e.id ∈ s.ids
  all : ∀ e ∈ offered, (style e).empty = false → e.id ∈ s.ids
  built : ∀ e ∈ offered, (style e).empty = false → (∀ b ∈ (style e).builders, e ∈ visited b s.trace) ∨ e.id ≠ 0
  why : ∀ i ∈ s.ids, i ∈ clipped ∨ ∃ e ∈ offered, e.id = i ∧ (style e).empty = false ∧ ∀ b ∈ (style e).builders, e ∈ visited b s.trace

theorem Inv.init (style : Element C → StyleInfo) : Inv style init [] [] :=
  ⟨by simp [QuadKeyBuilder.init], by simp [QuadKeyBuilder.init, callsOf], by simp [QuadKeyBuilder.init, visited],
    by simp [QuadKeyBuilder.init, visited], by simp [QuadKeyBuilder.init, visited], by simp, by simp, by simp [QuadKeyBuilder.init]⟩

theorem visited_append (b : Name) (t u : List (Event C)) : visited b (t ++ u) = visited b t ++ visited b u := by
  simp [visited]

theorem callsOf_append (b : Name) (t u : List (Event C)) : callsOf b (t ++ u) = callsOf b t ++ callsOf b u := by
  simp [callsOf]

theorem useBuilder_ids (s : State C) (e : Element C) (b : Name) : (useBuilder s e b).ids = s.ids := by
  unfold useBuilder; split <;> rfl

theorem useBuilder_visited (s : State C) (e : Element C) (b b' : Name) :
    visited b' (useBuilder s e b).trace = visited b' s.trace ++ if b = b' then [e] else [] := by
  unfold useBuilder
  split <;> (rw [visited_append]; by_cases h : b = b' <;> simp [visited, h])

theorem useBuilder_cycle (s : State C) (e : Element C) (b : Name) (hn : s.builders.Nodup)
    (h : ∀ b, (b ∉ s.builders ∧ callsOf b s.trace = []) ∨
      (b ∈ s.builders ∧ ∃ es, es ≠ [] ∧ callsOf b s.trace = .prepare b :: es.map (.visit b))) :
    (useBuilder s e b).builders.Nodup ∧
    ∀ b', (b' ∉ (useBuilder s e b).builders ∧ callsOf b' (useBuilder s e b).trace = []) ∨
      (b' ∈ (useBuilder s e b).builders ∧ ∃ es, es ≠ [] ∧
        callsOf b' (useBuilder s e b).trace = .prepare b' :: es.map (.visit b')) := by
  unfold useBuilder
  split
  · rename_i hb
    refine ⟨hn, fun b' => ?_⟩
    rw [callsOf_append]
    by_cases hbb : b = b'
    · subst hbb
      rcases h b with ⟨h1, -⟩ | ⟨h1, es, h2, h3⟩
      · exact absurd hb h1
      · exact .inr ⟨h1, es ++ [e], by simp, by rw [h3]; simp [callsOf, target]⟩
    · have : callsOf b' [Event.visit b e] = [] := by simp [callsOf, target, hbb]
      simpa [this] using h b'
  · rename_i hb
    refine ⟨by simp only [List.nodup_append]; exact ⟨hn, by simp, by intro a ha c hc; simp at hc; subst hc; rintro rfl; exact hb ha⟩, fun b' => ?_⟩
    rw [callsOf_append]
    by_cases hbb : b = b'
    · subst hbb
      rcases h b with ⟨-, h2⟩ | ⟨h1, -⟩
      · exact .inr ⟨by simp, [e], by simp, by rw [h2]; simp [callsOf, target]⟩
      · exact absurd h1 hb
    · have : callsOf b' [Event.prepare b, Event.visit b e] = [] := by simp [callsOf, target, hbb]
      have hne : ¬ b' = b := fun hh => hbb hh.symm
      simpa [this, hne] using h b'

theorem fold_useBuilder (e : Element C) (bs : List Name) (s : State C) (hbs : bs.Nodup) (hn : s.builders.Nodup)
    (h : ∀ b, (b ∉ s.builders ∧ callsOf b s.trace = []) ∨
      (b ∈ s.builders ∧ ∃ es, es ≠ [] ∧ callsOf b s.trace = .prepare b :: es.map (.visit b))) :
    let r := bs.foldl (fun s b => useBuilder s e b) s
    r.ids = s.ids ∧ (∀ b, visited b r.trace = visited b s.trace ++ if b ∈ bs then [e] else []) ∧ r.builders.Nodup ∧
    ∀ b', (b' ∉ r.builders ∧ callsOf b' r.trace = []) ∨
      (b' ∈ r.builders ∧ ∃ es, es ≠ [] ∧ callsOf b' r.trace = .prepare b' :: es.map (.visit b')) := by
  induction bs generalizing s with
  | nil => exact ⟨rfl, by simp, hn, h⟩
  | cons b bs ih =>
    obtain ⟨hb1, hb2⟩ := List.nodup_cons.1 hbs
    obtain ⟨c1, c2⟩ := useBuilder_cycle s e b hn h
    obtain ⟨i1, i2, i3, i4⟩ := ih (useBuilder s e b) hb2 c1 c2
    refine ⟨by rw [List.foldl_cons, i1, useBuilder_ids], fun b' => ?_, i3, i4⟩
    rw [List.foldl_cons, i2 b', useBuilder_visited]
    by_cases hbb : b = b'
    · subst hbb; simp [hb1]
    · have hne : ¬ b' = b := fun hh => hbb hh.symm
      simp [hbb, hne]

theorem visitElement_inv {style : Element C → StyleInfo} (hstyle : ∀ e, (style e).builders.Nodup) {s : State C}
    {offered : List (Element C)} {clipped : List UInt64} (h : Inv style s offered clipped) (e : Element C) :
    Inv style (visitElement style s e) (offered ++ [e]) clipped := by
  unfold visitElement
  split
  · rename_i hc
    simp only [canBuild, Bool.and_eq_true, Bool.not_eq_true', Bool.or_eq_true, beq_iff_eq] at hc
    obtain ⟨hne, hid⟩ := hc
    obtain ⟨f1, f2, f3, f4⟩ := fold_useBuilder e (style e).builders { s with ids := e.id :: s.ids } (hstyle e) h.nodup h.cycle
    refine ⟨f3, f4, ?_, ?_, ?_, ?_, ?_, ?_⟩
    · intro b e' he'
      rw [f2 b] at he'
      rcases List.mem_append.1 he' with he' | he'
      · obtain ⟨a1, a2⟩ := h.styled b e' he'
        exact ⟨by simp [a1], a2⟩
      · split at he'
        · rename_i hb
          simp only [List.mem_singleton] at he'; subst he'; exact ⟨by simp, hne, hb⟩
        · cases he'
    · intro b i hi
      rw [f2 b, List.filter_append, List.length_append]
      have hold := h.once b i hi
      split
      · by_cases hei : e.id = i
        · subst hei
          have : (visited b s.trace).filter (fun e' => e'.id == e.id) = [] := by
            rw [List.filter_eq_nil_iff]
            intro e' he' hx
            have hk := h.known b e' he'
            simp only [beq_iff_eq] at hx
            rw [hx] at hk
            rcases hid with hid | hid
            · exact hi hid
            · simp [hk] at hid
          simp [this]
        · have : [e].filter (fun e' => e'.id == i) = [] := by simp [hei]
          rw [this]; simpa using hold
      · simpa using hold
    · intro b e' he'
      rw [f2 b] at he'
      rw [f1]
      rcases List.mem_append.1 he' with he' | he'
      · exact List.mem_cons_of_mem _ (h.known b e' he')
      · split at he'
        · simp only [List.mem_singleton] at he'; subst he'; simp
        · cases he'
    · intro e' he' hs
      rw [f1]
      rcases List.mem_append.1 he' with he' | he'
      · exact List.mem_cons_of_mem _ (h.all e' he' hs)
      · simp only [List.mem_singleton] at he'; subst he'; simp
    · intro e' he' hs
      rcases List.mem_append.1 he' with he' | he'
      · rcases h.built e' he' hs with hh | hh
        · exact .inl fun b hb => by rw [f2 b]; exact List.mem_append_left _ (hh b hb)
        · exact .inr hh
      · simp only [List.mem_singleton] at he'; subst he'
        exact .inl fun b hb => by rw [f2 b]; simp [hb]
    · intro i hi
      rw [f1] at hi
      rcases List.mem_cons.1 hi with hi | hi
      · exact .inr ⟨e, by simp, hi.symm, hne, fun b hb => by rw [f2 b]; simp [hb]⟩
      · rcases h.why i hi with hh | ⟨e', h1, h2, h3, h4⟩
        · exact .inl hh
        · exact .inr ⟨e', by simp [h1], h2, h3, fun b hb => by rw [f2 b]; exact List.mem_append_left _ (h4 b hb)⟩
  · rename_i hc
    simp only [canBuild, Bool.and_eq_true, Bool.not_eq_true', Bool.or_eq_true, beq_iff_eq, not_and, not_or] at hc
    refine ⟨h.nodup, h.cycle, fun b e' he' => ?_, h.once, h.known, ?_, ?_, ?_⟩
    · obtain ⟨a1, a2⟩ := h.styled b e' he'
      exact ⟨by simp [a1], a2⟩
    · intro e' he' hs
      rcases List.mem_append.1 he' with he' | he'
      · exact h.all e' he' hs
      · simp only [List.mem_singleton] at he'; subst he'
        have := (hc hs).2
        simpa using this
    · intro e' he' hs
      rcases List.mem_append.1 he' with he' | he'
      · exact h.built e' he' hs
      · simp only [List.mem_singleton] at he'; subst he'
        exact .inr (hc hs).1
    · intro i hi
      rcases h.why i hi with hh | ⟨e', h1, h2⟩
      · exact .inl hh
      · exact .inr ⟨e', by simp [h1], h2⟩

theorem visitAll_inv {style : Element C → StyleInfo} (hstyle : ∀ e, (style e).builders.Nodup) {s : State C}
    {offered : List (Element C)} {clipped : List UInt64} (h : Inv style s offered clipped) (l : List (Element C)) :
    Inv style (l.foldl (visitElement style) s) (offered ++ l) clipped := by
  induction l generalizing s offered with
  | nil => simpa using h
  | cons e l ih => have := ih (visitElement_inv hstyle h e); simpa using this

theorem clip_inv {style : Element C → StyleInfo} {s : State C} {offered : List (Element C)} {clipped : List UInt64}
    (h : Inv style s offered clipped) (i : UInt64) : Inv style { s with ids := i :: s.ids } offered (clipped ++ [i]) := by
  refine ⟨h.nodup, h.cycle, h.styled, h.once, fun b e he => List.mem_cons_of_mem _ (h.known b e he),
    fun e he hs => List.mem_cons_of_mem _ (h.all e he hs), h.built, ?_⟩
  intro j hj
  rcases List.mem_cons.1 hj with hj | hj
  · exact .inl (by simp [hj])
  · rcases h.why j hj with hh | hh
    · exact .inl (by simp [hh])
    · exact .inr hh

theorem visit_inv {style : Element C → StyleInfo} (hstyle : ∀ e, (style e).builders.Nodup) {s : State C}
    {offered : List (Element C)} {clipped : List UInt64} (h : Inv style s offered clipped) (e : Element C) :
    Inv style (visit style s e) (offered ++ parts e) (clipped ++ clippedIds [e]) := by
  have plain : parts e = [e] → clippedIds [e] = [] → visit style s e = visitElement style s e →
      Inv style (visit style s e) (offered ++ parts e) (clipped ++ clippedIds [e]) := by
    intro h1 h2 h3
    rw [h1, h2, h3]; simpa using visitElement_inv hstyle h e
  match e, plain with
  | .node .., plain => exact plain rfl rfl rfl
  | .way .., plain => exact plain rfl rfl rfl
  | .area .., plain => exact plain rfl rfl rfl
  | .relation _ (_ :: _) _, plain => exact plain rfl rfl rfl
  | .relation id [] ms, _ => exact visitAll_inv hstyle (clip_inv h id) ms

theorem clippedIds_cons (e : Element C) (l : List (Element C)) : clippedIds (e :: l) = clippedIds [e] ++ clippedIds l := by
  match e with
  | .node .. => rfl
  | .way .. => rfl
  | .area .. => rfl
  | .relation _ (_ :: _) _ => rfl
  | .relation id [] ms => rfl

theorem found_inv {style : Element C → StyleInfo} (hstyle : ∀ e, (style e).builders.Nodup) (l : List (Element C)) {s : State C}
    {offered : List (Element C)} {clipped : List UInt64} (h : Inv style s offered clipped) :
    Inv style (l.foldl (visit style) s) (offered ++ l.flatMap parts) (clipped ++ clippedIds l) := by
  induction l generalizing s offered clipped with
  | nil => simpa [clippedIds] using h
  | cons e l ih =>
    have := ih (visit_inv hstyle h e)
    rw [clippedIds_cons]
    simpa using this

theorem visited_complete (b : Name) (l : List Name) : visited (C := C) b (l.map .complete) = [] := by
  simp [visited]

theorem visited_build (style : Element C → StyleInfo) (order : List Name → List Name) (found : List (Element C)) (b : Name) :
    visited b (build style order found) = visited b (found.foldl (visit style) init).trace := by
  simp only [build, complete, visited_append, visited_complete, List.append_nil]

end QuadKeyBuilderProof

open QuadKeyBuilderProof
variable {C : Type} (style : Element C → StyleInfo) (order : List Name → List Name)

/-- C26: every builder is prepared once, before its first element, and completed once, after its last; whatever the stores deliver. -/
theorem C26_life_cycle (hstyle : ∀ e, (style e).builders.Nodup) (horder : ∀ l, (order l).Perm l) (found : List (Element C)) (b : Name) :
    LifeCycle b (build style order found) := by
  have h := found_inv hstyle found (Inv.init style)
  unfold LifeCycle build complete
  rw [callsOf_append]
  have hperm := horder (found.foldl (visit style) init).builders
  have hc : callsOf (C := C) b ((order (found.foldl (visit style) init).builders).map .complete) =
      ((order (found.foldl (visit style) init).builders).filter (· == b)).map .complete := by
    simp only [callsOf, List.filter_map]; rfl
  rw [hc]
  have hcount : (order (found.foldl (visit style) init).builders).filter (· == b) =
      List.replicate ((found.foldl (visit style) init).builders.count b) b := by
    rw [List.filter_beq, hperm.count_eq]
  rw [hcount]
  rcases h.cycle b with ⟨h1, h2⟩ | ⟨h1, es, h2, h3⟩
  · left
    rw [h2, List.count_eq_zero_of_not_mem h1]; rfl
  · right
    refine ⟨es, h2, ?_⟩
    rw [h3, List.count_eq_one_of_mem h.nodup h1]; rfl

/-- C26: an element with an id other than 0 reaches a builder at most once, even if several stores deliver it. -/
theorem C26_at_most_once (hstyle : ∀ e, (style e).builders.Nodup) (found : List (Element C)) (b : Name) (i : UInt64) (hi : i ≠ 0) :
    ((visited b (build style order found)).filter (fun e => e.id == i)).length ≤ 1 := by
  rw [visited_build]
  exact (found_inv hstyle found (Inv.init style)).once b i hi

/-- C26: only elements which were found are built, by the builders of their style; elements without style are not built. -/
theorem C26_only_styled (hstyle : ∀ e, (style e).builders.Nodup) (found : List (Element C)) (b : Name) (e : Element C)
    (he : e ∈ visited b (build style order found)) :
    (∃ f ∈ found, e ∈ parts f) ∧ (style e).empty = false ∧ b ∈ (style e).builders := by
  rw [visited_build] at he
  obtain ⟨h1, h2⟩ := (found_inv hstyle found (Inv.init style)).styled b e he
  exact ⟨by simpa using h1, h2⟩

/-- C26 (partial): of every styled element found, an element with the same id is passed to all builders of its style, unless an element with this id
was clipped; parts of clipped elements (id 0) are always built. Missing: it need not be the element itself
(`C26_violated_same_id`), and clipped elements may be built twice (`C26_violated_clipped`). -/
theorem C26_nothing_lost_partial (hstyle : ∀ e, (style e).builders.Nodup) (found : List (Element C)) (f e : Element C) (hf : f ∈ found)
    (he : e ∈ parts f) (hs : (style e).empty = false) :
    (e.id = 0 → ∀ b ∈ (style e).builders, e ∈ visited b (build style order found)) ∧
    (e.id ∈ clippedIds found ∨ ∃ f' ∈ found, ∃ e' ∈ parts f', e'.id = e.id ∧ (style e').empty = false ∧
      ∀ b ∈ (style e').builders, e' ∈ visited b (build style order found)) := by
  have h := found_inv hstyle found (Inv.init style)
  have hmem : e ∈ [] ++ found.flatMap parts := by simpa using ⟨f, hf, he⟩
  simp only [visited_build]
  constructor
  · intro h0
    rcases h.built e hmem hs with hh | hh
    · exact hh
    · exact absurd h0 hh
  · rcases h.why _ (h.all e hmem hs) with hh | ⟨e', h1, h2, h3⟩
    · exact .inl (by simpa using hh)
    · right
      simp only [List.nil_append, List.mem_flatMap] at h1
      obtain ⟨f', hf', he'⟩ := h1
      exact ⟨f', hf', e', he', h2, h3⟩

/-- If all elements found have different ids, other than 0 and none of them clipped, then each styled one is passed to each of its builders. -/
theorem C26_all_built (hstyle : ∀ e, (style e).builders.Nodup) (found : List (Element C)) (hclip : ∀ f ∈ found, parts f = [f])
    (hid : ∀ e ∈ found, ∀ e' ∈ found, e.id = e'.id → e = e') (hc : clippedIds found = []) (e : Element C) (he : e ∈ found)
    (hs : (style e).empty = false) (b : Name) (hb : b ∈ (style e).builders) : e ∈ visited b (build style order found) := by
  rcases (C26_nothing_lost_partial style order hstyle found e e he (by simp [hclip e he]) hs).2 with h | ⟨f', hf', e', he', h1, -, h3⟩
  · simp [hc] at h
  · rw [hclip f' hf'] at he'
    simp only [List.mem_singleton] at he'; subst he'
    have : e' = e := hid e' hf' e he h1
    subst this
    exact h3 b hb

namespace QuadKeyBuilderProof

theorem fold_ids (e : Element C) (bs : List Name) (s : State C) : (bs.foldl (fun s b => useBuilder s e b) s).ids = s.ids := by
  induction bs generalizing s with
  | nil => rfl
  | cons b bs ih => rw [List.foldl_cons, ih, useBuilder_ids]

theorem fold_visited (e : Element C) (bs : List Name) (hbs : bs.Nodup) (s : State C) (b : Name) :
    visited b (bs.foldl (fun s b => useBuilder s e b) s).trace = visited b s.trace ++ if b ∈ bs then [e] else [] := by
  induction bs generalizing s with
  | nil => simp
  | cons c bs ih =>
    obtain ⟨h1, h2⟩ := List.nodup_cons.1 hbs
    rw [List.foldl_cons, ih h2, useBuilder_visited]
    by_cases hbb : c = b
    · subst hbb; simp [h1]
    · have hne : ¬ b = c := fun hh => hbb hh.symm
      simp [hbb, hne]

/-- The builder wants the element. -/
def wants (style : Element C → StyleInfo) (b : Name) (e : Element C) : Bool := !(style e).empty && decide (b ∈ (style e).builders)

/-- Ids which are known do not matter for elements without style or without id. -/
def Fresh (style : Element C → StyleInfo) (ids : List UInt64) (e : Element C) : Prop := (style e).empty = false → e.id ≠ 0 → e.id ∉ ids

def Apart (style : Element C → StyleInfo) (a e : Element C) : Prop :=
  (style a).empty = false → (style e).empty = false → e.id ≠ 0 → a.id ≠ e.id

variable {style}

theorem visitElement_visited (hstyle : ∀ e, (style e).builders.Nodup) (s : State C) (e : Element C) (hf : Fresh style s.ids e) (b : Name) :
    visited b (visitElement style s e).trace = visited b s.trace ++ [e].filter (wants style b) ∧
    ∀ a, Fresh style s.ids a → Apart style e a → Fresh style (visitElement style s e).ids a := by
  rcases Bool.eq_false_or_eq_true (style e).empty with he | he
  · have : visitElement style s e = s := by simp [visitElement, canBuild, he]
    rw [this]
    exact ⟨by simp [wants, he], fun a ha _ => ha⟩
  · have : visitElement style s e = (style e).builders.foldl (fun s b => useBuilder s e b) { s with ids := e.id :: s.ids } := by
      unfold visitElement
      rw [if_pos]
      by_cases h0 : e.id = 0
      · simp [canBuild, he, h0]
      · simp [canBuild, he, hf he h0]
    rw [this, fold_visited e _ (hstyle e), fold_ids]
    refine ⟨by by_cases hb : b ∈ (style e).builders <;> simp [wants, he, hb], fun a ha hap h1 h2 => ?_⟩
    simp only [List.mem_cons, not_or]
    exact ⟨fun h => hap he h1 h2 h.symm, ha h1 h2⟩

theorem visitAll_visited (hstyle : ∀ e, (style e).builders.Nodup) (l : List (Element C)) (s : State C) (hf : ∀ e ∈ l, Fresh style s.ids e)
    (hp : l.Pairwise (Apart style)) (b : Name) :
    visited b (l.foldl (visitElement style) s).trace = visited b s.trace ++ l.filter (wants style b) ∧
    ∀ a, Fresh style s.ids a → (∀ e ∈ l, Apart style e a) → Fresh style (l.foldl (visitElement style) s).ids a := by
  induction l generalizing s with
  | nil => exact ⟨by simp, fun a ha _ => ha⟩
  | cons e l ih =>
    obtain ⟨h1, h2⟩ := visitElement_visited hstyle s e (hf e (by simp)) b
    obtain ⟨p1, p2⟩ := List.pairwise_cons.1 hp
    obtain ⟨i1, i2⟩ := ih (visitElement style s e) (fun a ha => h2 a (hf a (by simp [ha])) (p1 a ha)) p2
    refine ⟨?_, fun a ha hap => i2 a (h2 a ha (hap e (by simp))) fun e' he' => hap e' (by simp [he'])⟩
    rw [List.foldl_cons, i1, h1, List.append_assoc, ← List.filter_append]
    rfl

theorem visit_visited (hstyle : ∀ e, (style e).builders.Nodup) (s : State C) (f : Element C) (hf : ∀ e ∈ parts f, Fresh style s.ids e)
    (hc : ∀ e ∈ parts f, Fresh style (clippedIds [f]) e) (hp : (parts f).Pairwise (Apart style)) (b : Name) :
    visited b (visit style s f).trace = visited b s.trace ++ (parts f).filter (wants style b) ∧
    ∀ a, Fresh style s.ids a → Fresh style (clippedIds [f]) a → (∀ e ∈ parts f, Apart style e a) → Fresh style (visit style s f).ids a := by
  have plain : parts f = [f] → visit style s f = visitElement style s f →
      visited b (visit style s f).trace = visited b s.trace ++ (parts f).filter (wants style b) ∧
      ∀ a, Fresh style s.ids a → Fresh style (clippedIds [f]) a → (∀ e ∈ parts f, Apart style e a) → Fresh style (visit style s f).ids a := by
    intro h1 h2
    rw [h2]
    rw [h1] at hf ⊢
    obtain ⟨a1, a2⟩ := visitElement_visited hstyle s f (hf f (by simp)) b
    exact ⟨a1, fun a h3 _ h4 => a2 a h3 (h4 f (by simp))⟩
  match f, plain, hf, hc, hp with
  | .node .., plain, _, _, _ => exact plain rfl rfl
  | .way .., plain, _, _, _ => exact plain rfl rfl
  | .area .., plain, _, _, _ => exact plain rfl rfl
  | .relation _ (_ :: _) _, plain, _, _, _ => exact plain rfl rfl
  | .relation id [] ms, _, hf, hc, hp =>
    have key : ∀ a, Fresh style s.ids a → Fresh style [id] a → Fresh style (id :: s.ids) a := by
      intro a h1 h2 h3 h4 h5
      rcases List.mem_cons.1 h5 with h5 | h5
      · exact h2 h3 h4 (by simp [h5])
      · exact h1 h3 h4 h5
    obtain ⟨a1, a2⟩ := visitAll_visited hstyle ms { s with ids := id :: s.ids } (fun e he => key e (hf e he) (hc e he)) hp b
    exact ⟨a1, fun a h1 h2 h3 => a2 a (key a h1 h2) h3⟩

theorem found_visited (hstyle : ∀ e, (style e).builders.Nodup) (l : List (Element C)) (s : State C) (hf : ∀ e ∈ l.flatMap parts, Fresh style s.ids e)
    (hc : ∀ e ∈ l.flatMap parts, Fresh style (clippedIds l) e) (hp : (l.flatMap parts).Pairwise (Apart style)) (b : Name) :
    visited b (l.foldl (visit style) s).trace = visited b s.trace ++ (l.flatMap parts).filter (wants style b) := by
  induction l generalizing s with
  | nil => simp
  | cons f l ih =>
    rw [List.flatMap_cons, List.pairwise_append] at hp
    obtain ⟨p1, p2, p3⟩ := hp
    have hcl : ∀ e, Fresh style (clippedIds (f :: l)) e → Fresh style (clippedIds [f]) e ∧ Fresh style (clippedIds l) e := by
      intro e h
      rw [clippedIds_cons] at h
      exact ⟨fun h1 h2 h3 => h h1 h2 (by simp [h3]), fun h1 h2 h3 => h h1 h2 (by simp [h3])⟩
    obtain ⟨a1, a2⟩ := visit_visited hstyle s f (fun e he => hf e (by simp [he])) (fun e he => (hcl e (hc e (by simp [he]))).1) p1 b
    have hmem : ∀ e ∈ l.flatMap parts, e ∈ (f :: l).flatMap parts := by
      intro e he
      rw [List.flatMap_cons]
      exact List.mem_append_right _ he
    rw [List.foldl_cons, ih _ (fun e he => a2 e (hf e (hmem e he)) (hcl e (hc e (hmem e he))).1 fun e' he' => p3 e' he' e he)
      (fun e he => (hcl e (hc e (hmem e he))).2) p2, a1, List.append_assoc, ← List.filter_append]
    rfl

end QuadKeyBuilderProof

/-- C26 (partial): if no id is there twice, and no id of a styled element is one of a clipped element, every builder gets exactly the parts which want it, in the order in
which they were found. Missing: ids are there twice, see the violations. -/
theorem C26_exactly_partial (hstyle : ∀ e, (style e).builders.Nodup) (found : List (Element C))
    (hid : (found.flatMap parts).Pairwise fun a e => (style a).empty = false → (style e).empty = false → e.id ≠ 0 → a.id ≠ e.id)
    (hc : ∀ e ∈ found.flatMap parts, (style e).empty = false → e.id ≠ 0 → e.id ∉ clippedIds found) (b : Name) :
    visited b (build style order found) = (found.flatMap parts).filter fun e => !(style e).empty && decide (b ∈ (style e).builders) := by
  rw [visited_build, found_visited hstyle found init (fun e _ _ _ => by simp [init]) hc hid b]
  rfl

/-- The hypotheses of `C26_exactly_partial` are met by a node, and a way with another id which was cut in two. -/
example : visited ['t'] (build (C := Nat) (fun _ => ⟨false, [['t']]⟩) _root_.id [.node 1 [⟨1, 2⟩] 0, .relation 2 [] [.way 0 [⟨1, 2⟩] [0, 1], .way 0 [⟨1, 2⟩] [3, 4]]]) =
    [.node 1 [⟨1, 2⟩] 0, .way 0 [⟨1, 2⟩] [0, 1], .way 0 [⟨1, 2⟩] [3, 4]] := by
  rw [C26_exactly_partial (hstyle := by simp)]
  · simp [parts]
  · simp [parts, Element.id]
  · simp [parts, Element.id, clippedIds]

/-- C26 is violated: ids of nodes, ways and relations are independent in OSM but share one set here, so of a node and a way with the same id
only the first one found is built. -/
theorem C26_violated_same_id (i : UInt64) (hi : i ≠ 0) (tn tw : List Tag) (c : C) (cs : List C) (b : Name) :
    visited b (build (fun _ => ⟨false, [b]⟩) _root_.id [.node i tn c, .way i tw cs]) = [.node i tn c] := by
  simp [build, complete, visit, visitElement, canBuild, init, Element.id, hi, useBuilder, visited]

/-- C26 is violated: an element found in two stores and clipped in both is built twice. -/
theorem C26_violated_clipped (i : UInt64) (t : List Tag) (cs cs' : List C) (b : Name) :
    visited b (build (fun _ => ⟨false, [b]⟩) _root_.id
      [.relation i [] [.way 0 t cs, .way 0 t cs'], .relation i [] [.way 0 t cs, .way 0 t cs']]) =
      [.way 0 t cs, .way 0 t cs', .way 0 t cs, .way 0 t cs'] := by
  simp [build, complete, visit, visitElement, canBuild, init, Element.id, useBuilder, visited]

/-- Three elements, one found twice, two builders. -/
example : build (C := Nat) (fun e => if e.tags = [] then ⟨true, []⟩ else ⟨false, [['t'], ['x']]⟩) List.reverse
      [.node 1 [⟨1, 2⟩] 0, .way 2 [] [0, 1], .node 1 [⟨1, 2⟩] 0] =
    [.prepare ['t'], .visit ['t'] (.node 1 [⟨1, 2⟩] 0), .prepare ['x'], .visit ['x'] (.node 1 [⟨1, 2⟩] 0),
      .complete ['x'], .complete ['t']] := by
  simp [build, complete, visit, visitElement, canBuild, init, Element.id, Element.tags, useBuilder]

end Verif.Props
