import Verif.Props.StyleRefuseSpec

/-! # Stylesheets which are not understood are refused (C28) -/
namespace Verif.Props
open Verif.Style Verif.StyleTagSpec Verif.StyleRefuseSpec

variable {D : Type}

namespace StyleRefuseProof

/-- The call returns if `P` and ends with an exception otherwise. -/
def Decides {α : Type} (P : Prop) (o : Outcome α) : Prop :=
  (P ∧ ∃ a, o = .ok a) ∨ (¬ P ∧ ∃ e, e ∈ ["domain_error", "bad_lexical_cast"] ∧ o = .throw e)

theorem fold_decides {α β : Type} {f : β → α → Outcome β} {P : α → Prop} {l : List α} (h : ∀ a ∈ l, ∀ b, Decides (P a) (f b a)) (b : β) :
    Decides (∀ a ∈ l, P a) (foldOutcome f b l) := by
  induction l generalizing b with
  | nil => exact .inl ⟨by simp, b, rfl⟩
  | cons x l ih =>
    rw [foldOutcome]
    rcases h x (by simp) b with ⟨hp, a, ha⟩ | ⟨hp, e, he, ha⟩
    · rw [ha]
      simp only [Outcome.bind]
      rcases ih (fun y hy => h y (by simp [hy])) a with ⟨hq, hr⟩ | ⟨hq, hr⟩
      · exact .inl ⟨by simpa using ⟨hp, hq⟩, hr⟩
      · exact .inr ⟨fun hc => hq fun y hy => hc y (by simp [hy]), hr⟩
    · rw [ha]
      exact .inr ⟨fun hc => hp (hc x (by simp)), e, he, rfl⟩

theorem op_iff (o : Str) : (∃ x, opOf o = some x) ↔ o ∈ operations := by
  unfold operations
  constructor
  · rintro ⟨x, h⟩
    unfold opOf at h
    repeat' split at h
    all_goals first | (cases h; done) | (rename_i e; subst e; decide)
  · intro h
    simp only [List.mem_cons, List.not_mem_nil, or_false] at h
    rw [← Option.isSome_iff_exists]
    rcases h with rfl | rfl | rfl | rfl | rfl <;> decide

theorem kind_iff (n : Str) : (∃ k, kindOf n = some k) ↔ n ∈ names := by
  unfold names
  constructor
  · rintro ⟨x, h⟩
    unfold kindOf at h
    repeat' split at h
    all_goals first | (cases h; done) | (rename_i e; subst e; decide)
  · intro h
    simp only [List.mem_cons, List.not_mem_nil, or_false] at h
    rw [← Option.isSome_iff_exists]
    rcases h with rfl | rfl | rfl | rfl | rfl <;> decide

theorem conditions_decides (env : Env D) (cs : List Condition) : Decides (∀ c ∈ cs, c.operation ∈ operations) (addConditions env cs) := by
  induction cs with
  | nil => exact .inl ⟨by simp, [], rfl⟩
  | cons c cs ih =>
    rw [addConditions]
    cases h : opOf c.operation with
    | none =>
      refine .inr ⟨fun hc => ?_, _, by simp, rfl⟩
      obtain ⟨x, hx⟩ := (op_iff _).2 (hc c (by simp))
      rw [h] at hx; cases hx
    | some op =>
      have hm := (op_iff _).1 ⟨op, h⟩
      rcases ih with ⟨hq, l, hl⟩ | ⟨hq, e, he, hl⟩
      · exact .inl ⟨by simpa using ⟨hm, hq⟩, _, by rw [hl]; rfl⟩
      · exact .inr ⟨fun hc => hq fun y hy => hc y (by simp [hy]), e, he, by rw [hl]; rfl⟩

theorem name_decides (env : Env D) (r : Rule) (hr : r.declarations ≠ []) (s : Selector) (n : Str) (hs : n = "element".toList → s.conditions ≠ []) (fc : FilterCollection) :
    Decides (Understood env s n) (addName env fc r s n) := by
  rw [addName]
  cases hk : kindOf n with
  | some k =>
    have hn := (kind_iff n).1 ⟨k, hk⟩
    have hne : n ≠ "element".toList := by rintro rfl; revert hn; decide
    simp only [addConditionRule]
    rcases conditions_decides env s.conditions with ⟨hq, l, hl⟩ | ⟨hq, e, he, hl⟩
    · exact .inl ⟨.inl ⟨hn, hq⟩, _, by rw [hl]; rfl⟩
    · refine .inr ⟨?_, e, he, by rw [hl]; rfl⟩
      rintro (⟨-, h⟩ | ⟨h, -⟩)
      · exact hq h
      · exact hne h
  | none =>
    have hn : n ∉ names := fun h => by
      obtain ⟨k, h⟩ := (kind_iff n).2 h
      rw [hk] at h; cases h
    simp only
    split
    · rename_i he
      unfold addIdentifierRule
      split
      · contradiction
      · split
        · rename_i hc
          exact absurd hc (hs he)
        · rename_i c cs hc
          split
          · rename_i hid
            refine .inr ⟨?_, _, by simp, rfl⟩
            rintro (⟨h, -⟩ | ⟨-, c', cs', id, h, h'⟩)
            · exact hn h
            · rw [hc] at h; cases h; rw [hid] at h'; cases h'
          · rename_i id hid
            exact .inl ⟨.inr ⟨he, c, cs, id, hc, hid⟩, _, rfl⟩
    · rename_i he
      refine .inr ⟨?_, _, by simp, rfl⟩
      rintro (⟨h, -⟩ | ⟨h, -⟩)
      · exact hn h
      · exact he h

theorem build_decides (env : Env D) (rules : List Rule) (h : Parsed rules) : Decides (AllUnderstood env rules) (build env rules) := by
  unfold AllUnderstood build
  refine fold_decides (P := fun r : Rule => ∀ s ∈ r.selectors, ∀ n ∈ s.names, Understood env s n) (fun r hr fc => ?_) emptyFilters
  refine fold_decides (P := fun s : Selector => ∀ n ∈ s.names, Understood env s n) (fun s hs fc => ?_) fc
  exact fold_decides (P := fun n : Str => Understood env s n) (fun n hn fc => name_decides env r (h r hr).1 s n (fun e => (h r hr).2 s hs (e ▸ hn)) fc) fc

end StyleRefuseProof
open StyleRefuseProof

/-- C28: a stylesheet whose selectors have known names, known operations and numbers as ids is accepted. -/
theorem C28_accepted (env : Env D) {rules : List Rule} (h : Parsed rules) (hu : AllUnderstood env rules) : ∃ fc, build env rules = .ok fc := by
  rcases build_decides env rules h with ⟨-, h⟩ | ⟨h, -⟩
  · exact h
  · exact absurd hu h

/-- C28: a stylesheet with a selector which is not understood is refused with an exception, wherever it is. -/
theorem C28_refused (env : Env D) {rules : List Rule} (h : Parsed rules) (hu : ¬ AllUnderstood env rules) :
    build env rules = .throw "domain_error" ∨ build env rules = .throw "bad_lexical_cast" := by
  rcases build_decides env rules h with ⟨h, -⟩ | ⟨-, e, he, h⟩
  · exact absurd h hu
  · rw [h]
    simp only [List.mem_cons, List.not_mem_nil, or_false] at he
    rcases he with rfl | rfl <;> simp

/-- The reason of the refusal for a stylesheet with one selector: unknown names and operations are domain errors, ids which are no numbers are not. -/
theorem C28_reason (env : Env D) (n : Str) (z : Zoom) (c : Condition) (d : Declaration) :
    (n ∉ "element".toList :: names → build env [⟨[⟨[n], z, [c]⟩], [d]⟩] = .throw "domain_error") ∧
    (n ∈ names → c.operation ∉ operations → build env [⟨[⟨[n], z, [c]⟩], [d]⟩] = .throw "domain_error") ∧
    (n = "element".toList → env.castId c.value = none → build env [⟨[⟨[n], z, [c]⟩], [d]⟩] = .throw "bad_lexical_cast") := by
  simp only [build, foldOutcome, addName]
  refine ⟨fun h => ?_, fun h ho => ?_, fun h hc => ?_⟩
  · have hk : kindOf n = none := by
      cases hk : kindOf n with
      | none => rfl
      | some k => exact absurd ((kind_iff n).1 ⟨k, hk⟩) fun hn => h (by simp [hn])
    rw [hk]
    simp only [if_neg (fun e => h (by rw [e]; simp) : ¬ n = "element".toList), Outcome.bind]
  · obtain ⟨k, hk⟩ := (kind_iff n).2 h
    have hop : opOf c.operation = none := by
      cases hop : opOf c.operation with
      | none => rfl
      | some o => exact absurd ((op_iff _).1 ⟨o, hop⟩) ho
    rw [hk]
    simp only [addConditionRule, addConditions, hop, Outcome.bind]
  · subst h
    rw [show kindOf "element".toList = none by decide]
    simp only [if_true, addIdentifierRule, hc, Outcome.bind]

/-- A rule for ways with a known operation, in front of one for a misspelled name. -/
example (env : Env D) : let good : Rule := ⟨[⟨["way".toList, "area".toList], ⟨1, 2⟩, [⟨['a'], "!=".toList, ['b']⟩]⟩], [⟨['x'], ['1']⟩]⟩
    let bad : Rule := ⟨[⟨["wya".toList], ⟨1, 2⟩, [⟨['a'], [], []⟩]⟩], [⟨['x'], ['1']⟩]⟩
    (∃ fc, build env [good] = .ok fc) ∧ (build env [good, bad] = .throw "domain_error" ∨ build env [good, bad] = .throw "bad_lexical_cast") := by
  intro good bad
  refine ⟨C28_accepted env (by simp [Parsed, good]) ?_, C28_refused env (by simp [Parsed, good, bad]) ?_⟩
  · intro r hr s hs n hn
    simp only [good, List.mem_singleton] at hr; subst hr
    simp only [List.mem_singleton] at hs; subst hs
    simp only [List.mem_cons, List.not_mem_nil, or_false] at hn
    rcases hn with rfl | rfl <;> exact .inl ⟨by decide, by intro c hc; simp only [List.mem_singleton] at hc; subst hc; decide⟩
  · intro h
    rcases h bad (by simp) _ (by simp [bad]; rfl) "wya".toList (by simp) with ⟨h, -⟩ | ⟨h, -⟩ <;> revert h <;> decide

end Verif.Props
