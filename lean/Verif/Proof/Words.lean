import Verif.Model.BitmapIndex
import Verif.Props.StoreSpec

/-! The tokenizer yields exactly the words of a text. -/
namespace Verif.BitmapIndex
open Verif.Props.StoreSpec

theorem isSep_iff (c : UInt8) : IsSep c ↔ c ∈ separators := by
  unfold IsSep
  have : (" _:;!@#$%^&*(){}[],.?`\\/\"'".toList.map fun c => c.val.toUInt8) = separators := by decide +kernel
  rw [this]

theorem isWord_all {cur w : Bytes} (h : ∀ c ∈ cur, ¬ IsSep c) : IsWord cur w ↔ cur ≠ [] ∧ w = cur := by
  constructor
  · rintro ⟨h1, h2, a, b, e, h3, h4⟩
    have ha : a = [] := by
      cases hl : a.getLast? with
      | none => simpa using hl
      | some c =>
        have := List.mem_of_getLast? hl
        exact absurd (h3 c hl) (h c (by rw [e]; simp [this]))
    have hb : b = [] := by
      cases hl : b.head? with
      | none => simpa using hl
      | some c =>
        have := List.mem_of_mem_head? hl
        exact absurd (h4 c hl) (h c (by rw [e]; simp [this]))
    subst ha; subst hb
    simp at e; subst e
    exact ⟨h1, rfl⟩
  · rintro ⟨h1, rfl⟩
    exact ⟨h1, h, [], [], by simp, by simp, by simp⟩

theorem isWord_cons {cur cs w : Bytes} {c : UInt8} (h : ∀ c ∈ cur, ¬ IsSep c) (hc : IsSep c) :
    IsWord (cur ++ c :: cs) w ↔ (cur ≠ [] ∧ w = cur) ∨ IsWord cs w := by
  constructor
  · rintro ⟨h1, h2, a, b, e, h3, h4⟩
    rw [List.append_assoc] at e
    cases hl : a.getLast? with
    | none =>
      have ha : a = [] := by simpa using hl
      subst ha
      rw [List.nil_append] at e
      left
      rcases List.append_eq_append_iff.1 e with ⟨a', e1, e2⟩ | ⟨c', e1, e2⟩
      · cases a' with
        | nil => simp at e1; subst e1; exact ⟨h1, rfl⟩
        | cons x xs =>
          simp at e2; obtain ⟨rfl, _⟩ := e2
          exact absurd hc (h2 c (by rw [e1]; simp))
      · cases c' with
        | nil => simp at e1; subst e1; exact ⟨h1, rfl⟩
        | cons x xs =>
          exact absurd (h4 x (by rw [e2]; simp)) (h x (by rw [e1]; simp))
    | some d =>
      have hd := h3 d hl
      rcases List.append_eq_append_iff.1 e with ⟨a', e1, e2⟩ | ⟨c', e1, e2⟩
      · cases a' with
        | nil =>
          simp at e1; subst e1
          exact absurd hd (h d (List.mem_of_getLast? hl))
        | cons x xs =>
          simp at e2
          obtain ⟨rfl, e2⟩ := e2
          right
          refine ⟨h1, h2, xs, b, by rw [e2]; simp, ?_, h4⟩
          intro z hz
          apply h3
          rw [e1, List.getLast?_append, List.getLast?_cons, hz]; simp
      · exact absurd hd (h d (by rw [e1]; simp [List.mem_of_getLast? hl]))
  · rintro (⟨h1, rfl⟩ | ⟨h1, h2, a, b, e, h3, h4⟩)
    · exact ⟨h1, h, [], c :: cs, by simp, by simp, by simpa using hc⟩
    · refine ⟨h1, h2, cur ++ c :: a, b, by rw [e]; simp, ?_, h4⟩
      intro z hz
      rw [List.getLast?_append, List.getLast?_cons] at hz
      cases hl : a.getLast? with
      | none => rw [hl] at hz; simp at hz; subst hz; exact hc
      | some y => rw [hl] at hz; simp at hz; subst hz; exact h3 _ hl

theorem mem_splitTokens (s : Bytes) : ∀ (cur : Bytes), (∀ c ∈ cur, ¬ IsSep c) → ∀ w,
    w ∈ splitTokens cur s ↔ IsWord (cur ++ s) w := by
  induction s with
  | nil =>
    intro cur h w
    rw [List.append_nil, isWord_all h]
    unfold splitTokens
    split <;> simp_all
  | cons c cs ih =>
    intro cur h w
    unfold splitTokens
    by_cases hc : c ∈ separators
    · rw [if_pos hc, isWord_cons h ((isSep_iff c).2 hc)]
      have := ih [] (by simp) w
      rw [List.nil_append] at this
      rw [← this]
      split <;> simp_all
    · rw [if_neg hc, ih (cur ++ [c]) ?_ w]
      · simp
      · intro d hd
        rcases List.mem_append.1 hd with hd | hd
        · exact h d hd
        · simp only [List.mem_singleton] at hd; subst hd; rwa [isSep_iff]

theorem mem_tokenize (st : Strings) (s : Bytes) (t : UInt32) :
    t ∈ tokenize st s ↔ ∃ w, IsWord s w ∧ st.id w = t := by
  unfold tokenize
  rw [List.mem_map]
  constructor
  · rintro ⟨w, hw, e⟩; exact ⟨w, by simpa using (mem_splitTokens s [] (by simp) w).1 hw, e⟩
  · rintro ⟨w, hw, e⟩; exact ⟨w, (mem_splitTokens s [] (by simp) w).2 (by simpa using hw), e⟩

theorem mem_elementTokens {C : Type} (st : Strings) (e : Element C) (t : UInt32) :
    t ∈ elementTokens st e ↔ ∃ w, HasWord st.str e w ∧ st.id w = t := by
  unfold elementTokens HasWord
  simp only [List.mem_flatMap, List.mem_append, mem_tokenize]
  constructor
  · rintro ⟨g, hg, ⟨w, hw, e⟩ | ⟨w, hw, e⟩⟩
    · exact ⟨w, ⟨g, hg, .inl hw⟩, e⟩
    · exact ⟨w, ⟨g, hg, .inr hw⟩, e⟩
  · rintro ⟨w, ⟨g, hg, hw | hw⟩, e⟩
    · exact ⟨g, hg, .inl ⟨w, hw, e⟩⟩
    · exact ⟨g, hg, .inr ⟨w, hw, e⟩⟩

end Verif.BitmapIndex
