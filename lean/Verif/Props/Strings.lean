import Verif.Model.Strings
import Verif.Props.StringsSpec

/-! # Properties of string helpers -/
namespace Verif.Props
open Verif.Strings
open Verif.StringsSpec

namespace StringsProof
variable {A : Type} [DecidableEq A]

theorem getline_none (c : A) (text : List A) (h : c ∉ text) : getline c text = (text, none) := by
  induction text with
  | nil => rfl
  | cons a rest ih =>
    simp only [List.mem_cons, not_or] at h
    rw [getline, if_neg (fun e => h.1 e.symm), ih h.2]

theorem getline_some (c : A) (line rest : List A) (h : c ∉ line) : getline c (line ++ c :: rest) = (line, some rest) := by
  induction line with
  | nil => rw [List.nil_append, getline, if_pos rfl]
  | cons a line ih =>
    simp only [List.mem_cons, not_or] at h
    rw [List.cons_append, getline, if_neg (fun e => h.1 e.symm), ih h.2]

theorem splitLoop_join (c : A) (parts : List (List A)) (hne : parts ≠ []) (h : ∀ p ∈ parts, c ∉ p) :
    ∀ fuel, parts.length ≤ fuel → splitLoop c fuel (join c parts) = parts := by
  induction parts with
  | nil => exact absurd rfl hne
  | cons p rest ih =>
    intro fuel hf
    obtain ⟨n, rfl⟩ : ∃ n, fuel = n + 1 := ⟨fuel - 1, by simp only [List.length_cons] at hf; omega⟩
    cases rest with
    | nil => rw [join, splitLoop, getline_none c p (h p List.mem_cons_self)]
    | cons q rest =>
      rw [join, splitLoop, getline_some c p _ (h p List.mem_cons_self)]
      · show p :: splitLoop c n (join c (q :: rest)) = _
        rw [ih (by simp) (fun r hr => h r (List.mem_cons_of_mem _ hr)) n (by simp only [List.length_cons] at hf ⊢; omega)]
      · simp

theorem parts_exist (c : A) (text : List A) : ∃ parts : List (List A), parts ≠ [] ∧ (∀ p ∈ parts, c ∉ p) ∧ join c parts = text := by
  induction text with
  | nil => exact ⟨[[]], by simp, by simp, rfl⟩
  | cons a rest ih =>
    obtain ⟨parts, h1, h2, h3⟩ := ih
    by_cases ha : a = c
    · refine ⟨[] :: parts, by simp, ?_, ?_⟩
      · intro p hp
        rcases List.mem_cons.1 hp with rfl | hp
        · simp
        · exact h2 p hp
      · cases parts with
        | nil => exact absurd rfl h1
        | cons q qs => rw [join, h3, ha]; rfl; simp
    · cases parts with
      | nil => exact absurd rfl h1
      | cons q qs =>
        refine ⟨(a :: q) :: qs, by simp, ?_, ?_⟩
        · intro p hp
          rcases List.mem_cons.1 hp with rfl | hp
          · simp only [List.mem_cons, not_or]
            exact ⟨fun e => ha e.symm, h2 q List.mem_cons_self⟩
          · exact h2 p (List.mem_cons_of_mem _ hp)
        · rw [← h3]
          cases qs with
          | nil => rfl
          | cons r rs => rfl

theorem join_length (c : A) (parts : List (List A)) : parts.length ≤ (join c parts).length + 1 := by
  induction parts with
  | nil => simp
  | cons p rest ih =>
    cases rest with
    | nil => simp
    | cons q qs => rw [join]; simp only [List.length_append, List.length_cons] at ih ⊢; omega; simp

theorem findLastOf_none (cs : List A) (text : List A) (h : ∀ a ∈ text, a ∉ cs) : findLastOf cs text = none := by
  induction text with
  | nil => rfl
  | cons a rest ih =>
    rw [findLastOf, ih fun b hb => h b (List.mem_cons_of_mem _ hb)]
    simp only [if_neg (h a List.mem_cons_self)]

theorem findLastOf_some (cs : List A) (l r : List A) (a : A) (ha : a ∈ cs) (h : ∀ b ∈ r, b ∉ cs) : findLastOf cs (l ++ a :: r) = some l.length := by
  induction l with
  | nil => rw [List.nil_append, findLastOf, findLastOf_none cs r h]; simp only [if_pos ha]; rfl
  | cons b l ih => rw [List.cons_append, findLastOf, ih]; rfl

theorem zip_all (a b : List A) (h : a.length ≤ b.length) : ((a.zip b).all fun (x, y) => decide (x = y)) = true ↔ ∃ t, b = a ++ t := by
  induction a generalizing b with
  | nil => simp
  | cons x a ih =>
    cases b with
    | nil => simp at h
    | cons y b =>
      simp only [List.length_cons, Nat.add_le_add_iff_right] at h
      rw [List.zip_cons_cons, List.all_cons, Bool.and_eq_true, ih b h]
      constructor
      · rintro ⟨h1, t, rfl⟩
        exact ⟨t, by rw [of_decide_eq_true h1]; rfl⟩
      · rintro ⟨t, ht⟩
        simp only [List.cons_append, List.cons.injEq] at ht
        exact ⟨decide_eq_true ht.1.symm, t, ht.2⟩

end StringsProof

open StringsProof
variable {A : Type} [DecidableEq A]

/-- C53: splitting gives parts without delimiter whose join is the text, and they are the only such parts. -/
theorem C53_split (c : A) (text : List A) :
    splitBy c text ≠ [] ∧ (∀ p ∈ splitBy c text, c ∉ p) ∧ join c (splitBy c text) = text ∧
      ∀ parts : List (List A), parts ≠ [] → (∀ p ∈ parts, c ∉ p) → join c parts = text → parts = splitBy c text := by
  obtain ⟨parts, h1, h2, h3⟩ := parts_exist c text
  have key : ∀ parts : List (List A), parts ≠ [] → (∀ p ∈ parts, c ∉ p) → join c parts = text → parts = splitBy c text := by
    intro parts h1 h2 h3
    have := splitLoop_join c parts h1 h2 (text.length + 1) (by rw [← h3]; exact join_length c parts)
    rw [h3] at this
    exact this.symm
  have e := key parts h1 h2 h3
  rw [← e]
  exact ⟨h1, h2, h3, fun ps a b d => (key ps a b d).trans e.symm⟩

/-- C53: `endsWith` is true exactly for suffixes. -/
theorem C53_endsWith (value ending : List A) : endsWith value ending = true ↔ ∃ before, value = before ++ ending := by
  unfold endsWith
  by_cases h : ending.length > value.length
  · rw [if_pos h]
    constructor
    · intro h; cases h
    · rintro ⟨b, rfl⟩; rw [List.length_append] at h; omega
  · rw [if_neg h, zip_all _ _ (by simp; omega)]
    constructor
    · rintro ⟨t, ht⟩
      exact ⟨t.reverse, by rw [← List.reverse_reverse value, ht]; simp⟩
    · rintro ⟨b, rfl⟩
      exact ⟨b.reverse, by simp⟩

/-- C53: the file name helper strips the directory and the last extension; it leaves a name without extension as it is. -/
theorem C53_fileName (backslash slash dot : A) (hd1 : dot ≠ slash) (hd2 : dot ≠ backslash) (dir stem ext : List A)
    (hdir : dir = [] ∨ ∃ d s, dir = d ++ [s] ∧ (s = slash ∨ s = backslash))
    (hstem : ∀ a ∈ stem, a ≠ slash ∧ a ≠ backslash) (hext : ∀ a ∈ ext, a ≠ slash ∧ a ≠ backslash ∧ a ≠ dot) :
    getFileNameWithoutExtension backslash slash dot (dir ++ (stem ++ dot :: ext)) = stem ∧
    (dot ∉ stem → getFileNameWithoutExtension backslash slash dot (dir ++ stem) = stem) := by
  have strip : ∀ name : List A, (∀ a ∈ name, a ≠ slash ∧ a ≠ backslash) →
      stripDirectory backslash slash (dir ++ name) = name := by
    intro name hname
    unfold stripDirectory
    have hn : ∀ a ∈ name, a ∉ [backslash, slash] := by
      intro a ha
      simp only [List.mem_cons, List.not_mem_nil, or_false, not_or]
      exact ⟨(hname a ha).2, (hname a ha).1⟩
    rcases hdir with rfl | ⟨d, s, rfl, hs⟩
    · rw [List.nil_append, findLastOf_none _ _ hn]
    · rw [show d ++ [s] ++ name = d ++ s :: name by simp, findLastOf_some [backslash, slash] d name s (by rcases hs with rfl | rfl <;> simp) hn]
      simp only []
      rw [show d ++ s :: name = (d ++ [s]) ++ name by simp, show d.length + 1 = (d ++ [s]).length by simp, List.drop_left]
      apply List.take_of_length_le
      simp
  constructor
  · unfold getFileNameWithoutExtension
    simp only []
    rw [strip (stem ++ dot :: ext)]
    · rw [findLastOf_some [dot] stem ext dot (by simp) (by intro b hb; simp; exact (hext b hb).2.2)]
      simp
    · intro a ha
      rcases List.mem_append.1 ha with ha | ha
      · exact hstem a ha
      · rcases List.mem_cons.1 ha with rfl | ha
        · exact ⟨hd1, hd2⟩
        · exact ⟨(hext a ha).1, (hext a ha).2.1⟩
  · intro hdot
    unfold getFileNameWithoutExtension
    simp only []
    rw [strip stem hstem, findLastOf_none [dot] stem (by intro b hb; simp; rintro rfl; exact hdot hb)]

/-- C53: the format of a data file is the one of its ending, in any directory. -/
theorem C53_format (name : List Char) :
    formatOf (name ++ ['p', 'b', 'f']) = .pbf ∧ formatOf (name ++ ['x', 'm', 'l']) = .xml ∧ formatOf (name ++ ['j', 's', 'o', 'n']) = .json ∧
    formatOf (name ++ ['s', 'h', 'p']) = .shape := by
  have no : ∀ (e e' : List Char), e.length = e'.length → e ≠ e' → endsWith (name ++ e) e' = false := by
    intro e e' hl hne
    cases h : endsWith (name ++ e) e' with
    | false => rfl
    | true =>
      obtain ⟨b, hb⟩ := (C53_endsWith _ _).1 h
      exact absurd (List.append_inj_right' hb hl) hne
  have yes : ∀ e : List Char, endsWith (name ++ e) e = true := fun e => (C53_endsWith _ _).2 ⟨name, rfl⟩
  have json : ∀ e : List Char, e.length = 3 → e ≠ ['s', 'o', 'n'] → endsWith (name ++ e) ['j', 's', 'o', 'n'] = false := by
    intro e hl hne
    cases h : endsWith (name ++ e) ['j', 's', 'o', 'n'] with
    | false => rfl
    | true =>
      obtain ⟨b, hb⟩ := (C53_endsWith _ _).1 h
      rw [show b ++ ['j', 's', 'o', 'n'] = (b ++ ['j']) ++ ['s', 'o', 'n'] by simp] at hb
      exact absurd (List.append_inj_right' hb (by rw [hl]; rfl)) hne
  have son : ∀ e' : List Char, e'.length = 3 → e' ≠ ['s', 'o', 'n'] → endsWith (name ++ ['j', 's', 'o', 'n']) e' = false := by
    intro e' hl hne
    have := no
    cases h : endsWith (name ++ ['j', 's', 'o', 'n']) e' with
    | false => rfl
    | true =>
      obtain ⟨b, hb⟩ := (C53_endsWith _ _).1 h
      rw [show name ++ ['j', 's', 'o', 'n'] = (name ++ ['j']) ++ ['s', 'o', 'n'] by simp] at hb
      exact absurd (List.append_inj_right' hb (by rw [hl]; rfl)).symm hne
  unfold formatOf
  simp only [yes, no ['x', 'm', 'l'] ['p', 'b', 'f'] rfl (by decide), no ['s', 'h', 'p'] ['p', 'b', 'f'] rfl (by decide),
    no ['s', 'h', 'p'] ['x', 'm', 'l'] rfl (by decide), json ['s', 'h', 'p'] rfl (by decide), son ['p', 'b', 'f'] rfl (by decide),
    son ['x', 'm', 'l'] rfl (by decide), if_true, Bool.false_eq_true, if_false, and_self]

example : splitBy ',' ['a', ',', ',', 'b', ','] = [['a'], [], ['b'], []] := by decide +kernel
example : getFileNameWithoutExtension '\\' '/' '.' ['l', '/', 'a', '.', 'b', '/', 't', '.', 'x', '.', 'y'] = ['t', '.', 'x'] :=
  (C53_fileName '\\' '/' '.' (by decide) (by decide) ['l', '/', 'a', '.', 'b', '/'] ['t', '.', 'x'] ['y']
    (.inr ⟨['l', '/', 'a', '.', 'b'], '/', rfl, .inl rfl⟩) (by decide) (by decide)).1

end Verif.Props
