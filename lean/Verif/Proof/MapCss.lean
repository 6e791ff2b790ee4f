import Verif.Props.MapCssSpec
import Mathlib.Tactic.Conv

/-! # Lemmas about the stylesheet grammar -/
namespace Verif.MapCssProof
open Verif.MapCss Verif.MapCssSpec

variable {α : Type}

theorem dropPrefix_append (p t : List Char) : dropPrefix p (p ++ t) = some t := by
  induction p with
  | nil => rfl
  | cons a p ih => simp [dropPrefix, ih]

theorem dropPrefix_eq {p t r : List Char} (h : dropPrefix p t = some r) : t = p ++ r := by
  induction p generalizing t with
  | nil => simpa [dropPrefix] using h
  | cons a p ih =>
    cases t with
    | nil => simp [dropPrefix] at h
    | cons b t =>
      simp only [dropPrefix] at h
      split at h
      · rename_i e
        rw [e, ih h]
        rfl
      · cases h

theorem dropPrefix_none {p t : List Char} (h : ¬ p <+: t) : dropPrefix p t = none := by
  cases e : dropPrefix p t with
  | none => rfl
  | some r => exact absurd ⟨r, (dropPrefix_eq e).symm⟩ h

theorem afterClose_ok {close body : List Char} (hc : close ≠ []) (h : Body close body) (rest : List Char) :
    afterClose close (body ++ close ++ rest) = some rest := by
  induction body with
  | nil =>
    cases close with
    | nil => exact absurd rfl hc
    | cons c t =>
      simp only [List.nil_append, List.cons_append, afterClose]
      rw [← List.cons_append, dropPrefix_append]
  | cons b body ih =>
    have hn : ¬ close <+: b :: (body ++ close ++ rest) := by
      intro hp
      apply h 0 (by simp)
      have h2 : (b :: body ++ close) <+: b :: (body ++ close ++ rest) := ⟨rest, by simp⟩
      simpa using List.prefix_of_prefix_length_le hp h2 (by simp; omega)
    simp only [List.cons_append, afterClose]
    rw [dropPrefix_none hn]
    refine ih fun i hi => ?_
    have := h (i + 1) (by simpa using hi)
    simpa using this

theorem isSpace_iff (c : Char) : isSpace c = true ↔ Space c := by
  unfold isSpace Space
  simp only [Bool.decide_or, Bool.decide_and, Bool.or_eq_true, Bool.and_eq_true, decide_eq_true_eq, List.mem_cons, List.not_mem_nil, or_false]
  constructor
  · rintro (h | ⟨h1, h2⟩)
    · exact .inl h
    · have : c = Char.ofNat c.toNat := (Char.ofNat_toNat c).symm
      rw [this]
      generalize c.toNat = n at h1 h2
      have : n = 9 ∨ n = 10 ∨ n = 11 ∨ n = 12 ∨ n = 13 := by omega
      rcases this with rfl | rfl | rfl | rfl | rfl <;> decide
  · rintro (rfl | rfl | rfl | rfl | rfl | rfl) <;> decide

theorem skipOne_nil : skipOne [] = none := rfl

theorem skipOne_solid {c : Char} (h : Solid c) (t : List Char) : skipOne (c :: t) = none := by
  obtain ⟨h1, h2, h3⟩ := h
  have : isSpace c = false := by
    rw [← Bool.not_eq_true, isSpace_iff]
    exact h1
  simp [skipOne, this, comment, dropPrefix, h2.symm, h3.symm]

/-- A text which does not begin with a gap. -/
def Stays (t : List Char) : Prop := skipOne t = none

theorem stays_solid {c : Char} (h : Solid c) (t : List Char) : Stays (c :: t) := skipOne_solid h t

theorem skipOne_gap_block {body : List Char} (hb : Body ['*', '/'] body) (rest : List Char) :
    skipOne (['/', '*'] ++ body ++ ['*', '/'] ++ rest) = some rest := by
  have : isSpace '/' = false := by decide
  have h2 := afterClose_ok (close := ['*', '/']) (by simp) hb rest
  simp only [List.append_assoc, List.cons_append, List.nil_append] at h2
  simp [skipOne, this, comment, dropPrefix, h2]

theorem skipOne_gap_html {body : List Char} (hb : Body ['-', '-', '>'] body) (rest : List Char) :
    skipOne (['<', '!', '-', '-'] ++ body ++ ['-', '-', '>'] ++ rest) = some rest := by
  have : isSpace '<' = false := by decide
  have h2 := afterClose_ok (close := ['-', '-', '>']) (by simp) hb rest
  simp only [List.append_assoc, List.cons_append, List.nil_append] at h2
  simp [skipOne, this, comment, dropPrefix, h2]

theorem skipLoop_gap {g : List Char} (hg : Gap g) {rest : List Char} (hr : Stays rest) (n : Nat) (hn : g.length ≤ n) :
    skipLoop n (g ++ rest) = rest := by
  induction hg generalizing n with
  | nil =>
    unfold Stays at hr
    cases n with
    | zero => rfl
    | succ n => simp [skipLoop, hr]
  | space c g hc _ ih =>
    cases n with
    | zero => simp at hn
    | succ n =>
      have : skipOne (c :: g ++ rest) = some (g ++ rest) := by simp [skipOne, (isSpace_iff c).2 hc]
      rw [skipLoop, this]
      exact ih n (by simpa using hn)
  | block body g hb _ ih =>
    cases n with
    | zero => simp at hn
    | succ n =>
      rw [List.append_assoc (['/', '*'] ++ body ++ ['*', '/']), skipLoop, skipOne_gap_block hb]
      exact ih n (by simp at hn; omega)
  | html body g hb _ ih =>
    cases n with
    | zero => simp at hn
    | succ n =>
      rw [List.append_assoc (['<', '!', '-', '-'] ++ body ++ ['-', '-', '>']), skipLoop, skipOne_gap_html hb]
      exact ih n (by simp at hn; omega)

theorem skip_gap {g : List Char} (hg : Gap g) {rest : List Char} (hr : Stays rest) : skip (g ++ rest) = rest :=
  skipLoop_gap hg hr _ (by simp)

theorem skip_stays {t : List Char} (hr : Stays t) : skip t = t := skip_gap .nil hr

theorem lit_ok {g : List Char} (hg : Gap g) (s r : List Char) (h : Stays (s ++ r)) : lit s (g ++ (s ++ r)) = .ok () r := by
  simp [lit, skip_gap hg h, dropPrefix_append]

theorem lit_fail {g : List Char} (hg : Gap g) {r : List Char} (hr : Stays r) (s : List Char) (h : ¬ s <+: r) : lit s (g ++ r) = .fail := by
  simp [lit, skip_gap hg hr, dropPrefix_none h]

theorem chars_ok (stop : List Char → Bool) (w r : List Char) (hw : ∀ c ∈ w, c.toNat < 128 ∧ ∀ t, stop (c :: t) = false)
    (hr : stop r = true ∨ r = []) : chars stop (w ++ r) = (w, r) := by
  induction w with
  | nil =>
    cases r with
    | nil => rfl
    | cons c r =>
      rcases hr with h | h
      · simp [chars, h]
      · cases h
  | cons c w ih =>
    obtain ⟨h1, h2⟩ := hw c List.mem_cons_self
    rw [List.cons_append, chars, if_pos ⟨h1, h2 _⟩, ih fun c' h' => hw c' (List.mem_cons_of_mem _ h')]

theorem lexeme_ok {g : List Char} (hg : Gap g) (stop : List Char → Bool) (without w r : List Char) (hw : Word without w)
    (hs : ∀ c, c ∉ without → ∀ t, stop (c :: t) = false) (hr : stop r = true) : lexeme stop (g ++ (w ++ r)) = .ok w r := by
  obtain ⟨⟨c, t, rfl, hc⟩, hall⟩ := hw
  have h1 : skip (g ++ (c :: t ++ r)) = c :: t ++ r := skip_gap hg (stays_solid hc _)
  have h2 := chars_ok stop (c :: t) r (fun c' h' => ⟨(hall c' h').1, hs c' (hall c' h').2⟩) (.inl hr)
  unfold lexeme
  rw [h1, h2]

theorem lexeme_fail {g : List Char} (hg : Gap g) {r : List Char} (hr : Stays r) (stop : List Char → Bool) (h : stop r = true ∨ r = []) :
    lexeme stop (g ++ r) = .fail := by
  have := chars_ok stop [] r (by simp) h
  rw [List.nil_append] at this
  unfold lexeme
  rw [skip_gap hg hr, this]

theorem many_ok (p : Parser α) (P : α → List Char → Prop) (F : List Char → Prop) (hp : ∀ a w r, P a w → F r → p (w ++ r) = .ok a r)
    (hne : ∀ a w, P a w → w ≠ []) (hF : ∀ a w r, P a w → F (w ++ r)) {as : List α} {ws : List (List Char)} (h : List.Forall₂ P as ws)
    (r : List Char) (hr : F r) (hend : p r = .fail) (n : Nat) (hn : ws.flatten.length ≤ n) : many p n (ws.flatten ++ r) = .ok as r := by
  induction h generalizing n with
  | nil =>
    cases n with
    | zero => rfl
    | succ n => simp [many, hend]
  | @cons a w as ws h1 h2 ih =>
    have hw : 0 < w.length := List.length_pos_of_ne_nil (hne a w h1)
    cases n with
    | zero => simp at hn; exact absurd hn.1 (hne a w h1)
    | succ n =>
      have hF' : F (ws.flatten ++ r) := by
        cases h2 with
        | nil => simpa using hr
        | cons h3 _ =>
          rw [List.flatten_cons, List.append_assoc]
          exact hF _ _ _ h3
      rw [List.flatten_cons, List.append_assoc, many, hp a w _ h1 hF']
      simp only
      rw [ih n (by rw [List.flatten_cons, List.length_append] at hn; omega)]
      rfl

theorem andThen_ok {β : Type} (a : α) (r : List Char) (f : α → List Char → Res β) : (Res.ok a r).andThen f = f a r := rfl
theorem andThen_fail {β : Type} (f : α → List Char → Res β) : (Res.fail : Res α).andThen f = .fail := rfl
theorem andThen_error {β : Type} (f : α → List Char → Res β) : (Res.error : Res α).andThen f = .error := rfl
theorem expect_ok (a : α) (r : List Char) : (Res.ok a r).expect = .ok a r := rfl
theorem expect_fail : (Res.fail : Res α).expect = .error := rfl
theorem optional_ok {d : α} {p : Parser α} {t r} {a} (h : p t = .ok a r) : MapCss.optional d p t = .ok a r := by simp [MapCss.optional, h]
theorem optional_fail {d : α} {p : Parser α} {t} (h : p t = .fail) : MapCss.optional d p t = .ok d t := by simp [MapCss.optional, h]
theorem alternative_left {p q : Parser α} {t r} {a} (h : p t = .ok a r) : alternative p q t = .ok a r := by simp [alternative, h]
theorem alternative_right {p q : Parser α} {t} (h : p t = .fail) : alternative p q t = q t := by simp [alternative, h]

theorem str_ok {g : List Char} (hg : Gap g) (s r : List Char) (h : Stays (s ++ r)) : str s (g ++ (s ++ r)) = .ok s r := by
  rw [str, lit_ok hg s r h]
  rfl

theorem str_fail {g : List Char} (hg : Gap g) {r : List Char} (hr : Stays r) (s : List Char) (h : ¬ s <+: r) : str s (g ++ r) = .fail := by
  rw [str, lit_fail hg hr s h]
  rfl

/-- A literal for a text which begins with another character. -/
theorem not_prefix_cons {a b : Char} (h : a ≠ b) (s t : List Char) : ¬ a :: s <+: b :: t := by
  rintro ⟨u, hu⟩
  exact h (List.cons.inj hu).1

theorem not_prefix_nil (a : Char) (s : List Char) : ¬ a :: s <+: [] := by simp

instance (c : Char) : Decidable (Solid c) := by unfold Solid Space; infer_instance

/-- The first character of a gap. -/
theorem gap_head {c : Char} {g : List Char} (h : Gap (c :: g)) : Space c ∨ c = '/' ∨ c = '<' := by
  generalize e : c :: g = t at h
  cases h with
  | nil => cases e
  | space c' g' hc _ => exact .inl (by rw [(List.cons.inj e).1]; exact hc)
  | block body g' hb _ => exact .inr (.inl (List.cons.inj e).1)
  | html body g' hb _ => exact .inr (.inr (List.cons.inj e).1)

/-! ## Conditions -/

theorem conditionStop_word (c : Char) (h : c ∉ [']', '=', '!', '>', '<']) (t : List Char) : conditionStop (c :: t) = false := by
  simp only [List.mem_cons, List.not_mem_nil, or_false, not_or] at h
  obtain ⟨h1, h2, h3, h4, h5⟩ := h
  simp [conditionStop, dropPrefix, Ne.symm h1, Ne.symm h2, Ne.symm h3, Ne.symm h4, Ne.symm h5]

/-- What follows an operation: a gap and a word, so that no comment begins with the operation. -/
theorem op_stays {op k v r : List Char} (ho : Operation op) (hk : Gap k) (hv : Word [']', '=', '!', '>', '<'] v) : Stays (op ++ (k ++ (v ++ r))) := by
  simp only [Operation, List.mem_cons, List.not_mem_nil, or_false] at ho
  rcases ho with rfl | rfl | rfl | rfl
  · exact stays_solid (by decide) _
  · exact stays_solid (by decide) _
  · exact stays_solid (by decide) _
  · have h1 : ∀ t, k ++ (v ++ r) ≠ '!' :: t := by
      intro t e
      cases k with
      | nil =>
        obtain ⟨⟨c, t', rfl, hc⟩, hall⟩ := hv
        simp only [List.nil_append, List.cons_append, List.cons.injEq] at e
        have := (hall c List.mem_cons_self).2
        rw [e.1] at this
        simp at this
      | cons c k =>
        simp only [List.cons_append, List.cons.injEq] at e
        have := gap_head hk
        rw [e.1] at this
        revert this
        unfold Space
        decide
    have hs : isSpace '<' = false := by decide
    have h2 : dropPrefix ['!', '-', '-'] (k ++ (v ++ r)) = none := by
      apply dropPrefix_none
      rintro ⟨u, hu⟩
      exact h1 _ hu.symm
    have h3 : dropPrefix ['<', '!', '-', '-'] ('<' :: (k ++ (v ++ r))) = none := by rw [dropPrefix, if_pos rfl, h2]
    unfold Stays
    show skipOne ('<' :: (k ++ (v ++ r))) = none
    rw [skipOne, hs, comment, h3]
    simp [dropPrefix]

theorem binary_ok {op k v r : List Char} (ho : Operation op) (hk : Gap k) (hv : Word [']', '=', '!', '>', '<'] v) :
    binary (op ++ (k ++ (v ++ r))) = .ok op (k ++ (v ++ r)) := by
  have hs := op_stays (r := r) ho hk hv
  have ok := str_ok .nil op _ hs
  rw [List.nil_append] at ok
  have fl : ∀ s, ¬ s <+: op ++ (k ++ (v ++ r)) → str s (op ++ (k ++ (v ++ r))) = .fail := fun s h => by
    have := str_fail .nil hs s h
    rwa [List.nil_append] at this
  have ho' := ho
  simp only [Operation, List.mem_cons, List.not_mem_nil, or_false] at ho'
  unfold binary
  rcases ho' with rfl | rfl | rfl | rfl
  · exact alternative_left ok
  · rw [alternative_right (fl _ (not_prefix_cons (by decide) _ _))]
    exact alternative_left ok
  · rw [alternative_right (fl _ (not_prefix_cons (by decide) _ _)), alternative_right (fl _ (not_prefix_cons (by decide) _ _))]
    exact alternative_left ok
  · rw [alternative_right (fl _ (not_prefix_cons (by decide) _ _)), alternative_right (fl _ (not_prefix_cons (by decide) _ _)),
      alternative_right (fl _ (not_prefix_cons (by decide) _ _))]
    exact ok

theorem conditionStop_op {op : List Char} (ho : Operation op) (t : List Char) : conditionStop (op ++ t) = true := by
  simp only [Operation, List.mem_cons, List.not_mem_nil, or_false] at ho
  rcases ho with rfl | rfl | rfl | rfl <;> simp [conditionStop, dropPrefix]

theorem condition_ok {c : Condition} {w : List Char} (h : PrintsCondition c w) (r : List Char) : condition (w ++ r) = .ok c r := by
  cases h with
  | existence g h key hg hh hk =>
    have e1 : lit ['['] (g ++ '[' :: (h ++ key ++ [']']) ++ r) = .ok () (h ++ (key ++ (']' :: r))) := by
      have := lit_ok hg ['['] (h ++ (key ++ (']' :: r))) (stays_solid (by decide) _)
      simpa using this
    have e2 : keyValue (h ++ (key ++ (']' :: r))) = .ok key (']' :: r) :=
      lexeme_ok hh _ _ _ _ hk conditionStop_word (by simp [conditionStop, dropPrefix])
    have st : Stays (']' :: r) := stays_solid (by decide) _
    have fl : ∀ s, ¬ s <+: ']' :: r → str s (']' :: r) = .fail := fun s h => by
      have := str_fail .nil st s h
      rwa [List.nil_append] at this
    have e3 : binary (']' :: r) = .fail := by
      unfold binary
      rw [alternative_right (fl _ (not_prefix_cons (by decide) _ _)), alternative_right (fl _ (not_prefix_cons (by decide) _ _)),
        alternative_right (fl _ (not_prefix_cons (by decide) _ _)), fl _ (not_prefix_cons (by decide) _ _)]
    have e4 : keyValue (']' :: r) = .fail := by
      have := lexeme_fail .nil st conditionStop (.inl (by simp [conditionStop, dropPrefix]))
      rwa [List.nil_append] at this
    have e5 : lit [']'] (']' :: r) = .ok () r := lit_ok .nil [']'] r st
    unfold condition
    rw [e1, andThen_ok, e2, expect_ok, andThen_ok, optional_fail e3, andThen_ok, optional_fail e4, andThen_ok, e5]
    rfl
  | comparison g h k key op value hg hh hk ho hk' hv =>
    have e1 : lit ['['] (g ++ '[' :: (h ++ key ++ op ++ k ++ value ++ [']']) ++ r) = .ok () (h ++ (key ++ (op ++ (k ++ (value ++ (']' :: r)))))) := by
      have := lit_ok hg ['['] (h ++ (key ++ (op ++ (k ++ (value ++ (']' :: r)))))) (stays_solid (by decide) _)
      simpa using this
    have e2 : keyValue (h ++ (key ++ (op ++ (k ++ (value ++ (']' :: r)))))) = .ok key (op ++ (k ++ (value ++ (']' :: r)))) :=
      lexeme_ok hh _ _ _ _ hk conditionStop_word (conditionStop_op ho _)
    have e4 : keyValue (k ++ (value ++ (']' :: r))) = .ok value (']' :: r) :=
      lexeme_ok hk' _ _ _ _ hv conditionStop_word (by simp [conditionStop, dropPrefix])
    have e5 : lit [']'] (']' :: r) = .ok () r := lit_ok .nil [']'] r (stays_solid (by decide) _)
    unfold condition
    rw [e1, andThen_ok, e2, expect_ok, andThen_ok, optional_ok (binary_ok ho hk' hv), andThen_ok, optional_ok e4, andThen_ok, e5]
    rfl

theorem condition_nonempty {c : Condition} {w : List Char} (h : PrintsCondition c w) : w ≠ [] := by
  cases h <;> simp

theorem condition_fail {g : List Char} (hg : Gap g) {c : Char} (hc : Solid c) (hn : c ≠ '[') (t : List Char) : condition (g ++ c :: t) = .fail := by
  unfold condition
  rw [lit_fail hg (stays_solid hc t) _ (not_prefix_cons hn.symm _ _)]
  rfl

/-! ## Zooms -/

theorem digit_char (d : Nat) (h : d < 10) : digit (Char.ofNat (48 + d)) = some d := by
  have : d = 0 ∨ d = 1 ∨ d = 2 ∨ d = 3 ∨ d = 4 ∨ d = 5 ∨ d = 6 ∨ d = 7 ∨ d = 8 ∨ d = 9 := by omega
  rcases this with rfl | rfl | rfl | rfl | rfl | rfl | rfl | rfl | rfl | rfl <;> rfl

theorem solid_char (d : Nat) (h : d < 10) : Solid (Char.ofNat (48 + d)) ∧ Char.ofNat (48 + d) ≠ '-' ∧ Char.ofNat (48 + d) ≠ '+' := by
  have : d = 0 ∨ d = 1 ∨ d = 2 ∨ d = 3 ∨ d = 4 ∨ d = 5 ∨ d = 6 ∨ d = 7 ∨ d = 8 ∨ d = 9 := by omega
  rcases this with rfl | rfl | rfl | rfl | rfl | rfl | rfl | rfl | rfl | rfl <;> decide

/-- A text which does not begin with a digit. -/
def NoDigit (r : List Char) : Prop := ∀ c t, r = c :: t → digit c = none

theorem digitLoop_ok (ds : List Nat) (h : ∀ d ∈ ds, d < 10) (r : List Char) (hr : NoDigit r) (v k : Nat) :
    digitLoop v k (ds.map (fun d => Char.ofNat (48 + d)) ++ r) = (ds.foldl (fun v d => 10 * v + d) v, k + ds.length, r) := by
  induction ds generalizing v k with
  | nil =>
    cases r with
    | nil => rfl
    | cons c t => simp [digitLoop, hr c t rfl]
  | cons d ds ih =>
    simp only [List.map_cons, List.cons_append, digitLoop, digit_char d (h d List.mem_cons_self)]
    rw [ih fun d' h' => h d' (List.mem_cons_of_mem _ h')]
    simp
    omega

theorem int_ok {g w : List Char} {n : Nat} (hg : Gap g) (hw : Digits w n) (hn : n ≤ 2147483647) (r : List Char) (hr : NoDigit r) :
    int (g ++ (w ++ r)) = .ok (n : Int) r := by
  obtain ⟨ds, hne, hd, rfl, rfl⟩ := hw
  have hl := digitLoop_ok ds hd r hr 0 0
  have hu : unsigned 2147483647 (ds.map (fun d => Char.ofNat (48 + d)) ++ r) = some (ds.foldl (fun v d => 10 * v + d) 0, r) := by
    unfold unsigned
    rw [hl]
    simp only
    rw [if_neg]
    have := List.length_pos_of_ne_nil hne
    omega
  cases ds with
  | nil => exact absurd rfl hne
  | cons d ds =>
    obtain ⟨h1, h2, h3⟩ := solid_char d (hd d List.mem_cons_self)
    unfold int
    rw [skip_gap hg (by exact stays_solid h1 _)]
    simp only [List.map_cons, List.cons_append] at hu ⊢
    split
    · rename_i e
      exact absurd (List.cons.inj e).1 h2
    · rename_i e
      exact absurd (List.cons.inj e).1 h3
    · rw [hu]

/-- What may follow a zoom: a gap and a character which is no part of a number. -/
def AfterZoom (r : List Char) : Prop := ∃ g c t, Gap g ∧ Solid c ∧ c ≠ '-' ∧ c ≠ '+' ∧ digit c = none ∧ r = g ++ c :: t

theorem space_noDigit {c : Char} (h : Space c ∨ c = '/' ∨ c = '<') : digit c = none := by
  unfold Space at h
  simp only [List.mem_cons, List.not_mem_nil, or_false] at h
  rcases h with (rfl | rfl | rfl | rfl | rfl | rfl) | rfl | rfl <;> rfl

theorem gap_noDigit {g : List Char} (hg : Gap g) {c : Char} (hc : digit c = none) (t : List Char) : NoDigit (g ++ c :: t) := by
  intro c' t' e
  cases g with
  | nil =>
    rw [← (List.cons.inj e).1]
    exact hc
  | cons a g =>
    rw [← (List.cons.inj e).1]
    exact space_noDigit (gap_head hg)

theorem int_fail {g : List Char} (hg : Gap g) {c : Char} (hc : Solid c) (h1 : c ≠ '-') (h2 : c ≠ '+') (hd : digit c = none) (t : List Char) :
    int (g ++ c :: t) = .fail := by
  unfold int
  rw [skip_gap hg (stays_solid hc t)]
  split
  · rename_i e
    exact absurd (List.cons.inj e).1 h1
  · rename_i e
    exact absurd (List.cons.inj e).1 h2
  · simp [unsigned, digitLoop, hd]

theorem toByte_nat (n : Nat) : toByte (n : Int) = UInt8.ofNat (n % 256) := by
  unfold toByte
  congr 1

theorem toByte_small (n : Nat) (h : n < 256) : toByte (n : Int) = UInt8.ofNat n := by rw [toByte_nat, Nat.mod_eq_of_lt h]

/-- A single zoom of any size. -/
theorem zoom_single {g h w : List Char} {n : Nat} (hg : Gap g) (hh : Gap h) (hw : Digits w n) (hn : n ≤ 2147483647) (r : List Char) (hr : AfterZoom r) :
    zoom (g ++ ['|', 'z'] ++ h ++ w ++ r) = .ok ⟨toByte n, toByte n⟩ r := by
  obtain ⟨k, c, t, hk, hc, c1, c2, c3, rfl⟩ := hr
  have e1 : lit ['|', 'z'] (g ++ ['|', 'z'] ++ h ++ w ++ (k ++ c :: t)) = .ok () (h ++ (w ++ (k ++ c :: t))) := by
    have := lit_ok hg ['|', 'z'] (h ++ (w ++ (k ++ c :: t))) (stays_solid (by decide) _)
    simpa using this
  have e2 := int_ok hh hw hn (k ++ c :: t) (gap_noDigit hk c3 t)
  have e3 : lit ['-'] (k ++ c :: t) = .fail := lit_fail hk (stays_solid hc t) _ (not_prefix_cons c1.symm _ _)
  have e4 := int_fail hk hc c1 c2 c3 t
  unfold zoom
  rw [e1, andThen_ok, e2, expect_ok, andThen_ok, optional_fail e3, andThen_ok, optional_fail e4]
  rfl

theorem zoom_ok {z : Zoom} {w : List Char} (h : PrintsZoom z w) (r : List Char) (hr : AfterZoom r) : zoom (w ++ r) = .ok z r := by
  cases h with
  | single g h w n hg hh hw hn =>
    rw [zoom_single hg hh hw (by omega) r hr, toByte_small n hn]
  | range g h w n k l v m hg hh hw hn hk hl hv hm =>
    obtain ⟨g', c, t, hg', hc, c1, c2, c3, rfl⟩ := hr
    have e1 : lit ['|', 'z'] (g ++ ['|', 'z'] ++ h ++ w ++ k ++ ['-'] ++ l ++ v ++ (g' ++ c :: t)) =
        .ok () (h ++ (w ++ (k ++ '-' :: (l ++ (v ++ (g' ++ c :: t)))))) := by
      have := lit_ok hg ['|', 'z'] (h ++ (w ++ (k ++ '-' :: (l ++ (v ++ (g' ++ c :: t)))))) (stays_solid (by decide) _)
      simpa using this
    have e2 := int_ok hh hw (by omega) (k ++ '-' :: (l ++ (v ++ (g' ++ c :: t)))) (gap_noDigit hk (by rfl) _)
    have e3 : lit ['-'] (k ++ '-' :: (l ++ (v ++ (g' ++ c :: t)))) = .ok () (l ++ (v ++ (g' ++ c :: t))) := lit_ok hk ['-'] _ (stays_solid (by decide) _)
    have e4 := int_ok hl hv (by omega) (g' ++ c :: t) (gap_noDigit hg' c3 t)
    unfold zoom
    rw [e1, andThen_ok, e2, expect_ok, andThen_ok, optional_ok e3, andThen_ok, optional_ok e4, andThen_ok, toByte_small n hn, toByte_small m hm]

/-- A zoom begins with a gap and its literal. -/
theorem zoom_head {z : Zoom} {w : List Char} (h : PrintsZoom z w) : ∃ g t, Gap g ∧ w = g ++ '|' :: t := by
  cases h with
  | single g h w n hg => exact ⟨g, 'z' :: (h ++ w), hg, by simp⟩
  | range g h w n k l v m hg => exact ⟨g, 'z' :: (h ++ w ++ k ++ ['-'] ++ l ++ v), hg, by simp⟩

theorem condition_head {c : Condition} {w : List Char} (h : PrintsCondition c w) : ∃ g t, Gap g ∧ w = g ++ '[' :: t := by
  cases h with
  | existence g h key hg => exact ⟨g, _, hg, rfl⟩
  | comparison g h k key op value hg => exact ⟨g, _, hg, rfl⟩

theorem condition_afterZoom {c : Condition} {w : List Char} (h : PrintsCondition c w) (r : List Char) : AfterZoom (w ++ r) := by
  obtain ⟨g, t, hg, rfl⟩ := condition_head h
  exact ⟨g, '[', t ++ r, hg, by decide, by decide, by decide, rfl, by simp⟩

/-! ## Selectors -/

theorem name_fail {g : List Char} (hg : Gap g) {c : Char} (hc : Solid c) (h1 : c ≠ 'n') (h2 : c ≠ 'w') (h3 : c ≠ 'a') (h4 : c ≠ 'r') (t : List Char) :
    name (g ++ c :: t) = .fail := by
  have st := stays_solid hc t
  unfold name nodeText wayText areaText relationText
  rw [alternative_right (str_fail hg st _ (not_prefix_cons h1.symm _ _)), alternative_right (str_fail hg st _ (not_prefix_cons h2.symm _ _)),
    alternative_right (str_fail hg st _ (not_prefix_cons h3.symm _ _)), str_fail hg st _ (not_prefix_cons h4.symm _ _)]

theorem name_ok {g n : List Char} (hg : Gap g) (hn : ElementName n) (r : List Char) : name (g ++ (n ++ r)) = .ok n r := by
  simp only [ElementName, List.mem_cons, List.not_mem_nil, or_false] at hn
  have fl : ∀ (a c : Char) (s t : List Char), Solid c → a ≠ c → str (a :: s) (g ++ (c :: t ++ r)) = .fail := fun a c s t hc hn =>
    str_fail hg (stays_solid hc _) _ (not_prefix_cons hn _ _)
  unfold name nodeText wayText areaText relationText
  rcases hn with rfl | rfl | rfl | rfl
  · exact alternative_left (str_ok hg _ r (stays_solid (by decide) _))
  · rw [alternative_right (fl 'n' 'w' _ _ (by decide) (by decide))]
    exact alternative_left (str_ok hg _ r (stays_solid (by decide) _))
  · rw [alternative_right (fl 'n' 'a' _ _ (by decide) (by decide)), alternative_right (fl 'w' 'a' _ _ (by decide) (by decide))]
    exact alternative_left (str_ok hg _ r (stays_solid (by decide) _))
  · rw [alternative_right (fl 'n' 'r' _ _ (by decide) (by decide)), alternative_right (fl 'w' 'r' _ _ (by decide) (by decide)),
      alternative_right (fl 'a' 'r' _ _ (by decide) (by decide))]
    exact str_ok hg _ r (stays_solid (by decide) _)

/-- The body of a list behind the first entry -/
def next (p : Parser α) (separator : List Char) : Parser α := fun t => (lit separator t).andThen fun _ r => p r

theorem listOf_eq (p : Parser α) (separator t : List Char) : listOf p separator t =
    (p t).andThen fun a r => (many (next p separator) r.length r).andThen fun as r => .ok (a :: as) r := rfl

theorem next_fail (p : Parser α) {g : List Char} (hg : Gap g) {c : Char} (hc : Solid c) (hn : c ≠ ',') (t : List Char) : next p [','] (g ++ c :: t) = .fail := by
  unfold next
  rw [lit_fail hg (stays_solid hc t) _ (not_prefix_cons hn.symm _ _)]
  rfl

theorem names_ok {g n : List Char} {ns ws : List (List Char)} (hg : Gap g) (hn : ElementName n) (hns : List.Forall₂ PrintsNextName ns ws)
    {k : List Char} (hk : Gap k) {c : Char} (hc : Solid c) (hcn : c ≠ ',') (t : List Char) :
    listOf name [','] (g ++ (n ++ (ws.flatten ++ (k ++ c :: t)))) = .ok (n :: ns) (k ++ c :: t) := by
  rw [listOf_eq, name_ok hg hn, andThen_ok]
  rw [many_ok (next name [',']) PrintsNextName (fun _ => True) ?_ ?_ (fun _ _ _ _ => trivial) hns _ trivial (next_fail _ hk hc hcn t) _ (by simp)]
  · rfl
  · rintro a w r ⟨g, h, hg, hh, hn, rfl⟩ _
    unfold next
    have := lit_ok hg [','] (h ++ (a ++ r)) (stays_solid (by decide) _)
    simp only [List.append_assoc, List.cons_append, List.nil_append] at this ⊢
    rw [this, andThen_ok, name_ok hh hn]
  · rintro a w ⟨g, h, hg, hh, hn, rfl⟩
    simp

theorem conditions_ok {cs : List Condition} {cws : List (List Char)} (h : List.Forall₂ PrintsCondition cs cws)
    {k : List Char} (hk : Gap k) {c : Char} (hc : Solid c) (hcn : c ≠ '[') (t : List Char) (n : Nat) (hn : cws.flatten.length ≤ n) :
    many condition n (cws.flatten ++ (k ++ c :: t)) = .ok cs (k ++ c :: t) :=
  many_ok condition PrintsCondition (fun _ => True) (fun a w r h _ => condition_ok h r) (fun _ _ h => condition_nonempty h) (fun _ _ _ _ => trivial) h _ trivial
    (condition_fail hk hc hcn t) n hn

/-- What may follow a selector: a gap and a character which is no part of it. -/
def AfterSelector (r : List Char) : Prop :=
  ∃ g c t, Gap g ∧ Solid c ∧ c ≠ '-' ∧ c ≠ '+' ∧ digit c = none ∧ c ≠ '[' ∧ r = g ++ c :: t

theorem AfterSelector.zoom {r : List Char} (h : AfterSelector r) : AfterZoom r := by
  obtain ⟨g, c, t, a, b, d, e, f, _, i⟩ := h
  exact ⟨g, c, t, a, b, d, e, f, i⟩

theorem many1_single (s : List Char) (hs : ∀ r, Stays (s ++ r)) {g : List Char} (hg : Gap g) {k : List Char} (hk : Gap k) {c : Char} (hc : Solid c) (t : List Char)
    (hn : ¬ s <+: c :: t) : many1 (str s) (g ++ (s ++ (k ++ c :: t))) = .ok [s] (k ++ c :: t) := by
  unfold many1
  rw [str_ok hg s _ (hs _), andThen_ok]
  have hf := str_fail hk (stays_solid hc t) s hn
  cases e : (k ++ c :: t).length with
  | zero => simp at e
  | succ m =>
    rw [many, hf]
    rfl

theorem elementSelector_fail {g : List Char} (hg : Gap g) {c : Char} (hc : Solid c) (h1 : c ≠ 'n') (h2 : c ≠ 'w') (h3 : c ≠ 'a') (h4 : c ≠ 'r') (t : List Char) :
    elementSelector (g ++ c :: t) = .fail := by
  unfold elementSelector
  rw [listOf_eq, name_fail hg hc h1 h2 h3 h4]
  rfl

theorem canvasSelector_fail {g : List Char} (hg : Gap g) {c : Char} (hc : Solid c) (h : c ≠ 'c') (t : List Char) : canvasSelector (g ++ c :: t) = .fail := by
  unfold canvasSelector many1
  rw [canvasText, str_fail hg (stays_solid hc t) _ (not_prefix_cons h.symm _ _)]
  rfl

theorem anySelector_fail {g : List Char} (hg : Gap g) {c : Char} (hc : Solid c) (h : c ≠ 'e') (t : List Char) : anySelector (g ++ c :: t) = .fail := by
  unfold anySelector many1
  rw [elementText, str_fail hg (stays_solid hc t) _ (not_prefix_cons h.symm _ _)]
  rfl

theorem selector_ok {s : Selector} {w : List Char} (h : PrintsSelector s w) (r : List Char) (hr : AfterSelector r) : selector (w ++ r) = .ok s r := by
  cases h with
  | elements g n ns ws z zw c cw cs cws hg hn hns hz hc hcs =>
    apply alternative_left
    obtain ⟨k, t, hk, rfl⟩ := zoom_head hz
    have e1 := names_ok hg hn hns hk (c := '|') (by decide) (by decide) (t ++ (cw ++ (cws.flatten ++ r)))
    have e2 := zoom_ok hz (cw ++ (cws.flatten ++ r)) (condition_afterZoom hc _)
    have e3 := condition_ok hc (cws.flatten ++ r)
    obtain ⟨k', c', t', hk', hc', _, _, _, hb, rfl⟩ := hr
    have e4 := conditions_ok hcs hk' hc' hb t' (cws.flatten ++ (k' ++ c' :: t')).length (by simp)
    unfold elementSelector many1
    simp only [List.append_assoc, List.cons_append] at e1 e2 e3 e4 ⊢
    rw [e1, andThen_ok, e2, andThen_ok, e3, andThen_ok, e4]
    rfl
  | canvas g z zw hg hz =>
    obtain ⟨k, t, hk, rfl⟩ := zoom_head hz
    have e1 := many1_single canvasText (fun r => by exact stays_solid (by decide) _) hg hk (c := '|') (by decide) (t ++ r) (not_prefix_cons (by decide) _ _)
    have e2 := zoom_ok hz r hr.zoom
    have e0 := elementSelector_fail hg (c := 'c') (by decide) (by decide) (by decide) (by decide) (by decide) (['a', 'n', 'v', 'a', 's'] ++ (k ++ '|' :: (t ++ r)))
    simp only [List.append_assoc, List.cons_append, List.nil_append, canvasText] at e0 e1 e2 ⊢
    unfold selector
    rw [alternative_right e0]
    apply alternative_left
    unfold canvasSelector
    rw [canvasText, e1, andThen_ok, e2]
    rfl
  | element g z zw c cw hg hz hc =>
    obtain ⟨k, t, hk, rfl⟩ := zoom_head hz
    have e1 := many1_single elementText (fun r => by exact stays_solid (by decide) _) hg hk (c := '|') (by decide) (t ++ (cw ++ r)) (not_prefix_cons (by decide) _ _)
    have e2 := zoom_ok hz (cw ++ r) (condition_afterZoom hc _)
    have e3 := condition_ok hc r
    have e0 := elementSelector_fail hg (c := 'e') (by decide) (by decide) (by decide) (by decide) (by decide)
      (['l', 'e', 'm', 'e', 'n', 't'] ++ (k ++ '|' :: (t ++ (cw ++ r))))
    have e0' := canvasSelector_fail hg (c := 'e') (by decide) (by decide) (['l', 'e', 'm', 'e', 'n', 't'] ++ (k ++ '|' :: (t ++ (cw ++ r))))
    simp only [List.append_assoc, List.cons_append, List.nil_append, elementText] at e0 e0' e1 e2 ⊢
    unfold selector
    rw [alternative_right e0, alternative_right e0']
    unfold anySelector
    rw [elementText, e1, andThen_ok, e2, expect_ok, andThen_ok, e3]
    rfl

theorem selectors_ok {ss : List Selector} {w : List Char} (h : PrintsSelectors ss w) {k : List Char} (hk : Gap k) {c : Char} (hc : Solid c) (h1 : c ≠ '-') (h2 : c ≠ '+')
    (h3 : digit c = none) (h4 : c ≠ '[') (h5 : c ≠ ',') (t : List Char) : listOf selector [','] (w ++ (k ++ c :: t)) = .ok ss (k ++ c :: t) := by
  cases h with
  | mk s w ss ws hs hss =>
    have hr : AfterSelector (k ++ c :: t) := ⟨k, c, t, hk, hc, h1, h2, h3, h4, rfl⟩
    have hF : ∀ a w r, PrintsNextSelector a w → AfterSelector (w ++ r) := by
      rintro a w r ⟨g, v, hg, hv, rfl⟩
      exact ⟨g, ',', v ++ r, hg, by decide, by decide, by decide, rfl, by decide, by simp⟩
    have hr' : AfterSelector (ws.flatten ++ (k ++ c :: t)) := by
      cases hss with
      | nil => simpa using hr
      | cons h _ =>
        rw [List.flatten_cons, List.append_assoc]
        exact hF _ _ _ h
    rw [listOf_eq, List.append_assoc, selector_ok hs _ hr', andThen_ok,
      many_ok (next selector [',']) PrintsNextSelector AfterSelector ?_ ?_ hF hss _ hr (next_fail _ hk hc h5 t) _ (by simp)]
    · rfl
    · rintro a w r ⟨g, v, hg, hv, rfl⟩ hr
      unfold next
      have := lit_ok hg [','] (v ++ r) (stays_solid (by decide) _)
      simp only [List.append_assoc, List.cons_append, List.nil_append] at this ⊢
      rw [this, andThen_ok, selector_ok hv r hr]
    · rintro a w ⟨g, v, hg, hv, rfl⟩
      simp

/-! ## Rules -/

theorem declaration_ok {d : Declaration} {w : List Char} (h : PrintsDeclaration d w) (r : List Char) : declaration (w ++ r) = .ok d r := by
  obtain ⟨g, h, hg, hh, hk, hv, rfl⟩ := h
  have e1 := lexeme_ok hg (fun t => startsWith ':' t || startsWith '}' t) [':', '}'] d.key (':' :: (h ++ (d.value ++ ';' :: r))) hk
    (by intro c hc t; simp at hc; simp [startsWith, hc.1, hc.2]) (by simp [startsWith])
  have e2 : lit [':'] (':' :: (h ++ (d.value ++ ';' :: r))) = .ok () (h ++ (d.value ++ ';' :: r)) := lit_ok .nil [':'] _ (stays_solid (by decide) _)
  have e3 := lexeme_ok hh (startsWith ';') [';'] d.value (';' :: r) hv (by intro c hc t; simp at hc; simp [startsWith, hc]) (by simp [startsWith])
  have e4 : lit [';'] (';' :: r) = .ok () r := lit_ok .nil [';'] _ (stays_solid (by decide) _)
  unfold declaration
  simp only [List.append_assoc, List.cons_append, List.nil_append]
  rw [e1, andThen_ok, e2, andThen_ok, e3, expect_ok, andThen_ok, e4]
  rfl

theorem declaration_end {g : List Char} (hg : Gap g) (t : List Char) : declaration (g ++ '}' :: t) = .fail := by
  unfold declaration
  rw [lexeme_fail hg (stays_solid (by decide) _) _ (.inl (by simp [startsWith]))]
  rfl

theorem rule_ok {x : Rule} {w : List Char} (h : PrintsRule x w) (r : List Char) : rule (w ++ r) = .ok x r := by
  cases h with
  | mk ss sw d dw ds dws g h hs hd hds hg hh =>
    have e1 := selectors_ok hs hg (c := '{') (by decide) (by decide) (by decide) rfl (by decide) (by decide) (dw ++ (dws.flatten ++ (h ++ '}' :: r)))
    have e2 : lit ['{'] (g ++ '{' :: (dw ++ (dws.flatten ++ (h ++ '}' :: r)))) = .ok () (dw ++ (dws.flatten ++ (h ++ '}' :: r))) :=
      lit_ok hg ['{'] _ (stays_solid (by decide) _)
    have e3 := declaration_ok hd (dws.flatten ++ (h ++ '}' :: r))
    have e4 := many_ok declaration PrintsDeclaration (fun _ => True) (fun a w r h _ => declaration_ok h r)
      (by rintro a w ⟨g, h, hg, hh, hk, hv, rfl⟩; simp) (fun _ _ _ _ => trivial) hds _ trivial (declaration_end hh r) (dws.flatten ++ (h ++ '}' :: r)).length (by simp)
    have e5 : lit ['}'] (h ++ '}' :: r) = .ok () r := lit_ok hh ['}'] _ (stays_solid (by decide) _)
    unfold rule many1
    simp only [List.append_assoc, List.cons_append, List.nil_append] at e4 ⊢
    rw [e1, andThen_ok, e2, expect_ok, andThen_ok, e3, andThen_ok, e4, andThen_ok, expect_ok, andThen_ok, e5]
    rfl

theorem selector_fail {g : List Char} (hg : Gap g) {c : Char} (hc : Solid c) (h : c ∉ ['n', 'w', 'a', 'r', 'c', 'e']) (t : List Char) : selector (g ++ c :: t) = .fail := by
  simp only [List.mem_cons, List.not_mem_nil, or_false, not_or] at h
  obtain ⟨h1, h2, h3, h4, h5, h6⟩ := h
  unfold selector
  rw [alternative_right (elementSelector_fail hg hc h1 h2 h3 h4 t), alternative_right (canvasSelector_fail hg hc h5 t), anySelector_fail hg hc h6 t]

theorem rule_fail {g : List Char} (hg : Gap g) {c : Char} (hc : Solid c) (h : c ∉ ['n', 'w', 'a', 'r', 'c', 'e']) (t : List Char) : rule (g ++ c :: t) = .fail := by
  unfold rule
  rw [listOf_eq, selector_fail hg hc h]
  rfl

/-! ## Items -/

theorem reference_fail {g : List Char} (hg : Gap g) {r : List Char} (hr : Stays r) (keyword : List Char) (h : ¬ keyword <+: r) :
    reference keyword (g ++ r) = .fail := by
  unfold reference
  rw [str_fail hg hr _ h]
  rfl

theorem reference_ok {g h f : List Char} (hg : Gap g) (hh : Gap h) (hf : Word ['"'] f) (keyword r : List Char) (hk : ∀ r, Stays (keyword ++ r)) :
    reference keyword (g ++ (keyword ++ (h ++ (f ++ '"' :: r)))) = .ok f ('"' :: r) := by
  unfold reference
  rw [str_ok hg _ _ (hk _), andThen_ok, lexeme_ok hh (startsWith '"') ['"'] f ('"' :: r) hf (by intro c hc t; simp at hc; simp [startsWith, hc]) (by simp [startsWith])]
  rfl

/-- All words an item can begin with. -/
def keywords : List (List Char) := [nodeText, wayText, areaText, relationText, canvasText, elementText, importText, textureText, lsystemText]

theorem item_fail {g : List Char} (hg : Gap g) {r : List Char} (hr : Stays r) (h : ∀ k ∈ keywords, ¬ k <+: r) : item (g ++ r) = .fail := by
  have fl : ∀ k ∈ keywords, str k (g ++ r) = .fail := fun k hk => str_fail hg hr k (h k hk)
  simp only [keywords, List.mem_cons, List.not_mem_nil, or_false, forall_eq_or_imp, forall_eq] at fl h
  obtain ⟨f1, f2, f3, f4, f5, f6, f7, f8, f9⟩ := fl
  obtain ⟨h1, h2, h3, h4, h5, h6, h7, h8, h9⟩ := h
  have hname : name (g ++ r) = .fail := by
    unfold name
    rw [alternative_right f1, alternative_right f2, alternative_right f3, f4]
  have hsel : selector (g ++ r) = .fail := by
    unfold selector
    have a : elementSelector (g ++ r) = .fail := by
      unfold elementSelector
      rw [listOf_eq, hname]
      rfl
    have b : canvasSelector (g ++ r) = .fail := by
      unfold canvasSelector many1
      rw [f5]
      rfl
    have c : anySelector (g ++ r) = .fail := by
      unfold anySelector many1
      rw [f6]
      rfl
    rw [alternative_right a, alternative_right b, c]
  have hrule : rule (g ++ r) = .fail := by
    unfold rule
    rw [listOf_eq, hsel]
    rfl
  unfold item
  rw [hrule]
  simp only
  rw [reference_fail hg hr _ h7]
  simp only
  rw [reference_fail hg hr _ h8]
  simp only
  rw [reference_fail hg hr _ h9]
  rfl

theorem item_end {g : List Char} (hg : Gap g) : item g = .fail := by
  have := item_fail hg (r := []) skipOne_nil (by decide)
  rwa [List.append_nil] at this

theorem item_rule {x : Rule} {w : List Char} (h : PrintsRule x w) (r : List Char) : item (w ++ r) = .ok (.rule x) r := by
  unfold item
  rw [rule_ok h r]

theorem rule_fail_at {g : List Char} (hg : Gap g) (t : List Char) : rule (g ++ '@' :: t) = .fail := rule_fail hg (by decide) (by decide) t

theorem item_import {f w : List Char} (h : PrintsReference ['@', 'i', 'm', 'p', 'o', 'r', 't'] f w) (r : List Char) :
    item (w ++ r) = .ok (.imported f) ('"' :: ')' :: ';' :: r) := by
  obtain ⟨g, h, hg, hh, hf, rfl⟩ := h
  have e1 := reference_ok hg hh hf importText (')' :: ';' :: r) (fun r => by exact stays_solid (by decide) _)
  have e2 := rule_fail_at hg (['i', 'm', 'p', 'o', 'r', 't', ' ', 'u', 'r', 'l', '(', '"'] ++ (h ++ (f ++ '"' :: ')' :: ';' :: r)))
  unfold item
  simp only [importText, List.append_assoc, List.cons_append, List.nil_append] at e1 e2 ⊢
  rw [e2]
  simp only
  rw [e1]

theorem item_texture {f w : List Char} (h : PrintsReference ['@', 't', 'e', 'x', 't', 'u', 'r', 'e'] f w) (r : List Char) :
    item (w ++ r) = .ok (.texture f) ('"' :: ')' :: ';' :: r) := by
  obtain ⟨g, h, hg, hh, hf, rfl⟩ := h
  have e1 := reference_ok hg hh hf textureText (')' :: ';' :: r) (fun r => by exact stays_solid (by decide) _)
  have e2 := rule_fail_at hg (['t', 'e', 'x', 't', 'u', 'r', 'e', ' ', 'u', 'r', 'l', '(', '"'] ++ (h ++ (f ++ '"' :: ')' :: ';' :: r)))
  have e3 := reference_fail hg (r := ['@', 't', 'e', 'x', 't', 'u', 'r', 'e', ' ', 'u', 'r', 'l', '(', '"'] ++ (h ++ (f ++ '"' :: ')' :: ';' :: r)))
    (stays_solid (by decide) _) importText (by
      rintro ⟨u, hu⟩
      simp [importText] at hu)
  unfold item
  simp only [importText, textureText, List.append_assoc, List.cons_append, List.nil_append] at e1 e2 e3 ⊢
  rw [e2]
  simp only
  rw [e3]
  simp only
  rw [e1]

theorem item_lsystem {f w : List Char} (h : PrintsReference ['@', 'l', 's', 'y', 's', 't', 'e', 'm'] f w) (r : List Char) :
    item (w ++ r) = .ok (.lsystem f) ('"' :: ')' :: ';' :: r) := by
  obtain ⟨g, h, hg, hh, hf, rfl⟩ := h
  have e1 := reference_ok hg hh hf lsystemText (')' :: ';' :: r) (fun r => by exact stays_solid (by decide) _)
  have e2 := rule_fail_at hg (['l', 's', 'y', 's', 't', 'e', 'm', ' ', 'u', 'r', 'l', '(', '"'] ++ (h ++ (f ++ '"' :: ')' :: ';' :: r)))
  have e3 := reference_fail hg (r := ['@', 'l', 's', 'y', 's', 't', 'e', 'm', ' ', 'u', 'r', 'l', '(', '"'] ++ (h ++ (f ++ '"' :: ')' :: ';' :: r)))
    (stays_solid (by decide) _) importText (by
      rintro ⟨u, hu⟩
      simp [importText] at hu)
  have e4 := reference_fail hg (r := ['@', 'l', 's', 'y', 's', 't', 'e', 'm', ' ', 'u', 'r', 'l', '(', '"'] ++ (h ++ (f ++ '"' :: ')' :: ';' :: r)))
    (stays_solid (by decide) _) textureText (by
      rintro ⟨u, hu⟩
      simp [textureText] at hu)
  unfold item
  simp only [importText, textureText, lsystemText, List.append_assoc, List.cons_append, List.nil_append] at e1 e2 e3 e4 ⊢
  rw [e2]
  simp only
  rw [e3]
  simp only
  rw [e4]
  simp only
  rw [e1]
  rfl

theorem close_ok (r : List Char) : (lit closeText ('"' :: ')' :: ';' :: r)).expect = .ok () r := by
  have := lit_ok .nil closeText r (by exact stays_solid (by decide) _)
  simp only [closeText, List.cons_append, List.nil_append] at this ⊢
  rw [this]
  rfl

/-! ## Sheets -/

section
variable {A L : Type} (T : Tools A L)

/-- The stylesheet after an entry. -/
def add (s : Sheet A L) : Entry A L → Sheet A L
  | .rule r => { s with rules := s.rules ++ [r] }
  | .texture a => { s with textures := s.textures ++ [a] }
  | .lsystem n l => { s with lsystems := s.lsystems.emplace n l }

theorem reference_nonempty {k f w : List Char} (h : PrintsReference k f w) : w ≠ [] := by
  obtain ⟨g, h, hg, hh, hf, rfl⟩ := h
  simp

theorem sheetLoop_reads {t u : List Char} {es : List (Entry A L)} (h : Reads T t u es) :
    ∃ D, ∀ d, D ≤ d → ∀ n, t.length ≤ n → ∀ s, ∃ m, u.length ≤ m ∧
      sheetLoop T (parseInto T d) n t s = sheetLoop T (parseInto T d) m u (es.foldl add s) := by
  induction h with
  | done t => exact ⟨0, fun d _ n hn s => ⟨n, hn, rfl⟩⟩
  | rule r w t u es hr ht ih =>
    obtain ⟨D, ih⟩ := ih
    refine ⟨D, fun d hd n hn s => ?_⟩
    have hw : 0 < w.length := List.length_pos_of_ne_nil (by cases hr; simp)
    rw [List.length_append] at hn
    cases n with
    | zero => omega
    | succ n =>
      obtain ⟨m, hm, e⟩ := ih d hd n (by omega) (add s (.rule r))
      refine ⟨m, hm, ?_⟩
      rw [sheetLoop, item_rule hr t]
      simp only [act, Outcome.bind, finish]
      exact e
  | imported f w c g fs t u es hf hc hi hg ht ih1 ih2 =>
    obtain ⟨D1, ih1⟩ := ih1
    obtain ⟨D2, ih2⟩ := ih2
    refine ⟨max (D1 + 1) D2, fun d hd n hn s => ?_⟩
    have hw := List.length_pos_of_ne_nil (reference_nonempty hf)
    rw [List.length_append] at hn
    cases n with
    | zero => omega
    | succ n =>
      cases d with
      | zero => omega
      | succ d =>
        obtain ⟨m1, hm1, e1⟩ := ih1 d (by omega) c.length (Nat.le_refl _) s
        obtain ⟨m, hm, e⟩ := ih2 (d + 1) (by omega) n (by omega) (fs.foldl add s)
        refine ⟨m, hm, ?_⟩
        have e2 : parseInto T (d + 1) c s = .ok (fs.foldl add s) := by
          rw [parseInto, e1]
          cases m1 with
          | zero => rfl
          | succ m1 => rw [sheetLoop, item_end hg]
        rw [sheetLoop, item_import hf t]
        simp only [act, hc, Option.getD_some, e2, Outcome.bind, finish, close_ok]
        rw [e, List.foldl_append]
  | texture f w c a t u es hf hc ha ht ih =>
    obtain ⟨D, ih⟩ := ih
    refine ⟨D, fun d hd n hn s => ?_⟩
    have hw := List.length_pos_of_ne_nil (reference_nonempty hf)
    rw [List.length_append] at hn
    cases n with
    | zero => omega
    | succ n =>
      obtain ⟨m, hm, e⟩ := ih d hd n (by omega) (add s (.texture a))
      refine ⟨m, hm, ?_⟩
      rw [sheetLoop, item_texture hf t]
      simp only [act, getContent, hc, ha, Outcome.bind, finish, close_ok]
      exact e
  | lsystem f w c l t u es hf hc hl ht ih =>
    obtain ⟨D, ih⟩ := ih
    refine ⟨D, fun d hd n hn s => ?_⟩
    have hw := List.length_pos_of_ne_nil (reference_nonempty hf)
    rw [List.length_append] at hn
    cases n with
    | zero => omega
    | succ n =>
      obtain ⟨m, hm, e⟩ := ih d hd n (by omega) (add s (.lsystem (Strings.getFileNameWithoutExtension '\\' '/' '.' f) l))
      refine ⟨m, hm, ?_⟩
      rw [sheetLoop, item_lsystem hf t]
      simp only [act, getContent, hc, hl, Outcome.bind, finish, close_ok]
      exact e

theorem find_emplace {K V : Type} [DecidableEq K] (m : Assoc K V) (k k' : K) (v : V) :
    (m.emplace k v).find k' = (m.find k').or (if k = k' then some v else none) := by
  unfold Assoc.emplace
  cases h : m.find k with
  | some x =>
    by_cases e : k = k'
    · subst e
      simp [h]
    · simp [e]
  | none =>
    by_cases e : k = k'
    · subst e
      simp [h, Assoc.find]
    · simp [Assoc.find, e]

theorem foldl_isSheet (es : List (Entry A L)) (s : Sheet A L) :
    (es.foldl add s).rules = s.rules ++ es.filterMap Entry.rule? ∧ (es.foldl add s).textures = s.textures ++ es.filterMap Entry.texture? ∧
      ∀ name, (es.foldl add s).lsystems.find name = (s.lsystems.find name).or (es.findSome? (Entry.lsystem? name)) := by
  induction es generalizing s with
  | nil => simp
  | cons e es ih =>
    obtain ⟨h1, h2, h3⟩ := ih (add s e)
    simp only [List.foldl_cons]
    rw [h1, h2]
    cases e with
    | rule r => exact ⟨by simp [add, Entry.rule?, List.filterMap_cons], by simp [add, Entry.texture?, List.filterMap_cons], fun name => by rw [h3]; simp [add, Entry.lsystem?, List.findSome?_cons]⟩
    | texture a => exact ⟨by simp [add, Entry.rule?, List.filterMap_cons], by simp [add, Entry.texture?, List.filterMap_cons], fun name => by rw [h3]; simp [add, Entry.lsystem?, List.findSome?_cons]⟩
    | lsystem n l =>
      refine ⟨by simp [add, Entry.rule?, List.filterMap_cons], by simp [add, Entry.texture?, List.filterMap_cons], fun name => ?_⟩
      rw [h3]
      simp only [add, find_emplace, List.findSome?_cons, Entry.lsystem?]
      by_cases e : n = name
      · simp only [if_pos e]
        cases s.lsystems.find name <;> simp
      · simp only [if_neg e]
        cases s.lsystems.find name <;> simp

theorem isSheet (es : List (Entry A L)) : IsSheet (es.foldl add ⟨[], [], []⟩) es := by
  obtain ⟨h1, h2, h3⟩ := foldl_isSheet es (⟨[], [], []⟩ : Sheet A L)
  exact ⟨by simpa using h1, by simpa using h2, fun name => by rw [h3]; simp [Assoc.find]⟩

end

/-! ## Fuel -/

/-- Matches consume characters. -/
def Progress (p : Parser α) : Prop := ∀ t a r, p t = .ok a r → r.length < t.length

/-- Any fuel of at least the length of the text gives the same result: loops end because nothing more matches. -/
theorem many_fuel (p : Parser α) (hp : Progress p) (h0 : p [] = .fail) (n m : Nat) (t : List Char) (hn : t.length ≤ n) (hm : t.length ≤ m) :
    many p n t = many p m t := by
  induction n generalizing m t with
  | zero =>
    have : t = [] := List.length_eq_zero_iff.1 (by omega)
    subst this
    cases m <;> simp [many, h0]
  | succ n ih =>
    cases m with
    | zero =>
      have : t = [] := List.length_eq_zero_iff.1 (by omega)
      subst this
      simp [many, h0]
    | succ m =>
      simp only [many]
      cases e : p t with
      | ok a r =>
        have := hp t a r e
        simp only
        rw [ih m r (by omega) (by omega)]
      | fail => rfl
      | error => rfl

theorem dropPrefix_length {p t r : List Char} (h : dropPrefix p t = some r) : r.length + p.length = t.length := by
  rw [dropPrefix_eq h, List.length_append]
  omega

theorem afterClose_length {close t r : List Char} (h : afterClose close t = some r) : r.length ≤ t.length := by
  induction t with
  | nil =>
    have := dropPrefix_length h
    omega
  | cons c t ih =>
    simp only [afterClose] at h
    split at h
    · rename_i r' e
      have := dropPrefix_length e
      cases h
      omega
    · have := ih h
      simp
      omega

theorem skipOne_length {t r : List Char} (h : skipOne t = some r) : r.length < t.length := by
  cases t with
  | nil => cases h
  | cons c t =>
    simp only [skipOne] at h
    split at h
    · cases h
      simp
    · unfold comment at h
      split at h
      · rename_i r' e
        rw [Option.bind_eq_some_iff] at e
        obtain ⟨u, h1, h2⟩ := e
        have a := dropPrefix_length h1
        have b := afterClose_length h2
        cases h
        simp at a ⊢
        omega
      · rw [Option.bind_eq_some_iff] at h
        obtain ⟨u, h1, h2⟩ := h
        have a := dropPrefix_length h1
        have b := afterClose_length h2
        simp at a ⊢
        omega

theorem skipLoop_length (n : Nat) (t : List Char) : (skipLoop n t).length ≤ t.length := by
  induction n generalizing t with
  | zero => exact Nat.le_refl _
  | succ n ih =>
    simp only [skipLoop]
    split
    · rename_i r e
      have := skipOne_length e
      have := ih r
      omega
    · exact Nat.le_refl _

/-- Skipping ends because nothing can be skipped any more. -/
theorem skip_done (t : List Char) : Stays (skip t) := by
  have : ∀ n t, t.length ≤ n → Stays (skipLoop n t) := by
    intro n
    induction n with
    | zero =>
      intro t h
      have : t = [] := List.length_eq_zero_iff.1 (by omega)
      subst this
      rfl
    | succ n ih =>
      intro t h
      simp only [skipLoop]
      split
      · rename_i r e
        have := skipOne_length e
        exact ih r (by omega)
      · rename_i e
        exact e
  exact this _ t (Nat.le_refl _)

/-- Matches never lengthen the text. -/
def Shrinks (p : Parser α) : Prop := ∀ t a r, p t = .ok a r → r.length ≤ t.length

theorem Progress.shrinks {p : Parser α} (h : Progress p) : Shrinks p := fun t a r e => Nat.le_of_lt (h t a r e)

theorem lit_progress (s : List Char) (hs : s ≠ []) : Progress (lit s) := by
  intro t a r h
  unfold lit at h
  split at h
  · rename_i r' e
    have h1 := dropPrefix_length e
    have h2 := skipLoop_length t.length t
    have h3 := List.length_pos_of_ne_nil hs
    cases h
    unfold skip at h1
    omega
  · cases h

theorem chars_length (stop : List Char → Bool) (t : List Char) : (chars stop t).1.length + (chars stop t).2.length = t.length := by
  induction t with
  | nil => rfl
  | cons c t ih =>
    simp only [chars]
    split
    · simp
      omega
    · simp

theorem lexeme_progress (stop : List Char → Bool) : Progress (lexeme stop) := by
  intro t a r h
  have h1 := chars_length stop (skip t)
  have h2 := skipLoop_length t.length t
  unfold lexeme at h
  split at h
  · cases h
  · rename_i cs r' hne e
    cases h
    rw [e] at h1
    have : 0 < a.length := List.length_pos_of_ne_nil (by rintro rfl; simp_all)
    unfold skip at h1
    simp at h1
    omega

theorem ok_andThen {β : Type} {x : Res α} {f : α → List Char → Res β} {b r} (h : x.andThen f = .ok b r) : ∃ a u, x = .ok a u ∧ f a u = .ok b r := by
  cases x with
  | ok a u => exact ⟨a, u, rfl, h⟩
  | fail => cases h
  | error => cases h

theorem ok_expect {x : Res α} {a r} (h : x.expect = .ok a r) : x = .ok a r := by
  cases x with
  | ok _ _ => exact h
  | fail => cases h
  | error => cases h

theorem optional_shrinks {d : α} {p : Parser α} (hp : Shrinks p) : Shrinks (MapCss.optional d p) := by
  intro t a r h
  unfold MapCss.optional at h
  split at h
  · cases h
    exact Nat.le_refl _
  · exact hp t a r h

theorem str_progress (s : List Char) (hs : s ≠ []) : Progress (str s) := by
  intro t a r h
  obtain ⟨_, u, h1, h2⟩ := ok_andThen h
  cases h2
  exact lit_progress s hs t _ _ h1

theorem alternative_progress {p q : Parser α} (hp : Progress p) (hq : Progress q) : Progress (alternative p q) := by
  intro t a r h
  unfold alternative at h
  split at h
  · exact hq t a r h
  · exact hp t a r h

theorem many_shrinks (p : Parser α) (hp : Shrinks p) (n : Nat) : Shrinks (many p n) := by
  induction n with
  | zero =>
    intro t a r h
    cases h
    exact Nat.le_refl _
  | succ n ih =>
    intro t a r h
    simp only [many] at h
    split at h
    · rename_i a' r' e
      obtain ⟨as, u, h1, h2⟩ := ok_andThen h
      cases h2
      exact Nat.le_trans (ih _ _ _ h1) (hp _ _ _ e)
    · cases h
      exact Nat.le_refl _
    · cases h

theorem many1_progress {p : Parser α} (hp : Progress p) : Progress (many1 p) := by
  intro t a r h
  obtain ⟨b, u, h1, h2⟩ := ok_andThen h
  obtain ⟨bs, v, h3, h4⟩ := ok_andThen h2
  cases h4
  exact Nat.lt_of_le_of_lt (many_shrinks p hp.shrinks _ _ _ _ h3) (hp _ _ _ h1)

theorem next_progress {p : Parser α} (hp : Progress p) (s : List Char) (hs : s ≠ []) : Progress (next p s) := by
  intro t a r h
  obtain ⟨_, u, h1, h2⟩ := ok_andThen h
  exact Nat.lt_trans (hp _ _ _ h2) (lit_progress s hs _ _ _ h1)

theorem listOf_progress {p : Parser α} (hp : Progress p) (s : List Char) (hs : s ≠ []) : Progress (listOf p s) := by
  intro t a r h
  rw [listOf_eq] at h
  obtain ⟨b, u, h1, h2⟩ := ok_andThen h
  obtain ⟨bs, v, h3, h4⟩ := ok_andThen h2
  cases h4
  exact Nat.lt_of_le_of_lt (many_shrinks _ (next_progress hp s hs).shrinks _ _ _ _ h3) (hp _ _ _ h1)

theorem binary_progress : Progress binary :=
  alternative_progress (str_progress _ (by simp)) (alternative_progress (str_progress _ (by simp)) (alternative_progress (str_progress _ (by simp)) (str_progress _ (by simp))))

theorem condition_progress : Progress condition := by
  intro t a r h
  obtain ⟨_, r1, h1, h⟩ := ok_andThen h
  obtain ⟨_, r2, h2, h⟩ := ok_andThen h
  obtain ⟨_, r3, h3, h⟩ := ok_andThen h
  obtain ⟨_, r4, h4, h⟩ := ok_andThen h
  obtain ⟨_, r5, h5, h⟩ := ok_andThen h
  cases h
  have a1 := lit_progress _ (by simp) _ _ _ h1
  have a2 := lexeme_progress _ _ _ _ (ok_expect h2)
  have a3 := optional_shrinks binary_progress.shrinks _ _ _ h3
  have a4 := optional_shrinks (lexeme_progress conditionStop).shrinks _ _ _ h4
  have a5 := lit_progress _ (by simp) _ _ _ (ok_expect h5)
  omega

theorem digitLoop_length (v k : Nat) (t : List Char) : (digitLoop v k t).2.2.length ≤ t.length := by
  induction t generalizing v k with
  | nil => exact Nat.le_refl _
  | cons c t ih =>
    simp only [digitLoop]
    split
    · simp only [List.length_cons]
      exact Nat.le_succ_of_le (ih _ _)
    · exact Nat.le_refl _

theorem unsigned_length {l : Nat} {t r : List Char} {n} (h : unsigned l t = some (n, r)) : r.length ≤ t.length := by
  have := digitLoop_length 0 0 t
  unfold unsigned at h
  split at h
  rename_i e
  split at h
  · cases h
  · cases h
    rw [e] at this
    exact this

theorem int_shrinks : Shrinks int := by
  intro t a r h
  have h2 := skipLoop_length t.length t
  unfold int at h
  unfold skip at h
  split at h
  · rename_i e
    rw [e] at h2
    split at h
    · rename_i e2
      cases h
      have := unsigned_length e2
      simp at h2
      omega
    · cases h
  · rename_i e
    rw [e] at h2
    split at h
    · rename_i e2
      cases h
      have := unsigned_length e2
      simp at h2
      omega
    · cases h
  · split at h
    · rename_i e2
      cases h
      have := unsigned_length e2
      omega
    · cases h

theorem zoom_progress : Progress zoom := by
  intro t a r h
  obtain ⟨_, r1, h1, h⟩ := ok_andThen h
  obtain ⟨_, r2, h2, h⟩ := ok_andThen h
  obtain ⟨_, r3, h3, h⟩ := ok_andThen h
  obtain ⟨_, r4, h4, h⟩ := ok_andThen h
  cases h
  have a1 := lit_progress _ (by simp) _ _ _ h1
  have a2 := int_shrinks _ _ _ (ok_expect h2)
  have a3 := optional_shrinks (lit_progress ['-'] (by simp)).shrinks _ _ _ h3
  have a4 := optional_shrinks int_shrinks _ _ _ h4
  omega

theorem name_progress : Progress name :=
  alternative_progress (str_progress _ (by simp [nodeText])) (alternative_progress (str_progress _ (by simp [wayText]))
    (alternative_progress (str_progress _ (by simp [areaText])) (str_progress _ (by simp [relationText]))))

theorem selector_progress : Progress selector := by
  refine alternative_progress ?_ (alternative_progress ?_ ?_)
  · intro t a r h
    obtain ⟨_, r1, h1, h⟩ := ok_andThen h
    obtain ⟨_, r2, h2, h⟩ := ok_andThen h
    obtain ⟨_, r3, h3, h⟩ := ok_andThen h
    cases h
    have a1 := listOf_progress name_progress _ (by simp) _ _ _ h1
    have a2 := zoom_progress _ _ _ h2
    have a3 := many1_progress condition_progress _ _ _ h3
    omega
  · intro t a r h
    obtain ⟨_, r1, h1, h⟩ := ok_andThen h
    obtain ⟨_, r2, h2, h⟩ := ok_andThen h
    cases h
    have a1 := many1_progress (str_progress _ (by simp [canvasText])) _ _ _ h1
    have a2 := zoom_progress _ _ _ (ok_expect h2)
    omega
  · intro t a r h
    obtain ⟨_, r1, h1, h⟩ := ok_andThen h
    obtain ⟨_, r2, h2, h⟩ := ok_andThen h
    obtain ⟨_, r3, h3, h⟩ := ok_andThen h
    cases h
    have a1 := many1_progress (str_progress _ (by simp [elementText])) _ _ _ h1
    have a2 := zoom_progress _ _ _ (ok_expect h2)
    have a3 := condition_progress _ _ _ (ok_expect h3)
    omega

theorem declaration_progress : Progress declaration := by
  intro t a r h
  obtain ⟨_, r1, h1, h⟩ := ok_andThen h
  obtain ⟨_, r2, h2, h⟩ := ok_andThen h
  obtain ⟨_, r3, h3, h⟩ := ok_andThen h
  obtain ⟨_, r4, h4, h⟩ := ok_andThen h
  cases h
  have a1 := lexeme_progress _ _ _ _ h1
  have a2 := lit_progress _ (by simp) _ _ _ h2
  have a3 := lexeme_progress _ _ _ _ (ok_expect h3)
  have a4 := lit_progress _ (by simp) _ _ _ (ok_expect h4)
  omega

theorem rule_progress : Progress rule := by
  intro t a r h
  obtain ⟨_, r1, h1, h⟩ := ok_andThen h
  obtain ⟨_, r2, h2, h⟩ := ok_andThen h
  obtain ⟨_, r3, h3, h⟩ := ok_andThen h
  obtain ⟨_, r4, h4, h⟩ := ok_andThen h
  cases h
  have a1 := listOf_progress selector_progress _ (by simp) _ _ _ h1
  have a2 := lit_progress _ (by simp) _ _ _ (ok_expect h2)
  have a3 := many1_progress declaration_progress _ _ _ (ok_expect h3)
  have a4 := lit_progress _ (by simp) _ _ _ (ok_expect h4)
  omega

theorem reference_progress (k : List Char) (hk : k ≠ []) : Progress (reference k) := by
  intro t a r h
  obtain ⟨_, r1, h1, h⟩ := ok_andThen h
  exact Nat.lt_trans (lexeme_progress _ _ _ _ (ok_expect h)) (str_progress k hk _ _ _ h1)

theorem item_progress : Progress item := by
  intro t a r h
  unfold item at h
  split at h
  · rename_i e
    cases h
    exact rule_progress _ _ _ e
  · cases h
  · split at h
    · rename_i e
      cases h
      exact reference_progress _ (by simp [importText]) _ _ _ e
    · cases h
    · split at h
      · rename_i e
        cases h
        exact reference_progress _ (by simp [textureText]) _ _ _ e
      · cases h
      · obtain ⟨_, _, h1, h2⟩ := ok_andThen h
        cases h2
        exact reference_progress _ (by simp [lsystemText]) _ _ _ h1

theorem finish_shrinks (i : Item) : Shrinks (finish i) := by
  intro t a r h
  cases i with
  | rule x =>
    cases h
    exact Nat.le_refl _
  | imported f => exact (lit_progress closeText (by simp [closeText])).shrinks _ _ _ (ok_expect h)
  | texture f => exact (lit_progress closeText (by simp [closeText])).shrinks _ _ _ (ok_expect h)
  | lsystem f => exact (lit_progress closeText (by simp [closeText])).shrinks _ _ _ (ok_expect h)

/-- The loop over items does not depend on the fuel either. -/
theorem sheetLoop_fuel {A L : Type} (T : Tools A L) (imp : List Char → Sheet A L → Outcome (Sheet A L)) (n m : Nat) (t : List Char) (hn : t.length ≤ n)
    (hm : t.length ≤ m) (s : Sheet A L) : sheetLoop T imp n t s = sheetLoop T imp m t s := by
  have h0 : item [] = .fail := item_end .nil
  induction n generalizing m t s with
  | zero =>
    have : t = [] := List.length_eq_zero_iff.1 (by omega)
    subst this
    cases m <;> simp [sheetLoop, h0]
  | succ n ih =>
    cases m with
    | zero =>
      have : t = [] := List.length_eq_zero_iff.1 (by omega)
      subst this
      simp [sheetLoop, h0]
    | succ m =>
      simp only [sheetLoop]
      cases e : item t with
      | ok i r =>
        have h1 := item_progress _ _ _ e
        simp only
        congr 1
        funext s'
        cases e2 : finish i r with
        | ok _ r' =>
          have h2 := finish_shrinks i _ _ _ e2
          exact ih m r' (by omega) (by omega) s'
        | fail => rfl
        | error => rfl
      | fail => rfl
      | error => rfl

end Verif.MapCssProof
