import Verif.Proof.MapCss
import Verif.Props.LsysTextSpec
import Mathlib.Tactic.FieldSimp
import Mathlib.Tactic.Ring

/-! # Lemmas on texts of L-systems -/
namespace Verif.LsysTextProof
open Verif.Lsys Verif.LsysText Verif.LsysTextSpec
open Verif.MapCss (Res Parser dropPrefix many unsigned digitLoop digit)
open Verif.MapCssSpec (Digits)
open Verif.MapCssProof (Progress NoDigit dropPrefix_append dropPrefix_eq ok_andThen ok_expect digitLoop_ok digit_char)

/-! ## Gaps -/

theorem afterLine_iff (t r : List Char) : afterLine t = some r ↔ ∃ body, '\n' ∉ body ∧ t = body ++ '\n' :: r := by
  induction t with
  | nil => simp [afterLine]
  | cons c t ih =>
    simp only [afterLine]
    split_ifs with hc
    · subst hc
      constructor
      · intro h
        exact ⟨[], by simp, by simp_all⟩
      · rintro ⟨body, hb, e⟩
        cases body with
        | nil => simp_all
        | cons b body =>
          simp only [List.cons_append, List.cons.injEq] at e
          exact absurd (e.1 ▸ List.mem_cons_self) hb
    · rw [ih]
      constructor
      · rintro ⟨body, hb, rfl⟩
        exact ⟨c :: body, by simp only [List.mem_cons, not_or]; exact ⟨fun e => hc e.symm, hb⟩, rfl⟩
      · rintro ⟨body, hb, e⟩
        cases body with
        | nil => simp only [List.nil_append, List.cons.injEq] at e; exact absurd e.1 hc
        | cons b body =>
          simp only [List.cons_append, List.cons.injEq] at e
          exact ⟨body, fun h => hb (List.mem_cons_of_mem _ h), e.2⟩

/-- Nothing is skipped. -/
def Stays (t : List Char) : Prop := skipOne t = none

theorem stays_nil : Stays [] := rfl

def Solid (c : Char) : Prop := c ≠ ' ' ∧ c ≠ '#'

instance (c : Char) : Decidable (Solid c) := inferInstanceAs (Decidable (c ≠ ' ' ∧ c ≠ '#'))

theorem stays_solid {c : Char} (h : Solid c) (t : List Char) : Stays (c :: t) := by
  simp [Stays, skipOne, h.1, h.2]

theorem skipOne_length {t r : List Char} (h : skipOne t = some r) : r.length < t.length := by
  cases t with
  | nil => simp [skipOne] at h
  | cons c t =>
    simp only [skipOne] at h
    split_ifs at h
    · simp only [Option.some.injEq] at h; subst h; simp
    · obtain ⟨b, -, rfl⟩ := (afterLine_iff _ _).1 h
      simp
      omega

theorem skipOne_gap {t r : List Char} (h : skipOne t = some r) : ∃ g, t = g ++ r ∧ ∀ k, Gap k → Gap (g ++ k) := by
  cases t with
  | nil => simp [skipOne] at h
  | cons c t =>
    simp only [skipOne] at h
    split_ifs at h with h1 h2
    · simp only [Option.some.injEq] at h
      subst h h1
      exact ⟨[' '], rfl, fun k hk => .blank k hk⟩
    · obtain ⟨b, hb, rfl⟩ := (afterLine_iff _ _).1 h
      subst h2
      exact ⟨'#' :: (b ++ ['\n']), by simp, fun k hk => by simpa using Gap.comment b k hb hk⟩

theorem skipLoop_spec (n : Nat) (t : List Char) (hn : t.length ≤ n) : ∃ g, Gap g ∧ t = g ++ skipLoop n t ∧ Stays (skipLoop n t) := by
  induction n generalizing t with
  | zero =>
    have : t = [] := List.length_eq_zero_iff.1 (by omega)
    subst this
    exact ⟨[], .nil, rfl, rfl⟩
  | succ n ih =>
    simp only [skipLoop]
    cases e : skipOne t with
    | none => exact ⟨[], .nil, rfl, e⟩
    | some r =>
      have := skipOne_length e
      obtain ⟨g, h1, h2, h3⟩ := ih r (by omega)
      obtain ⟨k, rfl, hk⟩ := skipOne_gap e
      exact ⟨k ++ g, hk g h1, by simp only [List.append_assoc]; rw [← h2], h3⟩

theorem skip_spec (t : List Char) : ∃ g, Gap g ∧ t = g ++ skip t ∧ Stays (skip t) := skipLoop_spec _ t (Nat.le_refl _)

theorem skipLoop_gap {g : List Char} (hg : Gap g) {r : List Char} (hr : Stays r) (n : Nat) (hn : (g ++ r).length ≤ n) : skipLoop n (g ++ r) = r := by
  induction hg generalizing n with
  | nil =>
    cases n with
    | zero => rfl
    | succ n =>
      simp only [skipLoop, List.nil_append]
      rw [show skipOne r = none from hr]
  | blank g h ih =>
    cases n with
    | zero => simp at hn
    | succ n =>
      simp only [skipLoop, List.cons_append, skipOne, if_true]
      exact ih n (by simp at hn ⊢; omega)
  | comment body g hb h ih =>
    cases n with
    | zero => simp at hn
    | succ n =>
      have e : skipOne ('#' :: (body ++ '\n' :: g) ++ r) = some (g ++ r) := by
        simp only [List.cons_append, skipOne]
        rw [if_neg (by decide)]
        simp only [if_true]
        exact (afterLine_iff _ _).2 ⟨body, hb, by simp⟩
      simp only [skipLoop]
      rw [e]
      exact ih n (by simp at hn ⊢; omega)

theorem skip_gap {g : List Char} (hg : Gap g) {r : List Char} (hr : Stays r) : skip (g ++ r) = r := skipLoop_gap hg hr _ (Nat.le_refl _)

theorem skip_iff (t : List Char) (c : Char) (hc : Solid c) (r : List Char) : skip t = c :: r ↔ ∃ g, Gap g ∧ t = g ++ c :: r := by
  constructor
  · intro h
    obtain ⟨g, h1, h2, -⟩ := skip_spec t
    exact ⟨g, h1, h ▸ h2⟩
  · rintro ⟨g, h1, rfl⟩
    exact skip_gap h1 (stays_solid hc r)

theorem gap_append {g h : List Char} (hg : Gap g) (hh : Gap h) : Gap (g ++ h) := by
  induction hg with
  | nil => exact hh
  | blank g _ ih => exact .blank _ ih
  | comment body g hb _ ih =>
    have := Gap.comment body _ hb ih
    simpa using this

theorem gap_head {c : Char} {g : List Char} (h : Gap (c :: g)) : c = ' ' ∨ c = '#' := by
  cases h <;> simp

/-! ## Tokens -/

theorem lit_iff (c : Char) (hc : Solid c) (s t : List Char) (a : Unit) (r : List Char) : lit (c :: s) t = .ok a r ↔ ∃ g, Gap g ∧ t = g ++ (c :: s ++ r) := by
  unfold lit
  constructor
  · intro h
    split at h
    · rename_i e
      simp only [Res.ok.injEq, true_and] at h
      subst h
      obtain ⟨g, h1, h2, -⟩ := skip_spec t
      exact ⟨g, h1, by rw [← dropPrefix_eq e]; exact h2⟩
    · cases h
  · rintro ⟨g, h1, rfl⟩
    rw [skip_gap h1 (by exact stays_solid hc _), dropPrefix_append]

theorem lit_ok (c : Char) (hc : Solid c) (s : List Char) {g : List Char} (hg : Gap g) (r : List Char) : lit (c :: s) (g ++ (c :: s ++ r)) = .ok () r :=
  (lit_iff c hc s _ _ _).2 ⟨g, hg, rfl⟩

theorem lit_no_error (s t : List Char) : lit s t ≠ .error := by
  unfold lit
  split <;> simp

theorem ite_some {c d : Char} {o o' : Op} {x : Option Op} (h : (if c = d then some o' else x) = some o) : (c = d ∧ o' = o) ∨ x = some o := by
  by_cases e : c = d
  · rw [if_pos e] at h; exact .inl ⟨e, Option.some.inj h⟩
  · rw [if_neg e] at h; exact .inr h

theorem symbol_iff (c : Char) (o : Op) : symbol c = some o ↔ (c, o) ∈ symbols := by
  unfold symbol symbols
  constructor
  · intro h
    repeat
      rcases ite_some h with ⟨e, e'⟩ | h
      · subst e e'; decide
    cases h
  · intro h
    simp only [List.mem_cons, Prod.mk.injEq, List.not_mem_nil, or_false] at h
    rcases h with ⟨rfl, rfl⟩ | ⟨rfl, rfl⟩ | ⟨rfl, rfl⟩ | ⟨rfl, rfl⟩ | ⟨rfl, rfl⟩ | ⟨rfl, rfl⟩ | ⟨rfl, rfl⟩ | ⟨rfl, rfl⟩ | ⟨rfl, rfl⟩ | ⟨rfl, rfl⟩ | ⟨rfl, rfl⟩ |
      ⟨rfl, rfl⟩ | ⟨rfl, rfl⟩ | ⟨rfl, rfl⟩ | ⟨rfl, rfl⟩ | ⟨rfl, rfl⟩ <;> rfl

theorem isAlpha_iff (c : Char) : isAlpha c = true ↔ Letter c := by
  unfold isAlpha Letter
  simp only [Bool.or_eq_true, Bool.and_eq_true, decide_eq_true_eq, Char.le_def, UInt32.le_iff_toNat_le, Char.toNat]
  have : 'a'.val.toNat = 97 ∧ 'z'.val.toNat = 122 ∧ 'A'.val.toNat = 65 ∧ 'Z'.val.toNat = 90 := by decide
  omega

theorem letter_symbol {c : Char} (h : Letter c) : symbol c = none ↔ c ≠ 'F' ∧ c ≠ 'G' := by
  rw [← isAlpha_iff] at h
  constructor
  · intro e
    constructor <;> rintro rfl <;> simp [symbol] at e
  · rintro ⟨h1, h2⟩
    cases e : symbol c with
    | none => rfl
    | some o =>
      have := (symbol_iff c o).1 e
      simp only [symbols, List.mem_cons, Prod.mk.injEq, List.not_mem_nil, or_false] at this
      exfalso
      rcases this with ⟨rfl, -⟩ | ⟨rfl, -⟩ | ⟨rfl, -⟩ | ⟨rfl, -⟩ | ⟨rfl, -⟩ | ⟨rfl, -⟩ | ⟨rfl, -⟩ | ⟨rfl, -⟩ | ⟨rfl, -⟩ | ⟨rfl, -⟩ | ⟨rfl, -⟩ |
        ⟨rfl, -⟩ | ⟨rfl, -⟩ | ⟨rfl, -⟩ | ⟨rfl, -⟩ | ⟨rfl, -⟩ <;> first | exact h1 rfl | exact h2 rfl | exact absurd h (by decide)

theorem starts_iff (c : Char) : Starts c ↔ symbol c ≠ none ∨ isAlpha c = true := by
  unfold Starts
  rw [isAlpha_iff, Option.ne_none_iff_exists', or_comm]
  simp only [symbol_iff]

theorem starts_solid {c : Char} (h : Starts c) : Solid c := by
  rw [starts_iff] at h
  constructor <;> rintro rfl <;> revert h <;> decide

theorem letter_solid {c : Char} (h : Letter c) : Solid c := starts_solid (.inl h)

theorem span_letters (w r : List Char) (hw : ∀ d ∈ w, Letter d) (hr : ∀ c ∈ r.head?, ¬ Letter c) :
    (w ++ r).takeWhile isAlpha = w ∧ (w ++ r).dropWhile isAlpha = r := by
  induction w with
  | nil =>
    cases r with
    | nil => simp
    | cons c r =>
      have := hr c (by simp)
      rw [← isAlpha_iff, Bool.not_eq_true] at this
      simp [this]
  | cons d w ih =>
    have h1 := (isAlpha_iff d).2 (hw d (by simp))
    have h2 := ih fun x hx => hw x (List.mem_cons_of_mem _ hx)
    simp [h1, h2]

theorem rule_iff (t : List Char) (x : Rule) (r : List Char) :
    rule t = .ok x r ↔ ∃ g w, Gap g ∧ PrintsRule x w ∧ Apart x r ∧ t = g ++ (w ++ r) := by
  constructor
  · intro h
    obtain ⟨g, hg, ht, -⟩ := skip_spec t
    unfold rule at h
    split at h
    · cases h
    · rename_i c u e
      rw [e] at ht
      split at h
      · rename_i o ho
        simp only [Res.ok.injEq] at h
        obtain ⟨rfl, rfl⟩ := h
        exact ⟨g, [c], hg, .symbol c o ((symbol_iff c o).1 ho), (by rintro ⟨w, hw⟩; cases hw), ht⟩
      · rename_i ho
        split_ifs at h with ha
        simp only [Res.ok.injEq] at h
        obtain ⟨rfl, rfl⟩ := h
        have hl := (isAlpha_iff c).1 ha
        obtain ⟨h1, h2⟩ := (letter_symbol hl).1 ho
        refine ⟨g, _, hg, .word c _ h1 h2 hl ?_, ?_, ?_⟩
        · intro d hd
          exact (isAlpha_iff d).1 (List.all_eq_true.1 (List.all_takeWhile) d hd)
        · rintro - d hd
          rw [← isAlpha_iff]
          intro hcon
          have := List.head?_dropWhile_not isAlpha u
          rw [Option.mem_def.1 hd] at this
          simp [hcon] at this
        · rw [ht, List.cons_append, List.takeWhile_append_dropWhile]
  · rintro ⟨g, w, hg, hw, ha, rfl⟩
    unfold rule
    cases hw with
    | symbol c o h =>
      rw [show g ++ ([c] ++ r) = g ++ (c :: r) from rfl, skip_gap hg (stays_solid (starts_solid (.inr ⟨o, h⟩)) _)]
      simp only [(symbol_iff c o).2 h]
    | word c w h1 h2 hc hw =>
      rw [List.cons_append, skip_gap hg (stays_solid (letter_solid hc) _)]
      obtain ⟨e1, e2⟩ := span_letters w r hw (ha ⟨_, rfl⟩)
      simp only [(letter_symbol hc).2 ⟨h1, h2⟩, (isAlpha_iff c).2 hc, if_true, e1, e2]

theorem rule_no_error (t : List Char) : rule t ≠ .error := by
  unfold rule
  split
  · simp
  · split
    · simp
    · split_ifs <;> simp

/-- Not the begin of a rule. -/
def NoRule (u : List Char) : Prop := ¬ ∃ g c v, Gap g ∧ Starts c ∧ u = g ++ c :: v

theorem rule_fail_iff (t : List Char) : rule t = .fail ↔ NoRule t := by
  constructor
  · rintro h ⟨g, c, v, hg, hc, rfl⟩
    unfold rule at h
    rw [skip_gap hg (stays_solid (starts_solid hc) _)] at h
    rw [starts_iff] at hc
    simp only at h
    split at h
    · cases h
    · rename_i ho
      split_ifs at h with ha
      rcases hc with hc | hc
      · exact hc ho
      · exact ha hc
  · intro h
    obtain ⟨g, hg, ht, -⟩ := skip_spec t
    unfold rule
    split
    · rfl
    · rename_i c u e
      rw [e] at ht
      have hn : ¬ Starts c := fun hc => h ⟨g, c, u, hg, hc, ht⟩
      rw [starts_iff, not_or, not_not] at hn
      rw [hn.1]
      simp [hn.2]

theorem apart_of_noRule {x : Rule} {r : List Char} (h : NoRule r) : Apart x r := by
  rintro - c hc hl
  obtain ⟨t, rfl⟩ := List.head?_eq_some_iff.1 hc
  exact h ⟨[], c, t, .nil, .inl hl, rfl⟩

theorem printsRule_nonempty {x : Rule} {w : List Char} (h : PrintsRule x w) : ∃ c t, w = c :: t ∧ Starts c := by
  cases h with
  | symbol c o h => exact ⟨c, [], rfl, .inr ⟨o, h⟩⟩
  | word c w h1 h2 hc hw => exact ⟨c, w, rfl, .inl hc⟩

theorem rule_progress : Progress rule := by
  intro t x r h
  obtain ⟨g, w, -, hw, -, rfl⟩ := (rule_iff t x r).1 h
  obtain ⟨c, u, rfl, -⟩ := printsRule_nonempty hw
  simp
  omega

/-! ## Repetitions -/

/-- The parser matches these one after another. -/
inductive Chain {α : Type} (p : Parser α) : List α → List Char → List Char → Prop
  | nil (t) : Chain p [] t t
  | cons (a as t u r) (h : p t = .ok a u) (hs : Chain p as u r) : Chain p (a :: as) t r

theorem many_iff {α : Type} (p : Parser α) (hp : Progress p) (h0 : p [] = .fail) (n : Nat) (t : List Char) (hn : t.length ≤ n) (as : List α) (r : List Char) :
    many p n t = .ok as r ↔ Chain p as t r ∧ p r = .fail := by
  induction n generalizing t as with
  | zero =>
    have : t = [] := List.length_eq_zero_iff.1 (by omega)
    subst this
    simp only [many, Res.ok.injEq]
    constructor
    · rintro ⟨rfl, rfl⟩
      exact ⟨.nil _, h0⟩
    · rintro ⟨h, -⟩
      cases h with
      | nil => exact ⟨rfl, rfl⟩
      | cons a as _ u _ h => simp [h0] at h
  | succ n ih =>
    simp only [many]
    cases e : p t with
    | ok a u =>
      have hl := hp t a u e
      simp only
      constructor
      · intro h
        obtain ⟨bs, v, h1, h2⟩ := ok_andThen h
        simp only [Res.ok.injEq] at h2
        obtain ⟨rfl, rfl⟩ := h2
        obtain ⟨h3, h4⟩ := (ih u (by omega) bs).1 h1
        exact ⟨.cons a bs t u _ e h3, h4⟩
      · rintro ⟨h, hr⟩
        cases h with
        | nil => rw [e] at hr; cases hr
        | cons b bs _ v _ h hs =>
          rw [e] at h
          simp only [Res.ok.injEq] at h
          obtain ⟨rfl, rfl⟩ := h
          rw [(ih u (by omega) bs).2 ⟨hs, hr⟩]
          rfl
    | fail =>
      simp only [Res.ok.injEq]
      constructor
      · rintro ⟨rfl, rfl⟩
        exact ⟨.nil _, e⟩
      · rintro ⟨h, hr⟩
        cases h with
        | nil => exact ⟨rfl, rfl⟩
        | cons b bs _ v _ h hs => rw [e] at h; cases h
    | error =>
      simp only [reduceCtorEq, false_iff, not_and]
      intro h
      cases h with
      | nil => simp [e]
      | cons b bs _ v _ h hs => rw [e] at h; cases h

theorem printsRules_nonempty {xs : List Rule} {w : List Char} (h : PrintsRules xs w) : w ≠ [] := by
  cases h with
  | one g _ w hg hr =>
    obtain ⟨c, t, rfl, -⟩ := printsRule_nonempty hr
    simp
  | more g _ w rs v hg hr _ h =>
    obtain ⟨c, t, rfl, -⟩ := printsRule_nonempty hr
    simp

theorem rules_chain (x : Rule) (xs : List Rule) (t r : List Char) (hr : NoRule r) :
    Chain rule (x :: xs) t r ↔ ∃ w, PrintsRules (x :: xs) w ∧ t = w ++ r := by
  induction xs generalizing x t with
  | nil =>
    constructor
    · intro h
      cases h with
      | cons _ _ _ u _ h hs =>
        cases hs
        obtain ⟨g, w, hg, hw, -, rfl⟩ := (rule_iff _ _ _).1 h
        exact ⟨g ++ w, .one g x w hg hw, by simp⟩
    · rintro ⟨w, hw, rfl⟩
      cases hw with
      | one g r' w hg hr' => exact .cons _ _ _ r _ ((rule_iff _ _ _).2 ⟨g, w, hg, hr', apart_of_noRule hr, by simp⟩) (.nil _)
      | more g r' w rs v hg hr' ha h => cases h
  | cons y ys ih =>
    constructor
    · intro h
      cases h with
      | cons _ _ _ u _ h hs =>
        obtain ⟨v, hv, rfl⟩ := (ih y u).1 hs
        obtain ⟨g, w, hg, hw, ha, rfl⟩ := (rule_iff _ _ _).1 h
        refine ⟨g ++ (w ++ v), .more g x w _ v hg hw ?_ hv, by simp⟩
        intro hx c hc
        refine ha hx c ?_
        cases v with
        | nil => simp at hc
        | cons d v => simpa using hc
    · rintro ⟨w, hw, rfl⟩
      cases hw with
      | more g r' w rs v hg hr' ha h =>
        refine .cons _ _ _ (v ++ r) _ ((rule_iff _ _ _).2 ⟨g, w, hg, hr', ?_, by simp⟩) ((ih y _).2 ⟨v, h, rfl⟩)
        intro hx c hc
        refine ha hx c ?_
        have hne : v ≠ [] := by
          exact printsRules_nonempty h
        cases v with
        | nil => exact absurd rfl hne
        | cons d v => simpa using hc

theorem rules_iff (t : List Char) (xs : List Rule) (r : List Char) : rules t = .ok xs r ↔ (∃ w, PrintsRules xs w ∧ t = w ++ r) ∧ NoRule r := by
  unfold rules
  constructor
  · intro h
    obtain ⟨a, u, h1, h2⟩ := ok_andThen h
    obtain ⟨as, v, h3, h4⟩ := ok_andThen h2
    simp only [Res.ok.injEq] at h4
    obtain ⟨rfl, rfl⟩ := h4
    obtain ⟨h5, h6⟩ := (many_iff rule rule_progress rfl _ u (Nat.le_refl _) as _).1 h3
    rw [rule_fail_iff] at h6
    exact ⟨(rules_chain a as t _ h6).1 (.cons _ _ _ u _ h1 h5), h6⟩
  · rintro ⟨⟨w, hw, rfl⟩, hr⟩
    obtain ⟨a, as, rfl⟩ : ∃ a as, xs = a :: as := by cases hw <;> exact ⟨_, _, rfl⟩
    have := (rules_chain a as _ r hr).2 ⟨w, hw, rfl⟩
    cases this with
    | cons _ _ _ u _ h hs =>
      rw [h]
      simp only [Res.andThen]
      rw [(many_iff rule rule_progress rfl _ u (Nat.le_refl _) as r).2 ⟨hs, (rule_fail_iff r).2 hr⟩]

theorem rules_no_error (t : List Char) : rules t ≠ .error := by
  have key : ∀ n t, many rule n t ≠ .error := by
    intro n
    induction n with
    | zero => intro t; simp [many]
    | succ n ih =>
      intro t
      simp only [many]
      cases e : rule t with
      | ok a u =>
        simp only
        cases e2 : many rule n u with
        | ok => simp [Res.andThen]
        | fail => simp [Res.andThen]
        | error => exact absurd e2 (ih u)
      | fail => simp
      | error => exact absurd e (rule_no_error t)
  unfold rules
  cases e : rule t with
  | ok a u =>
    simp only [Res.andThen]
    cases e2 : many rule u.length u with
    | ok => simp
    | fail => simp
    | error => exact absurd e2 (key _ u)
  | fail => simp [Res.andThen]
  | error => exact absurd e (rule_no_error t)

/-! ## Numbers -/

theorem digit_iff (c : Char) (d : Nat) : digit c = some d ↔ d < 10 ∧ c = Char.ofNat (48 + d) := by
  constructor
  · intro h
    unfold digit at h
    split_ifs at h with hc
    simp only [Option.some.injEq] at h
    have h1 : d < 10 := by omega
    refine ⟨h1, ?_⟩
    rw [show 48 + d = c.toNat by omega]
    exact (Char.ofNat_toNat c).symm
  · rintro ⟨h, rfl⟩
    exact digit_char d h

/-- The text of digits. -/
def shown (ds : List Nat) : List Char := ds.map fun d => Char.ofNat (48 + d)

/-- Their value, behind a value so far. -/
def value (v : Nat) (ds : List Nat) : Nat := ds.foldl (fun v d => 10 * v + d) v

theorem digits_iff (w : List Char) (n : Nat) : Digits w n ↔ ∃ ds : List Nat, ds ≠ [] ∧ (∀ d ∈ ds, d < 10) ∧ w = shown ds ∧ n = value 0 ds := Iff.rfl

theorem value_shift (v : Nat) (ds : List Nat) : value v ds = v * 10 ^ ds.length + value 0 ds := by
  induction ds generalizing v with
  | nil => simp [value]
  | cons d ds ih =>
    have h1 := ih (10 * v + d)
    have h2 := ih d
    simp only [value, List.foldl_cons, Nat.mul_zero, Nat.zero_add, List.length_cons] at *
    rw [h1, h2]
    ring

theorem digitLoop_spec (t : List Char) (v k : Nat) : ∃ ds r, (∀ d ∈ ds, d < 10) ∧ t = shown ds ++ r ∧ NoDigit r ∧ digitLoop v k t = (value v ds, k + ds.length, r) := by
  induction t generalizing v k with
  | nil => exact ⟨[], [], by simp, rfl, (by intro c t h; cases h), rfl⟩
  | cons c t ih =>
    simp only [digitLoop]
    cases e : digit c with
    | none => exact ⟨[], c :: t, by simp, rfl, (by intro c' t' h; cases h; exact e), rfl⟩
    | some d =>
      obtain ⟨hd, hc⟩ := (digit_iff c d).1 e
      obtain ⟨ds, r, h1, h2, h3, h4⟩ := ih (10 * v + d) (k + 1)
      refine ⟨d :: ds, r, ?_, ?_, h3, ?_⟩
      · intro x hx
        rcases List.mem_cons.1 hx with rfl | hx
        · exact hd
        · exact h1 x hx
      · rw [h2, hc]; rfl
      · simp only [h4, value, List.foldl_cons, List.length_cons, Prod.mk.injEq, and_true, true_and]
        omega

theorem loop_ok (ds : List Nat) (h : ∀ d ∈ ds, d < 10) (r : List Char) (hr : NoDigit r) (v k : Nat) :
    digitLoop v k (shown ds ++ r) = (value v ds, k + ds.length, r) := digitLoop_ok ds h r hr v k

theorem unsigned_sound {l : Nat} {t r : List Char} {n : Nat} (h : unsigned l t = some (n, r)) : ∃ w, Digits w n ∧ n ≤ l ∧ t = w ++ r := by
  obtain ⟨ds, u, h1, h2, h3, h4⟩ := digitLoop_spec t 0 0
  unfold unsigned at h
  rw [h4] at h
  simp only at h
  split_ifs at h with hc
  simp only [Option.some.injEq, Prod.mk.injEq] at h
  obtain ⟨rfl, rfl⟩ := h
  push Not at hc
  refine ⟨shown ds, (digits_iff _ _).2 ⟨ds, ?_, h1, rfl, rfl⟩, hc.2, h2⟩
  rintro rfl
  simp at hc

theorem unsigned_ok {l : Nat} {w r : List Char} {n : Nat} (hw : Digits w n) (hn : n ≤ l) (hr : NoDigit r) : unsigned l (w ++ r) = some (n, r) := by
  obtain ⟨ds, hne, hd, rfl, rfl⟩ := (digits_iff _ _).1 hw
  unfold unsigned
  rw [loop_ok ds hd r hr]
  simp only
  rw [if_neg]
  have := List.length_pos_of_ne_nil hne
  omega

theorem sign_sound (t : List Char) : ∃ s, PrintsSign (sign t).1 s ∧ t = s ++ (sign t).2 := by
  cases t with
  | nil => exact ⟨[], .none, rfl⟩
  | cons c t =>
    simp only [sign]
    split_ifs with h1 h2
    · exact ⟨['-'], .minus, by rw [h1]; rfl⟩
    · exact ⟨['+'], .plus, by rw [h2]; rfl⟩
    · exact ⟨[], .none, rfl⟩

theorem sign_ok {b : Bool} {s : List Char} (h : PrintsSign b s) (c : Char) (h1 : c ≠ '-') (h2 : c ≠ '+') (r : List Char) : sign (s ++ c :: r) = (b, c :: r) := by
  cases h <;> simp [sign, h1, h2]

theorem digits_head {w : List Char} {n : Nat} (h : Digits w n) : ∃ c t d, w = c :: t ∧ digit c = some d := by
  obtain ⟨ds, hne, hd, rfl, rfl⟩ := (digits_iff _ _).1 h
  cases ds with
  | nil => exact absurd rfl hne
  | cons d ds => exact ⟨_, _, d, rfl, digit_char d (hd d (by simp))⟩

theorem digit_other {c : Char} {d : Nat} (h : digit c = some d) : c ≠ '-' ∧ c ≠ '+' ∧ c ≠ '.' ∧ Solid c ∧ c ≠ 'e' ∧ c ≠ 'E' := by
  refine ⟨?_, ?_, ?_, ⟨?_, ?_⟩, ?_, ?_⟩ <;> rintro rfl <;> simp [digit] at h

theorem integer_sound {t r : List Char} {n : Int} (h : integer t = some (n, r)) : ∃ w, PrintsInt n w ∧ t = w ++ r := by
  obtain ⟨s, hs, ht⟩ := sign_sound t
  unfold integer at h
  cases e : sign t with
  | mk b u =>
    rw [e] at h hs ht
    cases b with
    | true =>
      simp only [Option.map_eq_some_iff, Prod.mk.injEq] at h
      obtain ⟨⟨m, r'⟩, h1, h2, h3⟩ := h
      simp only at h2 h3
      subst h2 h3
      obtain ⟨w, hw, hm, hu⟩ := unsigned_sound h1
      exact ⟨s ++ w, .negative s w m hs hw (by norm_num; exact hm), by rw [ht]; simp only; rw [hu, List.append_assoc]⟩
    | false =>
      simp only [Option.map_eq_some_iff, Prod.mk.injEq] at h
      obtain ⟨⟨m, r'⟩, h1, h2, h3⟩ := h
      simp only at h2 h3
      subst h2 h3
      obtain ⟨w, hw, hm, hu⟩ := unsigned_sound h1
      exact ⟨s ++ w, .positive s w m hs hw (by norm_num; omega), by rw [ht]; simp only; rw [hu, List.append_assoc]⟩

theorem integer_ok {n : Int} {w : List Char} (h : PrintsInt n w) (r : List Char) (hr : NoDigit r) : integer (w ++ r) = some (n, r) := by
  cases h with
  | positive s w n hs hw hn =>
    have hu := unsigned_ok (l := 2147483647) hw (by norm_num at hn; omega) hr
    obtain ⟨c, t, d, rfl, hd⟩ := digits_head hw
    obtain ⟨h1, h2, -⟩ := digit_other hd
    unfold integer
    rw [List.append_assoc, List.cons_append, sign_ok hs c h1 h2]
    rw [List.cons_append] at hu
    simp only [hu, Option.map_some]
  | negative s w n hs hw hn =>
    have hu := unsigned_ok (l := 2147483648) hw (by norm_num at hn; omega) hr
    obtain ⟨c, t, d, rfl, hd⟩ := digits_head hw
    obtain ⟨h1, h2, -⟩ := digit_other hd
    unfold integer
    rw [List.append_assoc, List.cons_append, sign_ok hs c h1 h2]
    rw [List.cons_append] at hu
    simp only [hu, Option.map_some]

/-- What can not go on with a number. -/
def NumberEnd (r : List Char) : Prop := NoDigit r ∧ ∀ c ∈ r.head?, c ≠ '.' ∧ c ≠ 'e' ∧ c ≠ 'E'

theorem exponent_sound (t : List Char) : ∃ w, PrintsExponent (exponent t).1 w ∧ t = w ++ (exponent t).2 := by
  cases t with
  | nil => exact ⟨[], .none, rfl⟩
  | cons c t =>
    simp only [exponent]
    split_ifs with hc
    · cases e : integer t with
      | none => exact ⟨[], .none, rfl⟩
      | some p =>
        obtain ⟨n, r⟩ := p
        obtain ⟨w, hw, rfl⟩ := integer_sound e
        exact ⟨c :: w, .some c n w hc hw, rfl⟩
    · exact ⟨[], .none, rfl⟩

theorem exponent_ok {e : Int} {w : List Char} (h : PrintsExponent e w) (r : List Char) (hr : NumberEnd r) : exponent (w ++ r) = (e, r) := by
  cases h with
  | none =>
    cases r with
    | nil => rfl
    | cons c r =>
      obtain ⟨-, h1, h2⟩ := hr.2 c (by simp)
      simp [exponent, h1, h2]
  | some c n w hc hw => simp [exponent, hc, integer_ok hw r hr.1]

theorem exponent_noDigit {e : Int} {w : List Char} (h : PrintsExponent e w) (r : List Char) (hr : NumberEnd r) : NoDigit (w ++ r) := by
  cases h with
  | none => exact hr.1
  | some c n w hc hw =>
    intro a t ht
    simp only [List.cons_append, List.cons.injEq] at ht
    rw [← ht.1]
    rcases hc with rfl | rfl <;> rfl

theorem scaled_eq (b : Bool) (n m places : Nat) (e : Int) :
    scaled b (n * 10 ^ places + m) places e = (if b then -((n : ℚ) + m / 10 ^ places) else (n : ℚ) + m / 10 ^ places) * 10 ^ e := by
  unfold scaled
  rw [zpow_sub₀ (by norm_num), zpow_natCast]
  push_cast
  cases b
  · simp only [Bool.false_eq_true, if_false]
    field_simp
  · simp only [if_true]
    field_simp

theorem scaled_zero (b : Bool) (n : Nat) (e : Int) : scaled b n 0 e = (if b then -(n : ℚ) else (n : ℚ)) * 10 ^ e := by
  have := scaled_eq b n 0 0 e
  simpa using this

theorem digits0_iff (w : List Char) (n : Nat) : Digits0 w n ↔ ∃ ds : List Nat, (∀ d ∈ ds, d < 10) ∧ w = shown ds ∧ n = value 0 ds := by
  unfold Digits0
  rw [digits_iff]
  constructor
  · rintro (⟨rfl, rfl⟩ | ⟨ds, -, h⟩)
    · exact ⟨[], by simp, rfl, rfl⟩
    · exact ⟨ds, h⟩
  · rintro ⟨ds, h1, rfl, rfl⟩
    cases ds with
    | nil => exact .inl ⟨rfl, rfl⟩
    | cons d ds => exact .inr ⟨d :: ds, by simp, h1, rfl, rfl⟩

theorem shown_length (ds : List Nat) : (shown ds).length = ds.length := by simp [shown]

theorem decimal_sound {t r : List Char} {q : ℚ} (h : decimal t = some (q, r)) : ∃ w, PrintsReal q w ∧ t = w ++ r := by
  obtain ⟨s, hs, ht⟩ := sign_sound t
  unfold decimal at h
  cases e : sign t with
  | mk b u =>
    rw [e] at h hs ht
    simp only at h hs ht
    obtain ⟨ds, v, h1, h2, h3, h4⟩ := digitLoop_spec u 0 0
    rw [h4] at h
    have hd : ds.length ≠ 0 → Digits (shown ds) (value 0 ds) := by
      intro hne
      refine (digits_iff _ _).2 ⟨ds, ?_, h1, rfl, rfl⟩
      rintro rfl
      exact hne rfl
    cases v with
    | nil =>
      simp only [Nat.zero_add] at h
      split_ifs at h with hc
      simp only [Option.some.injEq, Prod.mk.injEq] at h
      obtain ⟨rfl, rfl⟩ := h
      refine ⟨s ++ (shown ds ++ []), ?_, by rw [ht, h2]; simp⟩
      rw [scaled_zero]
      exact .mk b s _ _ 0 [] hs (.whole _ _ (hd hc)) .none
    | cons c v =>
      simp only [Nat.zero_add] at h
      by_cases hc : c = '.'
      · rw [if_pos hc] at h
        subst hc
        obtain ⟨es, x, k1, k2, k3, k4⟩ := digitLoop_spec v (value 0 ds) 0
        rw [k4] at h
        simp only [Nat.zero_add] at h
        split_ifs at h with hz
        obtain ⟨w, hw, hx⟩ := exponent_sound x
        simp only [Option.some.injEq, Prod.mk.injEq] at h
        obtain ⟨rfl, rfl⟩ := h
        refine ⟨s ++ ((shown ds ++ '.' :: shown es) ++ w), ?_, ?_⟩
        · rw [value_shift, scaled_eq]
          refine .mk b s _ _ _ w hs ?_ hw
          rw [← shown_length es]
          refine .dot _ _ _ _ ((digits0_iff _ _).2 ⟨ds, h1, rfl, rfl⟩) ((digits0_iff _ _).2 ⟨es, k1, rfl, rfl⟩) ?_
          by_contra hcon
          push Not at hcon
          refine hz ⟨?_, ?_⟩
          · rw [← shown_length, hcon.1]; rfl
          · rw [← shown_length, hcon.2]; rfl
        · rw [ht, h2, k2]
          conv_lhs => rw [hx]
          simp
      · rw [if_neg hc] at h
        split_ifs at h with hz
        obtain ⟨w, hw, hx⟩ := exponent_sound (c :: v)
        simp only [Option.some.injEq, Prod.mk.injEq] at h
        obtain ⟨rfl, rfl⟩ := h
        refine ⟨s ++ (shown ds ++ w), ?_, ?_⟩
        · rw [scaled_zero]
          exact .mk b s _ _ _ w hs (.whole _ _ (hd hz)) hw
        · rw [ht, h2]
          conv_lhs => rw [hx]
          simp

theorem decimal_ok {q : ℚ} {w : List Char} (h : PrintsReal q w) (r : List Char) (hr : NumberEnd r) : decimal (w ++ r) = some (q, r) := by
  cases h with
  | mk b s m v e w hs hm he =>
    have hx := exponent_ok he r hr
    have hn := exponent_noDigit he r hr
    cases hm with
    | whole v n hv =>
      obtain ⟨ds, hne, hd, rfl, rfl⟩ := (digits_iff _ _).1 hv
      obtain ⟨c, t, d, hct, hdig⟩ := digits_head hv
      obtain ⟨h1, h2, -⟩ := digit_other hdig
      unfold decimal
      have e1 : s ++ (shown ds ++ w) ++ r = s ++ (c :: (t ++ (w ++ r))) := by rw [hct]; simp
      rw [e1, sign_ok hs c h1 h2]
      have e2 : c :: (t ++ (w ++ r)) = shown ds ++ (w ++ r) := by rw [hct]; rfl
      simp only
      rw [e2, loop_ok ds hd _ hn]
      have hl := List.length_pos_of_ne_nil hne
      cases ew : w ++ r with
      | nil =>
        rw [ew] at hx
        simp only [exponent, Prod.mk.injEq] at hx
        obtain ⟨rfl, rfl⟩ := hx
        simp only [Nat.zero_add]
        rw [if_neg (by omega), scaled_zero]
      | cons c' u =>
        rw [ew] at hx
        have hdot : c' ≠ '.' := by
          cases he with
          | none =>
            simp only [List.nil_append] at ew
            exact (hr.2 c' (by rw [ew]; rfl)).1
          | some c'' n w hc hw =>
            simp only [List.cons_append, List.cons.injEq] at ew
            rw [← ew.1]
            rcases hc with rfl | rfl <;> decide
        simp only [Nat.zero_add]
        rw [if_neg hdot, if_neg (by omega), hx]
        simp only
        rw [scaled_zero]
    | dot v n v' m hv hv' hne =>
      obtain ⟨ds, hd, rfl, rfl⟩ := (digits0_iff _ _).1 hv
      obtain ⟨es, hes, rfl, rfl⟩ := (digits0_iff _ _).1 hv'
      have hsign : sign (s ++ ((shown ds ++ '.' :: shown es) ++ w) ++ r) = (b, shown ds ++ '.' :: (shown es ++ (w ++ r))) := by
        cases ds with
        | nil =>
          have := sign_ok hs '.' (by decide) (by decide) (shown es ++ (w ++ r))
          simpa [shown] using this
        | cons d ds =>
          obtain ⟨h1, h2, -⟩ := digit_other (digit_char d (hd d (by simp)))
          have := sign_ok hs (Char.ofNat (48 + d)) h1 h2 (shown ds ++ '.' :: (shown es ++ (w ++ r)))
          simpa [shown] using this
      unfold decimal
      rw [hsign]
      simp only
      rw [loop_ok ds hd _ (by intro a t ht; simp only [List.cons.injEq] at ht; rw [← ht.1]; rfl)]
      simp only [if_true]
      rw [loop_ok es hes _ hn]
      simp only [Nat.zero_add]
      rw [if_neg]
      · rw [hx]
        simp only
        rw [value_shift, scaled_eq, shown_length]
      · rintro ⟨h1, h2⟩
        rcases hne with hne | hne
        · exact hne (by rw [← List.length_eq_zero_iff, shown_length]; exact h1)
        · exact hne (by rw [← List.length_eq_zero_iff, shown_length]; exact h2)

/-! ## Lines -/

instance (c : Char) : Decidable (Control c) := inferInstanceAs (Decidable (c ∈ ['\t', '\n', '\x0b', '\x0c', '\r']))

theorem control_iff (c : Char) : Control c ↔ MapCss.isSpace c = true ∧ c ≠ ' ' := by
  rw [MapCssProof.isSpace_iff]
  unfold Control MapCssSpec.Space
  constructor
  · intro h
    refine ⟨List.mem_cons_of_mem _ h, ?_⟩
    rintro rfl
    revert h
    decide
  · rintro ⟨h, hn⟩
    rcases List.mem_cons.1 h with h | h
    · exact absurd h hn
    · exact h

theorem control_solid {c : Char} (h : Control c) : Solid c := by
  refine ⟨((control_iff c).1 h).2, ?_⟩
  rintro rfl
  revert h
  decide

theorem space_iff (t : List Char) (a : Unit) (r : List Char) : space t = .ok a r ↔ ∃ g c, Gap g ∧ Control c ∧ t = g ++ c :: r := by
  constructor
  · intro h
    obtain ⟨g, hg, ht, hs⟩ := skip_spec t
    unfold space at h
    split at h
    · cases h
    · rename_i c u e
      rw [e] at ht hs
      split_ifs at h with hc
      simp only [Res.ok.injEq, true_and] at h
      subst h
      refine ⟨g, c, hg, (control_iff c).2 ⟨hc, ?_⟩, ht⟩
      rintro rfl
      simp [Stays, skipOne] at hs
  · rintro ⟨g, c, hg, hc, rfl⟩
    unfold space
    rw [skip_gap hg (stays_solid (control_solid hc) _)]
    simp [((control_iff c).1 hc).1]

theorem space_fail {g : List Char} (hg : Gap g) (c : Char) (hc : Solid c) (hn : MapCss.isSpace c = false) (t : List Char) : space (g ++ c :: t) = .fail := by
  unfold space
  rw [skip_gap hg (stays_solid hc _)]
  simp [hn]

theorem space_progress : Progress space := by
  intro t a r h
  obtain ⟨g, c, -, -, rfl⟩ := (space_iff _ _ _).1 h
  simp
  omega

theorem spaces_chain (n : Nat) (t r : List Char) : Chain space (List.replicate (n + 1) ()) t r → ∃ w, Break w ∧ t = w ++ r := by
  induction n generalizing t with
  | zero =>
    intro h
    cases h with
    | cons _ _ _ u _ h hs =>
      cases hs
      obtain ⟨g, c, hg, hc, rfl⟩ := (space_iff _ _ _).1 h
      exact ⟨g ++ [c], .one g c hg hc, by simp⟩
  | succ n ih =>
    intro h
    cases h with
    | cons _ _ _ u _ h hs =>
      obtain ⟨w, hw, rfl⟩ := ih u hs
      obtain ⟨g, c, hg, hc, rfl⟩ := (space_iff _ _ _).1 h
      exact ⟨g ++ c :: w, .more g c w hg hc hw, by simp⟩

theorem chain_spaces {w : List Char} (h : Break w) (r : List Char) : ∃ u as, space (w ++ r) = .ok () u ∧ Chain space as u r := by
  induction h with
  | one g c hg hc => exact ⟨r, [], (space_iff _ _ _).2 ⟨g, c, hg, hc, by simp⟩, .nil _⟩
  | more g c w hg hc h ih =>
    obtain ⟨u, as, h1, h2⟩ := ih
    exact ⟨w ++ r, () :: as, (space_iff _ _ _).2 ⟨g, c, hg, hc, by simp⟩, .cons _ _ _ u _ h1 h2⟩

theorem spaces_sound {t r : List Char} {a : Unit} (h : spaces t = .ok a r) : ∃ w, Break w ∧ t = w ++ r := by
  unfold spaces at h
  obtain ⟨x, u, h1, h2⟩ := ok_andThen h
  obtain ⟨as, v, h3, h4⟩ := ok_andThen h2
  simp only [Res.ok.injEq, true_and] at h4
  subst h4
  obtain ⟨h5, -⟩ := (many_iff space space_progress rfl _ u (Nat.le_refl _) as _).1 h3
  refine spaces_chain as.length t _ ?_
  have e : as = List.replicate as.length () := List.eq_replicate_iff.2 ⟨rfl, fun _ _ => rfl⟩
  rw [List.replicate_succ, ← e]
  exact .cons _ _ _ u _ h1 h5

theorem spaces_ok {w : List Char} (h : Break w) (r : List Char) (hr : space r = .fail) : spaces (w ++ r) = .ok () r := by
  obtain ⟨u, as, h1, h2⟩ := chain_spaces h r
  unfold spaces
  rw [h1]
  simp only [Res.andThen]
  rw [(many_iff space space_progress rfl _ u (Nat.le_refl _) as r).2 ⟨h2, hr⟩]

/-- How a line end begins. -/
theorem break_head {w : List Char} (h : Break w) : ∃ c t, w = c :: t ∧ (c = ' ' ∨ c = '#' ∨ Control c) := by
  cases h with
  | one g c hg hc =>
    cases g with
    | nil => exact ⟨c, [], rfl, .inr (.inr hc)⟩
    | cons a g => exact ⟨a, g ++ [c], rfl, by rcases gap_head hg with h | h <;> simp [h]⟩
  | more g c w hg hc h =>
    cases g with
    | nil => exact ⟨c, w, rfl, .inr (.inr hc)⟩
    | cons a g => exact ⟨a, g ++ c :: w, rfl, by rcases gap_head hg with h | h <;> simp [h]⟩

theorem control_number {c : Char} (h : c = ' ' ∨ c = '#' ∨ c = ')' ∨ Control c) : digit c = none ∧ c ≠ '.' ∧ c ≠ 'e' ∧ c ≠ 'E' := by
  simp only [Control, List.mem_cons, List.not_mem_nil, or_false] at h
  rcases h with rfl | rfl | rfl | rfl | rfl | rfl | rfl | rfl <;> decide

theorem numberEnd_cons {c : Char} (h : c = ' ' ∨ c = '#' ∨ c = ')' ∨ Control c) (t : List Char) : NumberEnd (c :: t) := by
  obtain ⟨h1, h2⟩ := control_number h
  refine ⟨?_, ?_⟩
  · intro a u e
    simp only [List.cons.injEq] at e
    rw [← e.1]
    exact h1
  · intro a ha
    simp only [List.head?_cons, Option.mem_def, Option.some.injEq] at ha
    rw [← ha]
    exact h2

theorem break_numberEnd {w : List Char} (h : Break w) (r : List Char) : NumberEnd (w ++ r) := by
  obtain ⟨c, t, rfl, hc⟩ := break_head h
  exact numberEnd_cons (by rcases hc with h | h | h <;> simp [h]) _

theorem int_sound {t r : List Char} {n : Int} (h : int t = .ok n r) : ∃ g w, Gap g ∧ PrintsInt n w ∧ t = g ++ (w ++ r) := by
  obtain ⟨g, hg, ht, -⟩ := skip_spec t
  unfold int at h
  split at h
  · rename_i n' r' e
    simp only [Res.ok.injEq] at h
    obtain ⟨rfl, rfl⟩ := h
    obtain ⟨w, hw, hs⟩ := integer_sound e
    exact ⟨g, w, hg, hw, by rw [← hs]; exact ht⟩
  · cases h

theorem sign_solid {b : Bool} {s : List Char} (h : PrintsSign b s) (c : Char) (hc : Solid c) (t : List Char) : Stays (s ++ c :: t) := by
  cases h
  · exact stays_solid hc _
  · exact stays_solid (by decide) _
  · exact stays_solid (by decide) _

theorem int_ok {g w : List Char} {n : Int} (hg : Gap g) (hw : PrintsInt n w) (r : List Char) (hr : NoDigit r) : int (g ++ (w ++ r)) = .ok n r := by
  have hs : Stays (w ++ r) := by
    cases hw with
    | positive s w n hs hw hn =>
      obtain ⟨c, t, d, rfl, hd⟩ := digits_head hw
      rw [List.append_assoc]
      exact sign_solid hs c (digit_other hd).2.2.2.1 _
    | negative s w n hs hw hn =>
      obtain ⟨c, t, d, rfl, hd⟩ := digits_head hw
      rw [List.append_assoc]
      exact sign_solid hs c (digit_other hd).2.2.2.1 _
  unfold int
  rw [skip_gap hg hs, integer_ok hw r hr]

theorem double_sound {t r : List Char} {q : ℚ} (h : double t = .ok q r) : ∃ g w, Gap g ∧ PrintsReal q w ∧ t = g ++ (w ++ r) := by
  obtain ⟨g, hg, ht, -⟩ := skip_spec t
  unfold double at h
  split at h
  · rename_i n' r' e
    simp only [Res.ok.injEq] at h
    obtain ⟨rfl, rfl⟩ := h
    obtain ⟨w, hw, hs⟩ := decimal_sound e
    exact ⟨g, w, hg, hw, by rw [← hs]; exact ht⟩
  · cases h

theorem double_ok {g w : List Char} {q : ℚ} (hg : Gap g) (hw : PrintsReal q w) (r : List Char) (hr : NumberEnd r) : double (g ++ (w ++ r)) = .ok q r := by
  have hs : Stays (w ++ r) := by
    cases hw with
    | mk b s m v e w hs hm he =>
      cases hm with
      | whole v n hv =>
        obtain ⟨c, t, d, rfl, hd⟩ := digits_head hv
        rw [List.append_assoc, List.cons_append, List.cons_append]
        exact sign_solid hs c (digit_other hd).2.2.2.1 _
      | dot v n v' m hv hv' hne =>
        rcases hv with ⟨rfl, -⟩ | hv
        · rw [List.append_assoc]
          exact sign_solid hs '.' (by decide) _
        · obtain ⟨c, t, d, rfl, hd⟩ := digits_head hv
          rw [List.append_assoc]
          exact sign_solid hs c (digit_other hd).2.2.2.1 _
  unfold double
  rw [skip_gap hg hs, decimal_ok hw r hr]

theorem lit_fail (c : Char) (s : List Char) {g : List Char} (hg : Gap g) (d : Char) (hd : Solid d) (hn : c ≠ d) (t : List Char) : lit (c :: s) (g ++ d :: t) = .fail := by
  unfold lit
  rw [skip_gap hg (stays_solid hd _)]
  simp [dropPrefix, hn]

theorem probability_sound {t r : List Char} {q : ℚ} (h : probability t = .ok q r) : ∃ v, PrintsProbability q v ∧ t = v ++ r := by
  unfold probability at h
  split at h
  · rename_i u v e
    obtain ⟨g, hg, rfl⟩ := (lit_iff '(' (by decide) [] _ _ _).1 e
    obtain ⟨q', x, h1, h2⟩ := ok_andThen h
    obtain ⟨⟨⟩, y, h3, h4⟩ := ok_andThen h2
    simp only [Res.ok.injEq] at h4
    obtain ⟨rfl, rfl⟩ := h4
    obtain ⟨k, w, hk, hw, rfl⟩ := double_sound (ok_expect h1)
    obtain ⟨l, hl, rfl⟩ := (lit_iff ')' (by decide) [] _ _ _).1 (ok_expect h3)
    exact ⟨_, .some g k l _ w hg hk hw hl, by simp⟩
  · simp only [Res.ok.injEq] at h
    obtain ⟨rfl, rfl⟩ := h
    exact ⟨[], .none, rfl⟩
  · cases h

theorem probability_ok {q : ℚ} {v : List Char} (h : PrintsProbability q v) {g : List Char} (hg : Gap g) (r : List Char) :
    probability (v ++ (g ++ '-' :: r)) = .ok q (g ++ '-' :: r) := by
  cases h with
  | none =>
    unfold probability
    rw [List.nil_append, lit_fail '(' [] hg '-' (by decide) (by decide)]
  | some h k l q w hh hk hw hl =>
    unfold probability
    have e : h ++ '(' :: (k ++ (w ++ (l ++ [')']))) ++ (g ++ '-' :: r) = h ++ (['('] ++ (k ++ (w ++ (l ++ ([')'] ++ (g ++ '-' :: r)))))) := by simp
    rw [e, lit_ok '(' (by decide) [] hh]
    simp only
    have hend : NumberEnd (l ++ ([')'] ++ (g ++ '-' :: r))) := by
      cases l with
      | nil => exact numberEnd_cons (by simp) _
      | cons a l => exact numberEnd_cons (by rcases gap_head hl with h | h <;> simp [h]) _
    rw [double_ok hk hw _ hend]
    simp only [Res.expect, Res.andThen]
    rw [lit_ok ')' (by decide) [] hl]

theorem probability_head {q : ℚ} {v : List Char} (h : PrintsProbability q v) : ∀ c ∈ v.head?, ¬ Letter c := by
  cases h with
  | none => simp
  | some g k l q w hg hk hw hl =>
    intro c hc
    cases g with
    | nil =>
      simp only [List.nil_append, List.head?_cons, Option.mem_def, Option.some.injEq] at hc
      rw [← hc, ← isAlpha_iff]
      decide
    | cons a g =>
      simp only [List.cons_append, List.head?_cons, Option.mem_def, Option.some.injEq] at hc
      rw [← hc, ← isAlpha_iff]
      rcases gap_head hg with rfl | rfl <;> decide

theorem gap_dash_head {g : List Char} (hg : Gap g) (r : List Char) : ∀ c ∈ (g ++ '-' :: r).head?, ¬ Letter c := by
  intro c hc
  cases g with
  | nil =>
    simp only [List.nil_append, List.head?_cons, Option.mem_def, Option.some.injEq] at hc
    rw [← hc, ← isAlpha_iff]
    decide
  | cons a g =>
    simp only [List.cons_append, List.head?_cons, Option.mem_def, Option.some.injEq] at hc
    rw [← hc, ← isAlpha_iff]
    rcases gap_head hg with rfl | rfl <;> decide

theorem production_iff (t : List Char) (p : Rule × ℚ × List Rule) (r : List Char) :
    production t = .ok p r ↔ (∃ w, PrintsProduction p w ∧ t = w ++ r) ∧ NoRule r := by
  constructor
  · intro h
    unfold production at h
    obtain ⟨a, x, h1, h⟩ := ok_andThen h
    obtain ⟨q, y, h2, h⟩ := ok_andThen h
    obtain ⟨⟨⟩, z, h3, h⟩ := ok_andThen h
    obtain ⟨as, r', h4, h⟩ := ok_andThen h
    simp only [Res.ok.injEq] at h
    obtain ⟨rfl, rfl⟩ := h
    obtain ⟨g, w, hg, hw, -, rfl⟩ := (rule_iff _ _ _).1 h1
    obtain ⟨v, hv, rfl⟩ := probability_sound (ok_expect h2)
    obtain ⟨k, hk, rfl⟩ := (lit_iff '-' (by decide) ['>'] _ _ _).1 (ok_expect h3)
    obtain ⟨⟨u, hu, rfl⟩, hr⟩ := (rules_iff _ _ _).1 (ok_expect h4)
    exact ⟨⟨_, .mk g a w q v k as u hg hw hv hk hu, by simp⟩, hr⟩
  · rintro ⟨⟨w, hw, rfl⟩, hr⟩
    cases hw with
    | mk g a w q v h as u hg ha hq hh hs =>
      have e : g ++ (w ++ (v ++ (h ++ '-' :: '>' :: u))) ++ r = g ++ (w ++ (v ++ (h ++ (['-', '>'] ++ (u ++ r))))) := by simp
      unfold production
      have hap : Apart a (v ++ (h ++ (['-', '>'] ++ (u ++ r)))) := by
        rintro - c hc
        cases v with
        | nil => exact gap_dash_head hh _ c hc
        | cons d v => exact probability_head hq c hc
      rw [e, (rule_iff _ _ _).2 ⟨g, w, hg, ha, hap, rfl⟩]
      simp only [Res.andThen]
      rw [show h ++ (['-', '>'] ++ (u ++ r)) = h ++ '-' :: ('>' :: (u ++ r)) from rfl, probability_ok hq hh]
      simp only [Res.expect]
      rw [show h ++ '-' :: ('>' :: (u ++ r)) = h ++ (['-', '>'] ++ (u ++ r)) from rfl, lit_ok '-' (by decide) ['>'] hh]
      simp only
      rw [(rules_iff _ _ _).2 ⟨⟨u, hs, rfl⟩, hr⟩]

theorem production_fail_iff (t : List Char) : production t = .fail ↔ NoRule t := by
  rw [← rule_fail_iff]
  constructor
  · intro h
    unfold production at h
    cases e : rule t with
    | fail => rfl
    | error => exact absurd e (rule_no_error t)
    | ok a x =>
      exfalso
      rw [e] at h
      simp only [Res.andThen] at h
      have key : ∀ {α β : Type} (y : Res α) (f : α → List Char → Res β), (∀ a r, f a r ≠ .fail) → (match y.expect with | .ok a r => f a r | .fail => .fail | .error => .error) ≠ .fail := by
        intro α β y f hf
        cases y with
        | ok a r => exact hf a r
        | fail => simp [Res.expect]
        | error => simp [Res.expect]
      refine key _ _ ?_ h
      intro q r
      refine key _ _ ?_
      intro _ r
      refine key _ _ ?_
      simp
  · intro h
    unfold production
    rw [h]
    rfl

theorem production_progress : Progress production := by
  intro t p r h
  obtain ⟨⟨w, hw, rfl⟩, -⟩ := (production_iff _ _ _).1 h
  cases hw
  simp
  omega

/-- A further production in the next line -/
def next : Parser (Rule × ℚ × List Rule) := fun t => (lit ['\n'] t).andThen fun _ r => production r

theorem next_iff (t : List Char) (p : Rule × ℚ × List Rule) (r : List Char) :
    next t = .ok p r ↔ (∃ g w, Gap g ∧ PrintsProduction p w ∧ t = g ++ ('\n' :: (w ++ r))) ∧ NoRule r := by
  constructor
  · intro h
    unfold next at h
    obtain ⟨⟨⟩, x, h1, h2⟩ := ok_andThen h
    obtain ⟨g, hg, rfl⟩ := (lit_iff '\n' (by decide) [] _ _ _).1 h1
    obtain ⟨⟨w, hw, rfl⟩, hr⟩ := (production_iff _ _ _).1 h2
    exact ⟨⟨g, w, hg, hw, by simp⟩, hr⟩
  · rintro ⟨⟨g, w, hg, hw, rfl⟩, hr⟩
    unfold next
    rw [show g ++ '\n' :: (w ++ r) = g ++ (['\n'] ++ (w ++ r)) from rfl, lit_ok '\n' (by decide) [] hg]
    simp only [Res.andThen]
    exact (production_iff _ _ _).2 ⟨⟨w, hw, rfl⟩, hr⟩

theorem next_fail_iff (t : List Char) : next t = .fail ↔ ¬ ∃ g h c v, Gap g ∧ Gap h ∧ Starts c ∧ t = g ++ '\n' :: (h ++ c :: v) := by
  unfold next
  cases e : lit ['\n'] t with
  | error => exact absurd e (lit_no_error _ _)
  | fail =>
    simp only [Res.andThen, true_iff]
    rintro ⟨g, h, c, v, hg, -, -, rfl⟩
    rw [show g ++ '\n' :: (h ++ c :: v) = g ++ (['\n'] ++ (h ++ c :: v)) from rfl, lit_ok '\n' (by decide) [] hg] at e
    cases e
  | ok a r =>
    obtain ⟨g, hg, rfl⟩ := (lit_iff '\n' (by decide) [] _ _ _).1 e
    simp only [Res.andThen]
    rw [production_fail_iff]
    constructor
    · rintro hn ⟨g', h, c, v, hg', hh, hc, e'⟩
      rw [e', show g' ++ '\n' :: (h ++ c :: v) = g' ++ (['\n'] ++ (h ++ c :: v)) from rfl, lit_ok '\n' (by decide) [] hg'] at e
      simp only [Res.ok.injEq] at e
      exact hn ⟨h, c, v, hh, hc, e.2.symm⟩
    · rintro hn ⟨h, c, v, hh, hc, rfl⟩
      exact hn ⟨g, h, c, v, hg, hh, hc, rfl⟩

theorem next_progress : Progress next := by
  intro t p r h
  obtain ⟨⟨g, w, -, -, rfl⟩, -⟩ := (next_iff _ _ _).1 h
  simp
  omega

theorem noRule_line {g : List Char} (hg : Gap g) (t : List Char) : NoRule (g ++ '\n' :: t) := by
  rw [← rule_fail_iff]
  unfold rule
  rw [skip_gap hg (stays_solid (by decide) _)]
  rfl

theorem productions_chain (ps : List (Rule × ℚ × List Rule)) (p : Rule × ℚ × List Rule) (t r : List Char) (hr : NoRule r) :
    (∃ u, production t = .ok p u ∧ Chain next ps u r) ↔ ∃ w, PrintsProductions (p :: ps) w ∧ t = w ++ r := by
  induction ps generalizing p t with
  | nil =>
    constructor
    · rintro ⟨u, h, hs⟩
      cases hs
      obtain ⟨⟨w, hw, rfl⟩, -⟩ := (production_iff _ _ _).1 h
      exact ⟨w, .one p w hw, rfl⟩
    · rintro ⟨w, hw, rfl⟩
      cases hw with
      | one p w hp => exact ⟨r, (production_iff _ _ _).2 ⟨⟨w, hp, rfl⟩, hr⟩, .nil _⟩
      | more p w g ps v hp hg h => cases h
  | cons q qs ih =>
    constructor
    · rintro ⟨u, h, hs⟩
      cases hs with
      | cons _ _ _ v _ h1 h2 =>
        obtain ⟨⟨g, w', hg, hw', rfl⟩, hv⟩ := (next_iff _ _ _).1 h1
        obtain ⟨x, hx, e⟩ := (ih q (w' ++ v)).1 ⟨v, (production_iff _ _ _).2 ⟨⟨w', hw', rfl⟩, hv⟩, h2⟩
        obtain ⟨⟨w, hw, rfl⟩, -⟩ := (production_iff _ _ _).1 h
        exact ⟨_, .more p w g _ x hw hg hx, by rw [e]; simp⟩
    · rintro ⟨w, hw, rfl⟩
      cases hw with
      | more p w g ps v hp hg h =>
        obtain ⟨u, h1, h2⟩ := (ih q (v ++ r)).2 ⟨v, h, rfl⟩
        refine ⟨g ++ '\n' :: (v ++ r), (production_iff _ _ _).2 ⟨⟨w, hp, by simp⟩, noRule_line hg _⟩, .cons _ _ _ u _ ?_ h2⟩
        unfold next
        rw [show g ++ '\n' :: (v ++ r) = g ++ (['\n'] ++ (v ++ r)) from rfl, lit_ok '\n' (by decide) [] hg]
        exact h1

theorem productions_iff (t : List Char) (ps : List (Rule × ℚ × List Rule)) (r : List Char) :
    productions t = .ok ps r ↔ (∃ w, PrintsProductions ps w ∧ t = w ++ r) ∧ Stops r := by
  constructor
  · intro h
    unfold productions at h
    obtain ⟨a, u, h1, h2⟩ := ok_andThen h
    obtain ⟨as, v, h3, h4⟩ := ok_andThen h2
    simp only [Res.ok.injEq] at h4
    obtain ⟨rfl, rfl⟩ := h4
    obtain ⟨h5, h6⟩ := (many_iff next next_progress rfl _ u (Nat.le_refl _) as _).1 h3
    have hn : NoRule v := by
      cases h5 with
      | nil => exact ((production_iff _ _ _).1 h1).2
      | cons b bs _ x _ hb hbs =>
        clear h3 h6 h1 h h2
        have : ∀ (bs : List (Rule × ℚ × List Rule)) (x : List Char), NoRule x → Chain next bs x v → NoRule v := by
          intro bs
          induction bs with
          | nil => intro x hx hc; cases hc; exact hx
          | cons b bs ih =>
            intro x hx hc
            cases hc with
            | cons _ _ _ y _ hy hys => exact ih y ((next_iff _ _ _).1 hy).2 hys
        exact this bs x ((next_iff _ _ _).1 hb).2 hbs
    exact ⟨(productions_chain as a t v hn).1 ⟨u, h1, h5⟩, hn, (next_fail_iff v).1 h6⟩
  · rintro ⟨⟨w, hw, rfl⟩, hr⟩
    obtain ⟨a, as, rfl⟩ : ∃ a as, ps = a :: as := by cases hw <;> exact ⟨_, _, rfl⟩
    obtain ⟨u, h1, h2⟩ := (productions_chain as a _ r hr.1).2 ⟨w, hw, rfl⟩
    unfold productions
    rw [h1]
    simp only [Res.andThen]
    have := (many_iff next next_progress rfl _ u (Nat.le_refl _) as r).2 ⟨h2, (next_fail_iff r).2 hr.2⟩
    unfold next at this
    simp only [Res.andThen] at this
    rw [this]

end Verif.LsysTextProof
