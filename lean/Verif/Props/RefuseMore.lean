import Verif.Props.MapCssMissing
import Verif.Props.LsysDraw

/-! # References without end are refused (C60); lists of styles which are too short are refused (C90) -/
namespace Verif.Props

section
open Verif.MapCss Verif.MapCssSpec Verif.MapCssProof
variable {A L : Type}

namespace RefuseMoreProof

/-- An item which is read and whose action is done, but which is not closed. -/
theorem open_throw (T : Tools A L) {t u r : List Char} {es : List (Entry A L)} {i : Item} (hu : u ≠ []) (hr : ¬ [')', ';'] <+: r) (ht : Reads T t u es)
    (hi : item u = .ok i ('"' :: r)) (hn : ∀ x, i ≠ .rule x) {D' : Nat} (ha : ∀ d s, D' ≤ d → ∃ s', act T (parseInto T d) s i = .ok s') :
    ∃ D, ∀ d, D ≤ d → parse T d t = .throw "MapCssException" := by
  have hl : lit closeText ('"' :: r) = .fail := by
    have := str_fail (g := []) Gap.nil (r := '"' :: r) (stays_solid (by decide) _) closeText (by
      rintro ⟨u, hu⟩
      simp only [closeText, List.cons_append, List.nil_append, List.cons.injEq, true_and] at hu
      exact hr ⟨u, by simpa using hu⟩)
    simp only [List.nil_append, str] at this
    cases hq : lit closeText ('"' :: r) with
    | ok x y => rw [hq] at this; cases this
    | fail => rfl
    | error => rw [hq] at this; cases this
  have hf : finish i ('"' :: r) = .error := by
    cases i with
    | rule x => exact absurd rfl (hn x)
    | imported f => simp only [finish, hl, Res.expect]
    | texture f => simp only [finish, hl, Res.expect]
    | lsystem f => simp only [finish, hl, Res.expect]
  obtain ⟨D, h⟩ := sheetLoop_reads T ht
  refine ⟨max D D' + 1, fun d hd => ?_⟩
  cases d with
  | zero => omega
  | succ d =>
    obtain ⟨m, hm, e'⟩ := h d (by omega) t.length (Nat.le_refl _) ⟨[], [], []⟩
    have := List.length_pos_of_ne_nil hu
    rw [parse, parseInto, e']
    cases m with
    | zero => omega
    | succ m =>
      rw [sheetLoop, hi]
      simp only
      obtain ⟨s', hs⟩ := ha d _ (by omega : D' ≤ d)
      rw [hs]
      simp only [Outcome.bind, hf]

end RefuseMoreProof

/-- C60: a stylesheet with a reference to a texture, an L-system or another stylesheet which is not closed by `");` is rejected, even if what it refers to
is fine, whatever is in front of it and behind it. -/
theorem C60_rejected_open (T : Tools A L) {t g h f r c k : List Char} {es : List (Entry A L)} (hg : Gap g) (hh : Gap h) (hf : Word ['"'] f)
    (hr : ¬ [')', ';'] <+: r) (ht : Reads T t (g ++ k ++ [' ', 'u', 'r', 'l', '(', '"'] ++ h ++ f ++ '"' :: r) es) (hc : T.file f = some c)
    (hk : (k = ['@', 't', 'e', 'x', 't', 'u', 'r', 'e'] ∧ ∃ a, T.atlas c = .ok a) ∨ (k = ['@', 'l', 's', 'y', 's', 't', 'e', 'm'] ∧ ∃ l, T.lsystem c = .ok l) ∨
      (k = ['@', 'i', 'm', 'p', 'o', 'r', 't'] ∧ ∃ D, ∀ d, D ≤ d → ∃ s, parse T d c = .ok s)) :
    ∃ D, ∀ d, D ≤ d → parse T d t = .throw "MapCssException" := by
  rcases hk with ⟨rfl, a, ha⟩ | ⟨rfl, l, hl⟩ | ⟨rfl, D', hD⟩
  · refine RefuseMoreProof.open_throw T (i := .texture f) (by simp) hr ht ?_ (by simp) (D' := 0) fun d s _ => ⟨{ s with textures := s.textures ++ [a] }, by
      simp only [act, getContent, hc, ha, Outcome.bind]⟩
    have e1 := reference_ok hg hh hf textureText r (fun r => by exact stays_solid (by decide) _)
    have e2 := rule_fail_at hg (['t', 'e', 'x', 't', 'u', 'r', 'e', ' ', 'u', 'r', 'l', '(', '"'] ++ (h ++ (f ++ '"' :: r)))
    have e3 := reference_fail hg (r := ['@', 't', 'e', 'x', 't', 'u', 'r', 'e', ' ', 'u', 'r', 'l', '(', '"'] ++ (h ++ (f ++ '"' :: r)))
      (stays_solid (by decide) _) importText (by
        rintro ⟨u, hu⟩
        simp [importText] at hu)
    unfold item
    simp only [importText, textureText, List.append_assoc, List.cons_append, List.nil_append] at e1 e2 e3 ⊢
    rw [e2]
    simp only
    rw [e3]
    simp only
    rw [e1]
  · refine RefuseMoreProof.open_throw T (i := .lsystem f) (by simp) hr ht ?_ (by simp) (D' := 0) fun d s _ =>
      ⟨{ s with lsystems := s.lsystems.emplace (Strings.getFileNameWithoutExtension '\\' '/' '.' f) l }, by
      simp only [act, getContent, hc, hl, Outcome.bind]⟩
    have e1 := reference_ok hg hh hf lsystemText r (fun r => by exact stays_solid (by decide) _)
    have e2 := rule_fail_at hg (['l', 's', 'y', 's', 't', 'e', 'm', ' ', 'u', 'r', 'l', '(', '"'] ++ (h ++ (f ++ '"' :: r)))
    have e3 := reference_fail hg (r := ['@', 'l', 's', 'y', 's', 't', 'e', 'm', ' ', 'u', 'r', 'l', '(', '"'] ++ (h ++ (f ++ '"' :: r)))
      (stays_solid (by decide) _) importText (by
        rintro ⟨u, hu⟩
        simp [importText] at hu)
    have e4 := reference_fail hg (r := ['@', 'l', 's', 'y', 's', 't', 'e', 'm', ' ', 'u', 'r', 'l', '(', '"'] ++ (h ++ (f ++ '"' :: r)))
      (stays_solid (by decide) _) textureText (by
        rintro ⟨u, hu⟩
        simp [textureText] at hu)
    unfold item
    simp only [importText, textureText, lsystemText, List.append_assoc, List.cons_append, List.nil_append] at e1 e2 e3 e4 ⊢
    rw [e2]
    simp only
    rw [e3]
    simp only
    rw [e4]
    simp only
    rw [e1]
    rfl
  · refine RefuseMoreProof.open_throw T (i := .imported f) (by simp) hr ht ?_ (by simp) (D' := D') fun d s hd => ?_
    · have e1 := reference_ok hg hh hf importText r (fun r => by exact stays_solid (by decide) _)
      have e2 := rule_fail_at hg (['i', 'm', 'p', 'o', 'r', 't', ' ', 'u', 'r', 'l', '(', '"'] ++ (h ++ (f ++ '"' :: r)))
      unfold item
      simp only [importText, List.append_assoc, List.cons_append, List.nil_append] at e1 e2 ⊢
      rw [e2]
      simp only
      rw [e1]
    · simp only [act, hc, Option.getD_some]
      obtain ⟨s0, h1⟩ := hD d hd
      unfold parse at h1
      have h2 := MapCssMissingProof.alike_parse T d c ⟨[], [], []⟩ s
      cases h0 : parseInto T d c ⟨[], [], []⟩ with
      | ok a =>
        rw [h0] at h2
        cases h3 : parseInto T d c s with
        | ok a => exact ⟨a, rfl⟩
        | throw e' => rw [h3] at h2; exact h2.elim
        | ub w => rw [h3] at h2; exact h2.elim
      | throw e' => rw [h0] at h1; cases h1
      | ub w => rw [h0] at h1; cases h1

/-- A texture whose reference lacks the semicolon meets the hypotheses. -/
example : let T : Tools Nat Nat := ⟨fun _ => some ['c'], fun _ => .ok 1, fun _ => .ok 2⟩
    ∃ D, ∀ d, D ≤ d → parse T d "@texture url(\"x\")".toList = .throw "MapCssException" := by
  intro T
  exact C60_rejected_open T (g := []) (h := []) (f := ['x']) (r := [')']) (c := ['c']) (k := ['@', 't', 'e', 'x', 't', 'u', 'r', 'e']) (es := []) .nil .nil
    (MapCssMissingProof.texture_prints.elim fun g h => h.elim fun h x => x.2.2.1) (by decide) (.done _) rfl (.inl ⟨rfl, 1, rfl⟩)

end

section
open Verif.LsysDraw Verif.LsysDrawSpec
open Verif.Building (Look)
variable {K : Type}

/-- C90: if there are less indices, types or scales than colors, the styles are refused with an exception; nothing is read beyond the lists. -/
theorem C90_refused [Field K] [LinearOrder K] [IsStrictOrderedRing K] (provider : Provider K) (texts : Texts) (h1 : ∀ t w, provider.toIndex t ≠ .ub w) (h2 : ∀ t w, provider.toScale t ≠ .ub w)
    (h3 : ∀ c i t s w, provider.appearance c i t s ≠ .ub w)
    (h : parts texts.indices < parts texts.colors ∨ parts texts.types < parts texts.colors ∨ parts texts.scales < parts texts.colors) :
    ∃ e, createAppearances provider texts = .throw e := by
  have hb : ∀ {α β : Type} (x : Outcome α) (f : α → Outcome β), (∀ w, x ≠ .ub w) → (∀ a w, f a ≠ .ub w) → ∀ w, x.bind f ≠ .ub w := by
    intro α β x f hx hf w
    cases x with
    | ok a => exact hf a w
    | throw e => simp [Outcome.bind]
    | ub v => exact absurd rfl (hx v)
  have hat : ∀ {α : Type} (l : List α) (i : Nat) w, at' l i ≠ .ub w := by
    intro α l i w
    unfold at'
    split <;> simp
  have hn : ∀ (cs is ts ss : List (List Char)) (n i : Nat) w, appearancesFrom provider cs is ts ss i n ≠ .ub w := by
    intro cs is ts ss n
    induction n with
    | zero => intro i w; simp [appearancesFrom]
    | succ n ih =>
      intro i
      unfold appearancesFrom
      refine hb _ _ (hat _ _) fun _ => hb _ _ (h1 _) fun _ => hb _ _ (hat _ _) fun _ => hb _ _ (hat _ _) fun _ => hb _ _ (hat _ _) fun _ =>
        hb _ _ (h2 _) fun _ => hb _ _ (h3 _ _ _ _) fun _ => hb _ _ (ih _) fun _ w => by simp
  cases hc : createAppearances provider texts with
  | ok looks =>
    obtain ⟨-, -, a, b, c⟩ := C90_lists provider texts looks hc
    omega
  | throw e => exact ⟨e, rfl⟩
  | ub w => exact absurd hc (hn _ _ _ _ _ _ w)

/-- Two colors with one index are such a list. -/
example : parts ['0'] < parts ['r', ',', 'g'] := by decide

end
end Verif.Props
