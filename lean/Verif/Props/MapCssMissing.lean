import Verif.Props.MapCss

/-! # Stylesheets which refer to missing or damaged files (C60) -/
namespace Verif.Props
open Verif.MapCss Verif.MapCssSpec Verif.MapCssProof

variable {A L : Type}

namespace MapCssMissingProof

/-- Both calls return, or both end with the same error. -/
def Alike {α : Type} : Outcome α → Outcome α → Prop
  | .ok _, .ok _ => True
  | .throw e, .throw e' => e = e'
  | .ub w, .ub w' => w = w'
  | _, _ => False

theorem alike_refl {α : Type} (x : Outcome α) : Alike x x := by cases x <;> simp [Alike]

theorem alike_bind {α β : Type} {x y : Outcome α} {f g : α → Outcome β} (h : Alike x y) (hf : ∀ a b, Alike (f a) (g b)) : Alike (x.bind f) (y.bind g) := by
  cases x <;> cases y <;> simp only [Alike, Outcome.bind] at h ⊢
  · exact hf _ _
  · exact h
  · exact h

theorem alike_act (T : Tools A L) {imp : List Char → Sheet A L → Outcome (Sheet A L)} (hi : ∀ c s s', Alike (imp c s) (imp c s')) (s s' : Sheet A L) (i : Item) :
    Alike (act T imp s i) (act T imp s' i) := by
  cases i with
  | rule r => exact trivial
  | imported f => exact hi _ _ _
  | texture f =>
    simp only [act]
    cases h' : getContent T f with
    | ok c => cases h : T.atlas c <;> simp [Outcome.bind, h, Alike]
    | _ => simp [Outcome.bind, Alike]
  | lsystem f =>
    simp only [act]
    cases h' : getContent T f with
    | ok c => cases h : T.lsystem c <;> simp [Outcome.bind, h, Alike]
    | _ => simp [Outcome.bind, Alike]

theorem alike_loop (T : Tools A L) {imp : List Char → Sheet A L → Outcome (Sheet A L)} (hi : ∀ c s s', Alike (imp c s) (imp c s')) (n : Nat) (t : List Char) (s s' : Sheet A L) :
    Alike (sheetLoop T imp n t s) (sheetLoop T imp n t s') := by
  induction n generalizing t s s' with
  | zero => exact trivial
  | succ n ih =>
    rw [sheetLoop, sheetLoop]
    cases item t with
    | ok i r =>
      refine alike_bind (alike_act T hi s s' i) fun a b => ?_
      cases finish i r with
      | ok _ r => exact ih r a b
      | _ => exact alike_refl _
    | _ => simp [Alike]

/-- Whether a text is accepted does not depend on the stylesheet it is added to. -/
theorem alike_parse (T : Tools A L) (d : Nat) (t : List Char) (s s' : Sheet A L) : Alike (parseInto T d t s) (parseInto T d t s') := by
  induction d generalizing t s s' with
  | zero => exact alike_refl _
  | succ d ih => exact alike_loop T (fun c s s' => ih c s s') _ t s s'

/-- An item whose action ends with an exception behind some entries. -/
theorem parse_throw (T : Tools A L) {t u r : List Char} {es : List (Entry A L)} {i : Item} {e : String} (h : Reads T t u es) (hu : u ≠ []) (hi : item u = .ok i r) {D' : Nat}
    (he : ∀ d s, D' ≤ d → act T (parseInto T d) s i = .throw e) : ∃ D, ∀ d, D ≤ d → parse T d t = .throw e := by
  obtain ⟨D, h⟩ := sheetLoop_reads T h
  refine ⟨max D D' + 1, fun d hd => ?_⟩
  cases d with
  | zero => omega
  | succ d =>
    obtain ⟨m, hm, e'⟩ := h d (by omega) t.length (Nat.le_refl _) ⟨[], [], []⟩
    have := List.length_pos_of_ne_nil hu
    rw [parse, parseInto, e']
    cases m with
    | zero => omega
    | succ m =>
      rw [sheetLoop, hi]
      simp only [he d _ (by omega : D' ≤ d), Outcome.bind]

end MapCssMissingProof
open MapCssMissingProof

/-- C60: a stylesheet which names a texture or an L-system whose file is missing is rejected, whatever is in front of it and behind it. -/
theorem C60_rejected_missing (T : Tools A L) {t w r f : List Char} {es : List (Entry A L)} (h : Reads T t (w ++ r) es)
    (hw : PrintsReference ['@', 't', 'e', 'x', 't', 'u', 'r', 'e'] f w ∨ PrintsReference ['@', 'l', 's', 'y', 's', 't', 'e', 'm'] f w) (hf : T.file f = none) :
    ∃ D, ∀ d, D ≤ d → parse T d t = .throw "MapCssException" := by
  rcases hw with hw | hw
  · exact parse_throw T h (by simp [reference_nonempty hw]) (item_texture hw r) (D' := 0) fun d s _ => by simp only [act, getContent, hf, Outcome.bind]
  · exact parse_throw T h (by simp [reference_nonempty hw]) (item_lsystem hw r) (D' := 0) fun d s _ => by simp only [act, getContent, hf, Outcome.bind]

/-- C60: a stylesheet which names a texture or an L-system whose file is rejected is rejected for the same reason. -/
theorem C60_rejected_file (T : Tools A L) {t w r f c : List Char} {es : List (Entry A L)} {e : String} (h : Reads T t (w ++ r) es) (hf : T.file f = some c)
    (hw : (PrintsReference ['@', 't', 'e', 'x', 't', 'u', 'r', 'e'] f w ∧ T.atlas c = .throw e) ∨
      (PrintsReference ['@', 'l', 's', 'y', 's', 't', 'e', 'm'] f w ∧ T.lsystem c = .throw e)) :
    ∃ D, ∀ d, D ≤ d → parse T d t = .throw e := by
  rcases hw with ⟨hw, he⟩ | ⟨hw, he⟩
  · exact parse_throw T h (by simp [reference_nonempty hw]) (item_texture hw r) (D' := 0) fun d s _ => by simp only [act, getContent, hf, Outcome.bind, he]
  · exact parse_throw T h (by simp [reference_nonempty hw]) (item_lsystem hw r) (D' := 0) fun d s _ => by simp only [act, getContent, hf, Outcome.bind, he]

/-- C60: a stylesheet which imports another one which is rejected, is rejected for the same reason. -/
theorem C60_rejected_import (T : Tools A L) {t w r f c : List Char} {es : List (Entry A L)} {e : String} (h : Reads T t (w ++ r) es) (hf : T.file f = some c)
    (hw : PrintsReference ['@', 'i', 'm', 'p', 'o', 'r', 't'] f w) (he : ∃ D, ∀ d, D ≤ d → parse T d c = .throw e) : ∃ D, ∀ d, D ≤ d → parse T d t = .throw e := by
  obtain ⟨D, he⟩ := he
  refine parse_throw T h (by simp [reference_nonempty hw]) (item_import hw r) (D' := D) fun d s hd => ?_
  simp only [act, hf, Option.getD_some]
  have h1 := he d hd
  unfold parse at h1
  have h2 := alike_parse T d c ⟨[], [], []⟩ s
  rw [h1] at h2
  cases h3 : parseInto T d c s with
  | ok a => rw [h3] at h2; exact h2.elim
  | throw e' => rw [h3] at h2; rw [show e = e' from h2]
  | ub w => rw [h3] at h2; exact h2.elim

/-- C60 is violated: a stylesheet which imports a file which is missing is accepted as if the import was not there. -/
theorem C60_violated_missing (T : Tools A L) {t w u g f : List Char} {es fs : List (Entry A L)} (h : Reads T t (w ++ u) es)
    (hw : PrintsReference ['@', 'i', 'm', 'p', 'o', 'r', 't'] f w) (hf : T.file f = none) (hu : Reads T u g fs) (hg : Gap g) :
    ∃ D, ∀ d, D ≤ d → ∃ s, parse T d t = .ok s ∧ IsSheet s (es ++ fs) := by
  obtain ⟨D1, h1⟩ := sheetLoop_reads T h
  obtain ⟨D2, h2⟩ := sheetLoop_reads T hu
  refine ⟨max D1 D2 + 2, fun d hd => ⟨_, ?_, isSheet (es ++ fs)⟩⟩
  obtain ⟨d, rfl⟩ : ∃ k, d = k + 2 := ⟨d - 2, by omega⟩
  obtain ⟨m, hm, e⟩ := h1 (d + 1) (by omega) t.length (Nat.le_refl _) ⟨[], [], []⟩
  rw [parse, parseInto, e]
  have hl := List.length_pos_of_ne_nil (reference_nonempty hw)
  rw [List.length_append] at hm
  obtain ⟨m, rfl⟩ : ∃ k, m = k + 1 := ⟨m - 1, by omega⟩
  rw [sheetLoop, item_import hw u]
  have e0 : ∀ s, parseInto T (d + 1) [] s = .ok s := fun s => rfl
  simp only [act, hf, Option.getD_none, e0, Outcome.bind, finish, close_ok]
  obtain ⟨m', hm', e'⟩ := h2 (d + 1) (by omega) m (by omega) (es.foldl MapCssProof.add ⟨[], [], []⟩)
  rw [e', List.foldl_append]
  cases m' with
  | zero => rfl
  | succ m' => rw [sheetLoop, item_end hg]

/-- `@texture url("x");` -/
theorem MapCssMissingProof.texture_prints : PrintsReference ['@', 't', 'e', 'x', 't', 'u', 'r', 'e'] ['x'] ['@', 't', 'e', 'x', 't', 'u', 'r', 'e', ' ', 'u', 'r', 'l', '(', '"', 'x', '"', ')', ';'] :=
  ⟨[], [], .nil, .nil, MapCssExample.word _ _ (by decide) (by decide) (by decide), rfl⟩

/-- `@import url("x");` -/
theorem MapCssMissingProof.import_prints : PrintsReference ['@', 'i', 'm', 'p', 'o', 'r', 't'] ['x'] ['@', 'i', 'm', 'p', 'o', 'r', 't', ' ', 'u', 'r', 'l', '(', '"', 'x', '"', ')', ';'] :=
  ⟨[], [], .nil, .nil, MapCssExample.word _ _ (by decide) (by decide) (by decide), rfl⟩

/-- A texture which is missing, behind an import and a rule. -/
example (r : List Char) : ∃ D, ∀ d, D ≤ d →
    parse MapCssExample.tools d (MapCssExample.importF ++ (MapCssExample.text ++ (['@', 't', 'e', 'x', 't', 'u', 'r', 'e', ' ', 'u', 'r', 'l', '(', '"', 'x', '"', ')', ';'] ++ r))) = .throw "MapCssException" :=
  C60_rejected_missing _ (MapCssExample.doc_reads _) (.inl texture_prints) rfl

/-- An import which is missing, behind an import and a rule, in front of another rule: three rules are left. -/
example : ∃ D, ∀ d, D ≤ d → ∃ s,
    parse MapCssExample.tools d (MapCssExample.importF ++ (MapCssExample.text ++ (['@', 'i', 'm', 'p', 'o', 'r', 't', ' ', 'u', 'r', 'l', '(', '"', 'x', '"', ')', ';'] ++ (MapCssExample.text ++ [])))) = .ok s ∧
      s.rules.length = 3 := by
  obtain ⟨D, h⟩ := C60_violated_missing MapCssExample.tools (MapCssExample.doc_reads _) import_prints rfl
    (.rule MapCssExample.expected _ _ [] [] MapCssExample.text_prints (.done [])) .nil
  refine ⟨D, fun d hd => ?_⟩
  obtain ⟨s, h1, h2⟩ := h d hd
  exact ⟨s, h1, by rw [h2.1]; rfl⟩

/-- A file which names a missing texture is imported. -/
example (r : List Char) : ∃ T : Tools Unit Unit, ∃ D, ∀ d, D ≤ d → parse T d (MapCssExample.importF ++ r) = .throw "MapCssException" := by
  let T : Tools Unit Unit := ⟨fun f => if f = ['f'] then some (['@', 't', 'e', 'x', 't', 'u', 'r', 'e', ' ', 'u', 'r', 'l', '(', '"', 'x', '"', ')', ';'] ++ []) else none, fun _ => .ok (), fun _ => .ok ()⟩
  exact ⟨T, C60_rejected_import T (.done _) rfl MapCssExample.import_prints (C60_rejected_missing T (.done _) (.inl texture_prints) rfl)⟩

end Verif.Props
