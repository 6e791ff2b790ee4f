import Verif.Proof.MapCss

/-! # C60: stylesheet parsing -/
namespace Verif.Props
open Verif.MapCss Verif.MapCssSpec Verif.MapCssProof

variable {A L : Type}

/-- C60: a text which is written for a stylesheet, with any white space and comments in the places where the grammar allows them, is parsed to this
stylesheet: the same selectors with the same zoom ranges, conditions and declarations in the same order, with the entries of imported files in the place of
the import. Partial: keys and values which begin with `/` or `<`, conditions with an exclamation mark and selectors with a repeated `canvas` or `element` are not covered. The stack has to suffice
for the depth of the imports. -/
theorem C60_parse_partial (T : Tools A L) (t g : List Char) (es : List (Entry A L)) (h : Reads T t g es) (hg : Gap g) :
    ∃ D, ∀ d, D ≤ d → ∃ s, parse T d t = .ok s ∧ IsSheet s es := by
  obtain ⟨D, h⟩ := sheetLoop_reads T h
  refine ⟨D + 1, fun d hd => ⟨_, ?_, isSheet es⟩⟩
  cases d with
  | zero => omega
  | succ d =>
    obtain ⟨m, hm, e⟩ := h d (by omega) t.length (Nat.le_refl _) ⟨[], [], []⟩
    rw [parse, parseInto, e]
    cases m with
    | zero => rfl
    | succ m => rw [sheetLoop, item_end hg]

namespace MapCssProof

theorem parse_error (T : Tools A L) {t u : List Char} {es : List (Entry A L)} (h : Reads T t u es) (hu : u ≠ []) (he : item u = .error) :
    ∃ D, ∀ d, D ≤ d → parse T d t = .throw "MapCssException" := by
  obtain ⟨D, h⟩ := sheetLoop_reads T h
  refine ⟨D + 1, fun d hd => ?_⟩
  cases d with
  | zero => omega
  | succ d =>
    obtain ⟨m, hm, e⟩ := h d (by omega) t.length (Nat.le_refl _) ⟨[], [], []⟩
    have := List.length_pos_of_ne_nil hu
    rw [parse, parseInto, e]
    cases m with
    | zero => omega
    | succ m => rw [sheetLoop, he]

theorem parse_stop (T : Tools A L) {t u : List Char} {es : List (Entry A L)} (h : Reads T t u es) (he : item u = .fail) :
    ∃ D, ∀ d, D ≤ d → ∃ s, parse T d t = .ok s ∧ IsSheet s es := by
  obtain ⟨D, h⟩ := sheetLoop_reads T h
  refine ⟨D + 1, fun d hd => ⟨_, ?_, isSheet es⟩⟩
  cases d with
  | zero => omega
  | succ d =>
    obtain ⟨m, hm, e⟩ := h d (by omega) t.length (Nat.le_refl _) ⟨[], [], []⟩
    rw [parse, parseInto, e]
    cases m with
    | zero => rfl
    | succ m => rw [sheetLoop, he]

theorem digit_none {c : Char} (h : ∀ d < 10, c ≠ Char.ofNat (48 + d)) : digit c = none := by
  unfold digit
  split
  · rename_i hc
    refine absurd ?_ (h (c.toNat - 48) (by omega))
    have : 48 + (c.toNat - 48) = c.toNat := by omega
    rw [this, Char.ofNat_toNat]
  · rfl

theorem item_of_rule_error {t : List Char} (h : rule t = .error) : item t = .error := by
  unfold item
  rw [h]

theorem name_head {n : List Char} (h : ElementName n) : ∃ c t, n = c :: t ∧ Solid c ∧ c ≠ 'c' ∧ c ≠ 'e' ∧ c ≠ '@' := by
  simp only [ElementName, List.mem_cons, List.not_mem_nil, or_false] at h
  rcases h with rfl | rfl | rfl | rfl <;> exact ⟨_, _, rfl, by decide, by decide, by decide, by decide⟩

end MapCssProof

open Props.MapCssProof

/-- C60: malformed texts are rejected, behind any entries: selectors which are followed by something which is neither part of them nor the begin of the
declarations. -/
theorem C60_rejected_brace (T : Tools A L) (t : List Char) (es : List (Entry A L)) (ss : List Selector) (w k r : List Char) (c : Char)
    (h : Reads T t (w ++ (k ++ c :: r)) es) (hs : PrintsSelectors ss w) (hk : Gap k) (hc : Solid c) (hn : c ∉ ['-', '+', '[', ',', '{'])
    (hd : ∀ d < 10, c ≠ Char.ofNat (48 + d)) : ∃ D, ∀ d, D ≤ d → parse T d t = .throw "MapCssException" := by
  simp only [List.mem_cons, List.not_mem_nil, or_false, not_or] at hn
  obtain ⟨h1, h2, h3, h4, h5⟩ := hn
  refine parse_error T h (by simp) (item_of_rule_error ?_)
  unfold rule
  rw [selectors_ok hs hk hc h1 h2 (digit_none hd) h3 h4 r, andThen_ok, lit_fail hk (stays_solid hc r) _ (not_prefix_cons (Ne.symm h5) _ _)]
  rfl

/-- C60: a rule without declarations is rejected. -/
theorem C60_rejected_empty (T : Tools A L) (t : List Char) (es : List (Entry A L)) (ss : List Selector) (w k l r : List Char)
    (h : Reads T t (w ++ (k ++ '{' :: (l ++ '}' :: r))) es) (hs : PrintsSelectors ss w) (hk : Gap k) (hl : Gap l) :
    ∃ D, ∀ d, D ≤ d → parse T d t = .throw "MapCssException" := by
  refine parse_error T h (by simp) (item_of_rule_error ?_)
  have e2 : lit ['{'] (k ++ '{' :: (l ++ '}' :: r)) = .ok () (l ++ '}' :: r) := lit_ok hk ['{'] _ (stays_solid (by decide) _)
  unfold rule many1
  rw [selectors_ok hs hk (c := '{') (by decide) (by decide) (by decide) rfl (by decide) (by decide), andThen_ok, e2, expect_ok, andThen_ok, declaration_end hl]
  rfl

/-- C60: a zoom without number is rejected. -/
theorem C60_rejected_zoom (T : Tools A L) (t : List Char) (es : List (Entry A L)) (g n k l r : List Char) (ns ws : List (List Char)) (c : Char)
    (h : Reads T t (g ++ (n ++ (ws.flatten ++ (k ++ '|' :: 'z' :: (l ++ c :: r))))) es) (hg : Gap g) (hn : ElementName n)
    (hns : List.Forall₂ PrintsNextName ns ws) (hk : Gap k) (hl : Gap l) (hc : Solid c) (h1 : c ≠ '-') (h2 : c ≠ '+') (hd : ∀ d < 10, c ≠ Char.ofNat (48 + d)) :
    ∃ D, ∀ d, D ≤ d → parse T d t = .throw "MapCssException" := by
  refine parse_error T h (by simp) (item_of_rule_error ?_)
  have e2 : lit ['|', 'z'] (k ++ '|' :: 'z' :: (l ++ c :: r)) = .ok () (l ++ c :: r) := lit_ok hk ['|', 'z'] _ (stays_solid (by decide) _)
  have e3 : zoom (k ++ '|' :: 'z' :: (l ++ c :: r)) = .error := by
    unfold zoom
    rw [e2, andThen_ok, int_fail hl hc h1 h2 (digit_none hd)]
    rfl
  have e4 : selector (g ++ (n ++ (ws.flatten ++ (k ++ '|' :: 'z' :: (l ++ c :: r))))) = .error := by
    unfold selector alternative elementSelector
    rw [names_ok hg hn hns hk (by decide) (by decide), andThen_ok, e3]
    rfl
  unfold rule
  rw [listOf_eq, e4]
  rfl

/-- C60 is violated: behind any entries, a text which begins with no keyword is accepted, and it is ignored with all rules which follow. -/
theorem C60_violated_trailing (T : Tools A L) (t : List Char) (es : List (Entry A L)) (g r : List Char) (c : Char) (h : Reads T t (g ++ c :: r) es) (hg : Gap g)
    (hc : Solid c) (hn : c ∉ ['n', 'w', 'a', 'r', 'c', 'e', '@']) : ∃ D, ∀ d, D ≤ d → ∃ s, parse T d t = .ok s ∧ IsSheet s es := by
  simp only [List.mem_cons, List.not_mem_nil, or_false, not_or] at hn
  obtain ⟨h1, h2, h3, h4, h5, h6, h7⟩ := hn
  refine parse_stop T h (item_fail hg (stays_solid hc r) ?_)
  intro k hk
  simp only [keywords, List.mem_cons, List.not_mem_nil, or_false] at hk
  rcases hk with rfl | rfl | rfl | rfl | rfl | rfl | rfl | rfl | rfl
  exacts [not_prefix_cons (Ne.symm h1) _ _, not_prefix_cons (Ne.symm h2) _ _, not_prefix_cons (Ne.symm h3) _ _, not_prefix_cons (Ne.symm h4) _ _,
    not_prefix_cons (Ne.symm h5) _ _, not_prefix_cons (Ne.symm h6) _ _, not_prefix_cons (Ne.symm h7) _ _, not_prefix_cons (Ne.symm h7) _ _,
    not_prefix_cons (Ne.symm h7) _ _]

/-- C60 is violated: a selector of elements without condition is accepted, and it is ignored with its declarations and everything which follows. -/
theorem C60_violated_condition (T : Tools A L) (t : List Char) (es : List (Entry A L)) (g n k r : List Char) (ns ws : List (List Char)) (z : Zoom) (zw : List Char)
    (h : Reads T t (g ++ (n ++ (ws.flatten ++ (zw ++ (k ++ '{' :: r))))) es) (hg : Gap g) (hn : ElementName n) (hns : List.Forall₂ PrintsNextName ns ws)
    (hz : PrintsZoom z zw) (hk : Gap k) : ∃ D, ∀ d, D ≤ d → ∃ s, parse T d t = .ok s ∧ IsSheet s es := by
  refine parse_stop T h ?_
  have e2 := zoom_ok hz (k ++ '{' :: r) ⟨k, '{', r, hk, by decide, by decide, by decide, rfl, rfl⟩
  obtain ⟨l, u, hl, rfl⟩ := zoom_head hz
  have e1 := names_ok hg hn hns hl (c := '|') (by decide) (by decide) (u ++ (k ++ '{' :: r))
  have a : elementSelector (g ++ (n ++ (ws.flatten ++ (l ++ '|' :: u ++ (k ++ '{' :: r))))) = .fail := by
    unfold elementSelector many1
    simp only [List.append_assoc, List.cons_append] at e1 e2 ⊢
    rw [e1, andThen_ok, e2, andThen_ok, condition_fail hk (by decide) (by decide)]
    rfl
  obtain ⟨c, n, rfl, hc, h1, h2, h3⟩ := name_head hn
  have b := canvasSelector_fail hg hc h1 (n ++ (ws.flatten ++ (l ++ '|' :: u ++ (k ++ '{' :: r))))
  have c' := anySelector_fail hg hc h2 (n ++ (ws.flatten ++ (l ++ '|' :: u ++ (k ++ '{' :: r))))
  have st := stays_solid hc (n ++ (ws.flatten ++ (l ++ '|' :: u ++ (k ++ '{' :: r))))
  have f1 := reference_fail hg st importText (not_prefix_cons (Ne.symm h3) _ _)
  have f2 := reference_fail hg st textureText (not_prefix_cons (Ne.symm h3) _ _)
  have f3 := reference_fail hg st lsystemText (not_prefix_cons (Ne.symm h3) _ _)
  have hsel : selector (g ++ (c :: n ++ (ws.flatten ++ (l ++ '|' :: u ++ (k ++ '{' :: r))))) = .fail := by
    unfold selector
    rw [alternative_right a]
    simp only [List.cons_append] at b c' ⊢
    rw [alternative_right b, c']
  have hrule : rule (g ++ (c :: n ++ (ws.flatten ++ (l ++ '|' :: u ++ (k ++ '{' :: r))))) = .fail := by
    unfold rule
    rw [listOf_eq, hsel]
    rfl
  unfold item
  rw [hrule]
  simp only [List.cons_append] at f1 f2 f3 ⊢
  rw [f1]
  simp only
  rw [f2]
  simp only
  rw [f3]
  rfl

/-- C60 is violated: a zoom above 255 is accepted and becomes another one. -/
theorem C60_violated_zoom (g h w : List Char) (n : Nat) (hg : Gap g) (hh : Gap h) (hw : Digits w n) (hn : n ≤ 2147483647) (c : Condition) (cw r : List Char)
    (hc : PrintsCondition c cw) : zoom (g ++ ['|', 'z'] ++ h ++ w ++ (cw ++ r)) = .ok ⟨UInt8.ofNat (n % 256), UInt8.ofNat (n % 256)⟩ (cw ++ r) := by
  rw [zoom_single hg hh hw hn _ (condition_afterZoom hc r), toByte_nat]

/-- C60 is violated: a space before the operation becomes part of the key, so that the condition never holds. -/
theorem C60_violated_space (key op value r : List Char) (hk : Word [']', '=', '!', '>', '<'] key) (ho : Operation op) (hv : Word [']', '=', '!', '>', '<'] value) :
    condition ('[' :: (key ++ ' ' :: (op ++ ' ' :: (value ++ ']' :: r)))) = .ok ⟨key ++ [' '], op, value⟩ r := by
  have hk' : Word [']', '=', '!', '>', '<'] (key ++ [' ']) := by
    obtain ⟨⟨c, t, rfl, hc⟩, hall⟩ := hk
    refine ⟨⟨c, t ++ [' '], rfl, hc⟩, ?_⟩
    intro x hx
    rcases List.mem_append.1 hx with hx | hx
    · exact hall x hx
    · simp only [List.mem_singleton] at hx
      subst hx
      decide
  have := condition_ok (.comparison [] [] [' '] (key ++ [' ']) op value .nil .nil hk' ho (.space _ _ (by simp [Space]) .nil) hv) r
  simpa using this

/-- C60 is violated: a file which imports itself is no error but an endless recursion. -/
theorem C60_violated_import (T : Tools A L) (f w r : List Char) (h : PrintsReference ['@', 'i', 'm', 'p', 'o', 'r', 't'] f w) (hf : T.file f = some (w ++ r)) (d : Nat) :
    parse T d (w ++ r) = .ub "stack overflow" := by
  unfold parse
  generalize (⟨[], [], []⟩ : Sheet A L) = s
  induction d generalizing s with
  | zero => rfl
  | succ d ih =>
    have hw := List.length_pos_of_ne_nil (reference_nonempty h)
    rw [parseInto]
    cases e : (w ++ r).length with
    | zero => simp at e; rw [e.1] at hw; simp at hw
    | succ n =>
      rw [sheetLoop, item_import h r]
      simp only [act, hf, Option.getD_some, ih, Outcome.bind]

namespace MapCssExample

/-- ` way|z1-16[a=b]` -/
def sel : List Char := [' ', 'w', 'a', 'y', '|', 'z', '1', '-', '1', '6', '[', 'a', '=', 'b', ']']

theorem one : Digits ['1'] 1 := ⟨[1], by simp, by simp, by decide, by decide⟩

theorem sixteen : Digits ['1', '6'] 16 := ⟨[1, 6], by simp, by simp, by decide, by decide⟩

theorem word (c : Char) (without : List Char) (h1 : Solid c) (h2 : c.toNat < 128) (h3 : c ∉ without) : Word without [c] :=
  ⟨⟨c, [], rfl, h1⟩, fun x hx => by
    rw [List.mem_singleton.1 hx]
    exact ⟨h2, h3⟩⟩

theorem zoom_prints : PrintsZoom ⟨1, 16⟩ ['|', 'z', '1', '-', '1', '6'] :=
  .range [] [] ['1'] 1 [] [] ['1', '6'] 16 .nil .nil one (by decide) .nil .nil sixteen (by decide)

theorem condition_prints : PrintsCondition ⟨['a'], ['='], ['b']⟩ ['[', 'a', '=', 'b', ']'] :=
  .comparison [] [] [] ['a'] ['='] ['b'] .nil .nil (word _ _ (by decide) (by decide) (by decide)) (by simp [Operation]) .nil
    (word _ _ (by decide) (by decide) (by decide))

theorem gap_space : Gap [' '] := .space _ _ (by simp [Space]) .nil

theorem sel_prints : PrintsSelectors [⟨[['w', 'a', 'y']], ⟨1, 16⟩, [⟨['a'], ['='], ['b']⟩]⟩] sel :=
  .mk _ _ [] [] (.elements [' '] ['w', 'a', 'y'] [] [] ⟨1, 16⟩ ['|', 'z', '1', '-', '1', '6'] ⟨['a'], ['='], ['b']⟩ ['[', 'a', '=', 'b', ']'] [] [] gap_space
    (by simp [ElementName]) .nil zoom_prints condition_prints .nil) .nil

/-- ` way|z1-16[a=b]{k:v;}` with a comment before the brace -/
def text : List Char := sel ++ ['/', '*', '*', '*', '/', '{', 'k', ':', ' ', 'v', ';', '}']

theorem comment_gap : Gap ['/', '*', '*', '*', '/'] :=
  .block ['*'] [] (by
    intro i hi
    have : i = 0 := by simpa using hi
    subst this
    decide) .nil

def expected : Rule := ⟨[⟨[['w', 'a', 'y']], ⟨1, 16⟩, [⟨['a'], ['='], ['b']⟩]⟩], [⟨['k'], ['v']⟩]⟩

theorem text_prints : PrintsRule expected text :=
  .mk _ sel ⟨['k'], ['v']⟩ ['k', ':', ' ', 'v', ';'] [] [] ['/', '*', '*', '*', '/'] [] sel_prints
    ⟨[], [' '], .nil, gap_space, word _ _ (by decide) (by decide) (by decide), word _ _ (by decide) (by decide) (by decide), rfl⟩ .nil comment_gap .nil

/-- `@import url("f");` -/
def importF : List Char := ['@', 'i', 'm', 'p', 'o', 'r', 't', ' ', 'u', 'r', 'l', '(', '"', 'f', '"', ')', ';']

theorem import_prints : PrintsReference ['@', 'i', 'm', 'p', 'o', 'r', 't'] ['f'] importF :=
  ⟨[], [], .nil, .nil, word _ _ (by decide) (by decide) (by decide), rfl⟩

/-- A file `f` with the rule. -/
def tools : Tools Unit Unit := ⟨fun f => if f = ['f'] then some text else none, fun _ => .ok (), fun _ => .ok ()⟩

/-- An import followed by a rule. -/
theorem doc_reads (u : List Char) : Reads tools (importF ++ (text ++ u)) u [.rule expected, .rule expected] := by
  refine .imported ['f'] importF text [] [.rule expected] _ u [.rule expected] import_prints rfl ?_ .nil (.rule _ _ _ _ _ text_prints (.done u))
  have := Reads.rule (T := tools) expected text [] [] [] text_prints (.done [])
  rwa [List.append_nil] at this

end MapCssExample

open MapCssExample

/-- A stylesheet which imports another one. -/
example : ∃ D, ∀ d, D ≤ d → ∃ s, parse tools d (importF ++ (text ++ [' '])) = .ok s ∧ s.rules = [expected, expected] := by
  obtain ⟨D, h⟩ := C60_parse_partial tools _ _ _ (doc_reads [' ']) gap_space
  refine ⟨D, fun d hd => ?_⟩
  obtain ⟨s, h1, h2, _⟩ := h d hd
  exact ⟨s, h1, h2⟩

/-- Selectors followed by a semicolon. -/
example : ∃ D, ∀ d, D ≤ d → parse tools d (importF ++ (text ++ (sel ++ ([] ++ ';' :: [])))) = .throw "MapCssException" :=
  C60_rejected_brace tools _ _ _ sel [] [] ';' (doc_reads _) sel_prints .nil (by decide) (by decide) (by decide)

/-- A rule without declarations. -/
example : ∃ D, ∀ d, D ≤ d → parse tools d (importF ++ (text ++ (sel ++ ([] ++ '{' :: ([' '] ++ '}' :: []))))) = .throw "MapCssException" :=
  C60_rejected_empty tools _ _ _ sel [] [' '] [] (doc_reads _) sel_prints .nil gap_space

/-- A zoom without number. -/
example : ∃ D, ∀ d, D ≤ d → parse tools d (importF ++ (text ++ ([] ++ (['w', 'a', 'y'] ++ (List.flatten [] ++ ([] ++ '|' :: 'z' :: ([] ++ '[' :: []))))))) =
    .throw "MapCssException" :=
  C60_rejected_zoom tools _ _ [] ['w', 'a', 'y'] [] [] [] [] [] '[' (doc_reads _) .nil (by simp [ElementName]) .nil .nil .nil (by decide) (by decide) (by decide) (by decide)

/-- A misspelled selector: the rule behind it is lost. -/
example : ∃ D, ∀ d, D ≤ d → ∃ s, parse tools d (importF ++ (text ++ ([' '] ++ 'W' :: 'a' :: 'y' :: text))) = .ok s ∧
    IsSheet s [.rule expected, .rule expected] :=
  C60_violated_trailing tools _ _ [' '] ('a' :: 'y' :: text) 'W' (doc_reads _) gap_space (by decide) (by decide)

/-- A selector without condition: the rule behind it is lost. -/
example : ∃ D, ∀ d, D ≤ d → ∃ s, parse tools d (importF ++ (text ++ ([] ++ (['w', 'a', 'y'] ++ (List.flatten [] ++ (['|', 'z', '1', '-', '1', '6'] ++
    ([] ++ '{' :: 'k' :: ':' :: 'v' :: ';' :: '}' :: text))))))) = .ok s ∧ IsSheet s [.rule expected, .rule expected] :=
  C60_violated_condition tools _ _ [] ['w', 'a', 'y'] [] _ [] [] _ _ (doc_reads _) .nil (by simp [ElementName]) .nil zoom_prints .nil

/-- C60 is violated: without the semicolon behind a declaration the following rules become part of its value, and the text is accepted. -/
theorem C60_violated_semicolon (T : Tools A L) (d : Nat) :
    (parse T (d + 1) (sel ++ ['{', 'k', ':', 'v', '}'] ++ text)).bind (fun s => .ok s.rules) =
      .ok [⟨expected.selectors, [⟨['k'], ['v', '}'] ++ sel ++ ['/', '*', '*', '*', '/', '{', 'k', ':', ' ', 'v']⟩]⟩] := by
  have hp : PrintsRule ⟨expected.selectors, [⟨['k'], ['v', '}'] ++ sel ++ ['/', '*', '*', '*', '/', '{', 'k', ':', ' ', 'v']⟩]⟩
      (sel ++ ['{', 'k', ':', 'v', '}'] ++ text) :=
    .mk _ sel ⟨['k'], ['v', '}'] ++ sel ++ ['/', '*', '*', '*', '/', '{', 'k', ':', ' ', 'v']⟩ (['k', ':', 'v', '}'] ++ text.dropLast) [] [] [] [] sel_prints
      ⟨[], [], .nil, .nil, word _ _ (by decide) (by decide) (by decide), ⟨⟨'v', _, rfl, by decide⟩, by decide⟩, rfl⟩ .nil .nil .nil
  have hi := item_rule hp []
  rw [List.append_nil] at hi
  have e : (sel ++ ['{', 'k', ':', 'v', '}'] ++ text).length = 45 + 1 + 1 := rfl
  rw [parse, parseInto, e, sheetLoop, hi]
  simp only [act, Outcome.bind, finish]
  rw [sheetLoop, item_end .nil]
  rfl

end Verif.Props
