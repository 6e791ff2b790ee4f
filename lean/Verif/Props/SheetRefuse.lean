import Verif.Props.StyleRefuse
import Verif.Props.MapCssMissing
import Verif.Props.Session

/-! # Which texts of stylesheets are accepted, and calls which name another one (C28, C107) -/
namespace Verif.Props
open Verif.MapCssSpec Verif.LoadTileSpec Verif.SessionSpec Verif.StyleTagSpec Verif.StyleRefuseSpec
open Verif.Session (World State)

variable {A L D : Type}

namespace SheetRefuseProof
open SessionProof

/-- The selectors which can be written. -/
def Form (s : MapCss.Selector) : Prop :=
  ((∀ n ∈ s.names, n ∈ StyleRefuseSpec.names) ∧ ∀ c ∈ s.conditions, c.operation ∈ operations) ∨ ∃ c, s.names = ["element".toList] ∧ s.conditions = [c]

theorem name_known {n : List Char} (h : ElementName n) : n ∈ StyleRefuseSpec.names := by
  unfold ElementName at h
  simp only [List.mem_cons, List.not_mem_nil, or_false] at h
  rcases h with rfl | rfl | rfl | rfl <;> decide

theorem condition_known {c : MapCss.Condition} {w : List Char} (h : PrintsCondition c w) : c.operation ∈ operations := by
  cases h with
  | existence => simp [operations]
  | comparison g h k key op value hg hh hk ho =>
    unfold Operation at ho
    simp only [List.mem_cons, List.not_mem_nil, or_false] at ho
    rcases ho with rfl | rfl | rfl | rfl <;> simp [operations]

theorem all_of {α β : Type} {R : α → β → Prop} {P : α → Prop} (h : ∀ a b, R a b → P a) {l : List α} {l' : List β} (hl : List.Forall₂ R l l') : ∀ a ∈ l, P a := by
  induction hl with
  | nil => simp
  | cons h1 _ ih =>
    intro a ha
    rcases List.mem_cons.1 ha with rfl | ha
    · exact h _ _ h1
    · exact ih a ha

theorem selector_form {s : MapCss.Selector} {w : List Char} (h : PrintsSelector s w) : Form s := by
  cases h with
  | elements g n ns ws z zw c cw cs cws hg hn hns hz hc hcs =>
    refine .inl ⟨?_, ?_⟩
    · intro m hm
      rcases List.mem_cons.1 hm with rfl | hm
      · exact name_known hn
      · exact all_of (P := fun n => n ∈ StyleRefuseSpec.names) (fun _ _ h => by obtain ⟨_, _, _, _, h, _⟩ := h; exact name_known h) hns m hm
    · intro m hm
      rcases List.mem_cons.1 hm with rfl | hm
      · exact condition_known hc
      · exact all_of (P := fun c : MapCss.Condition => c.operation ∈ operations) (fun _ _ h => condition_known h) hcs m hm
  | canvas => exact .inl ⟨by simp [StyleRefuseSpec.names], by simp⟩
  | element g z zw c cw => exact .inr ⟨c, rfl, rfl⟩

theorem rule_form {r : MapCss.Rule} {w : List Char} (h : PrintsRule r w) : r.declarations ≠ [] ∧ ∀ s ∈ r.selectors, Form s := by
  cases h with
  | mk ss sw d dw ds dws g h hs =>
    refine ⟨by simp, fun s hm => ?_⟩
    cases hs with
    | mk s0 w ss ws h0 hss =>
      rcases List.mem_cons.1 hm with rfl | hm
      · exact selector_form h0
      · exact all_of (P := Form) (fun _ _ h => by obtain ⟨_, _, _, h, _⟩ := h; exact selector_form h) hss s hm

theorem entry_form {T : MapCss.Tools A L} {t u : List Char} {es : List (Entry A L)} (h : Reads T t u es) :
    ∀ r, Entry.rule r ∈ es → r.declarations ≠ [] ∧ ∀ s ∈ r.selectors, Form s := by
  induction h with
  | done => simp
  | rule r w t u es hr _ ih =>
    intro r' h
    rcases List.mem_cons.1 h with h | h
    · cases h; exact rule_form hr
    · exact ih r' h
  | imported f w c g fs t u es _ _ _ _ _ ih1 ih2 =>
    intro r' h
    rcases List.mem_append.1 h with h | h
    · exact ih1 r' h
    · exact ih2 r' h
  | texture f w c a t u es _ _ _ _ ih =>
    intro r' h
    rcases List.mem_cons.1 h with h | h
    · cases h
    · exact ih r' h
  | lsystem f w c l t u es _ _ _ _ ih =>
    intro r' h
    rcases List.mem_cons.1 h with h | h
    · cases h
    · exact ih r' h

theorem mem_rulesOf {es : List (Entry A L)} {r : Style.Rule} (h : r ∈ rulesOf es) : ∃ r', Entry.rule r' ∈ es ∧ r = LoadTile.toRule r' := by
  unfold rulesOf at h
  obtain ⟨r', h1, rfl⟩ := List.mem_map.1 h
  obtain ⟨e, h2, h3⟩ := List.mem_filterMap.1 h1
  cases e with
  | rule r0 => cases h3; exact ⟨_, h2, rfl⟩
  | texture a => cases h3
  | lsystem n l => cases h3

/-- What the selectors of the stylesheet look like. -/
theorem rules_form {T : MapCss.Tools A L} {t u : List Char} {es : List (Entry A L)} (h : Reads T t u es) : ∀ r ∈ rulesOf es, r.declarations ≠ [] ∧ ∀ s ∈ r.selectors,
    ((∀ n ∈ s.names, n ∈ StyleRefuseSpec.names) ∧ ∀ c ∈ s.conditions, c.operation ∈ operations) ∨ ∃ c, s.names = ["element".toList] ∧ s.conditions = [c] := by
  intro r hr
  obtain ⟨r', h1, rfl⟩ := mem_rulesOf hr
  obtain ⟨h2, h3⟩ := entry_form h r' h1
  refine ⟨by simpa [LoadTile.toRule] using h2, fun s hs => ?_⟩
  obtain ⟨s', h4, rfl⟩ := List.mem_map.1 hs
  rcases h3 s' h4 with ⟨h5, h6⟩ | ⟨c, h5, h6⟩
  · refine .inl ⟨h5, fun c hc => ?_⟩
    obtain ⟨c', h7, rfl⟩ := List.mem_map.1 hc
    exact h6 c' h7
  · exact .inr ⟨⟨c.key, c.operation, c.value⟩, h5, by simp [h6]⟩

theorem no_element {l : List Style.Str} (h : ∀ n ∈ l, n ∈ StyleRefuseSpec.names) : "element".toList ∉ l := fun hm => by
  have := h _ hm
  revert this
  decide

theorem parsed {T : MapCss.Tools A L} {t u : List Char} {es : List (Entry A L)} (h : Reads T t u es) : Parsed (rulesOf es) := by
  intro r hr
  obtain ⟨h1, h2⟩ := rules_form h r hr
  refine ⟨h1, fun s hs he => ?_⟩
  rcases h2 s hs with ⟨h3, -⟩ | ⟨c, -, h3⟩
  · exact absurd he (no_element h3)
  · rw [h3]; simp

theorem understood_iff {T : MapCss.Tools A L} {t u : List Char} {es : List (Entry A L)} (h : Reads T t u es) (env : Style.Env D) :
    AllUnderstood env (rulesOf es) ↔ Numbered env (rulesOf es) := by
  constructor
  · intro hu r hr s hs he c hc
    rcases (rules_form h r hr).2 s hs with ⟨h3, -⟩ | ⟨c', -, h3⟩
    · exact absurd he (no_element h3)
    · rw [h3, List.mem_singleton] at hc
      subst hc
      rcases hu r hr s hs _ he with ⟨h4, -⟩ | ⟨-, c', cs, id, h4, h5⟩
      · exact absurd h4 (by decide)
      · rw [h3] at h4; cases h4; exact ⟨id, h5⟩
  · intro hn r hr s hs n hm
    rcases (rules_form h r hr).2 s hs with ⟨h3, h4⟩ | ⟨c, h3, h4⟩
    · exact .inl ⟨h3 n hm, h4⟩
    · rw [h3, List.mem_singleton] at hm
      subst hm
      obtain ⟨id, hid⟩ := hn r hr s hs (by rw [h3]; simp) c (by rw [h4]; simp)
      exact .inr ⟨rfl, c, [], id, h4, hid⟩

end SheetRefuseProof
open SheetRefuseProof SessionProof

/-- C28: the text of a stylesheet is accepted exactly if all ids which it names are numbers. Otherwise it is refused with an exception. -/
theorem C28_text (T : MapCss.Tools A L) (env : Style.Env D) {t g : List Char} {entries : List (Entry A L)} (h : Reads T t g entries) (hg : Gap g) :
    (Numbered env (rulesOf entries) → ∃ N, ∀ n, N ≤ n → ∃ fc, LoadTile.openSheet T env n t = .ok fc) ∧
    (¬ Numbered env (rulesOf entries) → ∃ N e, ∀ n, N ≤ n → LoadTile.openSheet T env n t = .throw e) := by
  obtain ⟨N, hN⟩ := C60_parse_partial T t g entries h hg
  have ho : ∀ n, N ≤ n → LoadTile.openSheet T env n t = Style.build env (rulesOf entries) := by
    intro n hn
    obtain ⟨sheet, a1, a2⟩ := hN n hn
    rw [LoadTile.openSheet, a1]
    simp only [Outcome.bind]
    rw [a2.1, LoadTileProof.toRule_rulesOf]
  constructor
  · intro hu
    obtain ⟨fc, hf⟩ := C28_accepted env (parsed h) ((understood_iff h env).2 hu)
    exact ⟨N, fun n hn => ⟨fc, by rw [ho n hn, hf]⟩⟩
  · intro hu
    rcases C28_refused env (parsed h) (fun hc => hu ((understood_iff h env).1 hc)) with hf | hf
    · exact ⟨N, _, fun n hn => by rw [ho n hn, hf]⟩
    · exact ⟨N, _, fun n hn => by rw [ho n hn, hf]⟩

/-- C107: a call which names a stylesheet with an id which is not a number fails and changes nothing. -/
theorem C107_no_number {K S Q : Type} [LinearOrder K] (w : World A L D S Q) {st : State K S} {path dir text g : List Char} {entries : List (Entry A L)} (hn : st.sheets.find path = none)
    (hd : InDirectory path dir) (hf : w.files path = some text) (hr : Reads (w.tools dir) text g entries) (hg : Gap g) (hu : ¬ Numbered w.strings (rulesOf entries))
    {c : Session.Call K} (hc : Names path c) (ho : Orderly c) : ∃ N e, ∀ n ≥ N, Session.step { w with depth := n } st c = (st, [], failed e c) := by
  have h : ∃ e, Style.build w.strings (rulesOf entries) = .throw e := by
    rcases C28_refused w.strings (parsed hr) (fun hc => hu ((understood_iff hr w.strings).1 hc)) with hf | hf <;> exact ⟨_, hf⟩
  obtain ⟨e, he⟩ := h
  obtain ⟨N, hN⟩ := (C107_failed w hn hc ho).2 e ⟨dir, text, g, entries, hd, hf, hr, hg, he⟩
  exact ⟨N, e, hN⟩

/-- C107: a call which names a stylesheet which refers to a texture or an L-system whose file is missing fails and changes nothing. -/
theorem C107_missing {K S Q : Type} [LinearOrder K] (w : World A L D S Q) {st : State K S} {path dir text v r f : List Char} {entries : List (Entry A L)}
    (hn : st.sheets.find path = none) (hd : InDirectory path dir) (hf : w.files path = some text) (hr : Reads (w.tools dir) text (v ++ r) entries)
    (hv : PrintsReference ['@', 't', 'e', 'x', 't', 'u', 'r', 'e'] f v ∨ PrintsReference ['@', 'l', 's', 'y', 's', 't', 'e', 'm'] f v) (hm : (w.tools dir).file f = none)
    {c : Session.Call K} (hc : Names path c) (ho : Orderly c) : ∃ N, ∀ n ≥ N, Session.step { w with depth := n } st c = (st, [], failed "MapCssException" c) := by
  obtain ⟨N, hN⟩ := C60_rejected_missing (w.tools dir) hr hv hm
  refine ⟨N, fun n hn' => step_fails _ ?_ hc ho⟩
  unfold Session.getStyleProvider
  simp only [hn, hf, directory_eq hd, LoadTile.openSheet, hN n hn', Outcome.bind]

/-- A stylesheet which refers to a missing texture behind a rule is registered. -/
example {K S Q : Type} [LinearOrder K] (w : World Unit Unit D S Q) (st : State K S) (hs : st.sheets = []) (rest : List Char)
    (hf : w.files ['d', '/', 's'] = some (MapCssExample.importF ++ (MapCssExample.text ++ (['@', 't', 'e', 'x', 't', 'u', 'r', 'e', ' ', 'u', 'r', 'l', '(', '"', 'x', '"', ')', ';'] ++ rest))))
    (ht : w.tools ['d', '/'] = MapCssExample.tools) :
    ∃ N, ∀ n ≥ N, Session.step { w with depth := n } st (.registerStylesheet ['d', '/', 's'] : Session.Call K) =
      (st, [], failed "MapCssException" (.registerStylesheet ['d', '/', 's'] : Session.Call K)) :=
  C107_missing w (dir := ['d', '/']) (by rw [hs]; rfl) ⟨['s'], rfl, by decide, by decide, by decide⟩ hf (by rw [ht]; exact MapCssExample.doc_reads _)
    (.inl MapCssMissingProof.texture_prints) (by rw [ht]; rfl) rfl trivial

namespace SheetRefuseProof

/-- `element|z1-16[a=b]{k:v;}` -/
def ofId : MapCss.Rule := ⟨[⟨[['e', 'l', 'e', 'm', 'e', 'n', 't']], ⟨1, 16⟩, [⟨['a'], ['='], ['b']⟩]⟩], [⟨['k'], ['v']⟩]⟩

def ofIdText : List Char := ['e', 'l', 'e', 'm', 'e', 'n', 't', '|', 'z', '1', '-', '1', '6', '[', 'a', '=', 'b', ']', '{', 'k', ':', 'v', ';', '}']

theorem ofId_prints : PrintsRule ofId ofIdText :=
  .mk _ ['e', 'l', 'e', 'm', 'e', 'n', 't', '|', 'z', '1', '-', '1', '6', '[', 'a', '=', 'b', ']'] ⟨['k'], ['v']⟩ ['k', ':', 'v', ';'] [] [] [] []
    (.mk _ _ [] [] (.element [] ⟨1, 16⟩ ['|', 'z', '1', '-', '1', '6'] ⟨['a'], ['='], ['b']⟩ ['[', 'a', '=', 'b', ']'] .nil MapCssExample.zoom_prints MapCssExample.condition_prints) .nil)
    ⟨[], [], .nil, .nil, MapCssExample.word _ _ (by decide) (by decide) (by decide), MapCssExample.word _ _ (by decide) (by decide) (by decide), rfl⟩ .nil .nil .nil

end SheetRefuseProof

/-- Whether the id `b` is a number decides about the stylesheet. -/
example (env : Style.Env D) : (∀ id, env.castId ['b'] = some id → ∃ N, ∀ n, N ≤ n → ∃ fc, LoadTile.openSheet MapCssExample.tools env n (MapCssExample.text ++ (ofIdText ++ [])) = .ok fc) ∧
    (env.castId ['b'] = none → ∃ N e, ∀ n, N ≤ n → LoadTile.openSheet MapCssExample.tools env n (MapCssExample.text ++ (ofIdText ++ [])) = .throw e) := by
  have hr : Reads MapCssExample.tools (MapCssExample.text ++ (ofIdText ++ [])) [] [.rule MapCssExample.expected, .rule ofId] :=
    .rule _ _ _ _ _ MapCssExample.text_prints (.rule _ _ _ _ _ ofId_prints (.done []))
  have h := C28_text MapCssExample.tools env hr .nil
  refine ⟨fun id hid => h.1 ?_, fun hn => h.2 fun hc => ?_⟩
  · intro r hm s hs he c hc
    simp only [rulesOf, Entry.rule?, List.filterMap_cons, List.filterMap_nil, List.map_cons, List.map_nil, MapCssExample.expected, ofId, List.mem_cons, List.not_mem_nil, or_false] at hm
    rcases hm with rfl | rfl
    · simp only [List.mem_singleton] at hs
      subst hs
      exact absurd he (by simp)
    · simp only [List.mem_singleton] at hs
      subst hs
      simp only [List.mem_singleton] at hc
      subst hc
      exact ⟨id, hid⟩
  · obtain ⟨id, h⟩ := hc (LoadTile.toRule ofId) (by simp [rulesOf, Entry.rule?, LoadTile.toRule]) _ (by simp only [LoadTile.toRule, ofId, List.map_cons, List.map_nil]; exact List.mem_singleton.2 rfl)
      (by simp) ⟨['a'], ['='], ['b']⟩ (by simp)
    rw [hn] at h
    cases h

end Verif.Props
