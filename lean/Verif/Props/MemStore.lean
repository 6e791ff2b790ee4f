import Verif.Proof.MemStore
import Verif.Proof.Words

/-! # C15: the in-memory store is a multimap by tile; C18: text search -/
namespace Verif.Props
open Verif.Props.StoreSpec
open Verif.MemStore (Store Op Out step run init)
open Verif.BitmapIndex (Strings Terms parseTerms elementTokens)

namespace StoreSpec
variable {E : Type}

/-- The events of a call. -/
def record (h : List (Event E)) : Op E → List (Event E)
  | .save q e => .saved q e :: h
  | .erase q => .erased q :: h
  | .tile .. | .text .. | .hasData _ => h

/-- The history made by a sequence of calls. -/
def history (ops : List (Op E)) : List (Event E) := ops.foldl record []

/-- The answer of a call after a history. Text search is the subject of C18. -/
def Answer (h : List (Event E)) : Op E → Out E → Prop
  | .save _ _, o => o = .done
  | .erase _, o => o = .done
  | .tile q none, o => o = .elements (holds q h)
  | .tile q (some n), o => o = .elements ((holds q h).take n)
  | .hasData q, o => ∃ b, o = .flag b ∧ (b = true ↔ ∃ e, e ∈ holds q h)
  | .text .., _ => True

/-- All answers of a run. -/
def Agrees : List (Event E) → List (Op E) → List (Out E) → Prop
  | _, [], [] => True
  | h, op :: ops, o :: os => Answer h op o ∧ Agrees (record h op) ops os
  | _, _, _ => False

end StoreSpec

variable {E : Type}

theorem step_inv {tokens : E → List UInt32} {s : Store E} {h : List (Event E)} (hi : MemStore.Inv tokens s h) (op : Op E) :
    MemStore.Inv tokens (step tokens s op).1 (record h op) ∧ Answer h op (step tokens s op).2 := by
  cases op with
  | save q e =>
    obtain ⟨s', e1, e2⟩ := hi.save q e
    simp only [step, e1, record, Answer, and_true]
    exact e2
  | erase q => exact ⟨hi.erase q, rfl⟩
  | tile q c =>
    refine ⟨hi, ?_⟩
    have := hi.searchTile q c
    cases c with
    | none => simp only [step, this]; rfl
    | some n => simp only [step, this]; rfl
  | hasData q =>
    refine ⟨hi, _, rfl, ?_⟩
    rw [hi.hasData]
    simp only [decide_eq_true_eq]
    exact ⟨fun h => List.exists_mem_of_ne_nil _ h, fun ⟨e, he⟩ h => by rw [h] at he; cases he⟩
  | text t hit qs =>
    refine ⟨?_, trivial⟩
    simp only [step, record]
    split <;> exact hi

theorem run_inv {tokens : E → List UInt32} (ops : List (Op E)) : ∀ {s : Store E} {h : List (Event E)},
    MemStore.Inv tokens s h → MemStore.Inv tokens (run tokens s ops).1 (ops.foldl record h) ∧
      Agrees h ops (run tokens s ops).2 := by
  induction ops with
  | nil => intro s h hi; exact ⟨hi, trivial⟩
  | cons op ops ih =>
    intro s h hi
    obtain ⟨h1, h2⟩ := step_inv hi op
    exact ⟨(ih h1).1, h2, (ih h1).2⟩

/-- C15. In every history of saves, searches and erasures each tile search yields exactly the elements saved to this tile
since it was last erased, oldest first, each once (a cancelled one a prefix of them); `hasData` tells whether there are
any; no save or erase fails. -/
theorem C15_in_memory_store (tokens : E → List UInt32) (ops : List (Op E)) : Agrees [] ops (run tokens init ops).2 :=
  (run_inv ops (MemStore.Inv.init tokens)).2

/-- A history with two tiles, an erasure and a cancelled search. -/
example : holds ⟨1, 0, 0⟩ (history [.save ⟨1, 0, 0⟩ 1, .save ⟨1, 0, 1⟩ 2, .save ⟨1, 0, 0⟩ 3, .tile ⟨1, 0, 0⟩ (some 1),
    .erase ⟨1, 0, 1⟩, .save ⟨1, 0, 1⟩ 4]) = [1, 3] := by decide
example : holds ⟨1, 0, 1⟩ (history [.save ⟨1, 0, 0⟩ 1, .save ⟨1, 0, 1⟩ 2, .save ⟨1, 0, 0⟩ 3, .tile ⟨1, 0, 0⟩ (some 1),
    .erase ⟨1, 0, 1⟩, .save ⟨1, 0, 1⟩ 4]) = [4] := by decide

/-! ## Text search -/

variable {C : Type}

/-- The ids of the words of a query and of the elements of a tile are different. (C02: the string table gives every string its
own id.) -/
def Distinct (st : Strings) (q : TextQuery) (els : List (Element C)) : Prop :=
  ∀ w w', (IsWord q.not w ∨ IsWord q.and w ∨ IsWord q.or w) → (∃ e ∈ els, HasWord st.str e w') → st.id w = st.id w' → w = w'

theorem token_iff {st : Strings} {q : TextQuery} {els : List (Element C)} (hd : Distinct st q els) {e : Element C} (he : e ∈ els)
    {w : Bytes} (hw : IsWord q.not w ∨ IsWord q.and w ∨ IsWord q.or w) :
    st.id w ∈ elementTokens st e ↔ HasWord st.str e w := by
  rw [BitmapIndex.mem_elementTokens]
  constructor
  · rintro ⟨w', h1, h2⟩; rw [hd w w' hw ⟨e, he, h1⟩ h2.symm]; exact h1
  · intro h; exact ⟨w, h, rfl⟩

theorem selects_iff {st : Strings} {q : TextQuery} {els : List (Element C)} (hd : Distinct st q els)
    (h1 : ∃ w, IsWord q.or w ∨ IsWord q.and w)
    (h2 : (∃ w, IsWord q.and w) → (∃ w, IsWord q.or w) → ∃ w, IsWord q.or w ∧ ∃ e ∈ els, HasWord st.str e w)
    {e : Element C} (he : e ∈ els) :
    BitmapIndex.Selects (elementTokens st) els (parseTerms st q.not q.and q.or) e ↔ q.Matches st.str e := by
  have ho : (∃ t ∈ BitmapIndex.tokenize st q.or, t ∈ elementTokens st e) ↔ ∃ w, IsWord q.or w ∧ HasWord st.str e w := by
    constructor
    · rintro ⟨t, ht, hte⟩
      obtain ⟨w, hw, rfl⟩ := (BitmapIndex.mem_tokenize st q.or t).1 ht
      exact ⟨w, hw, (token_iff hd he (.inr (.inr hw))).1 hte⟩
    · rintro ⟨w, hw, hwe⟩
      exact ⟨st.id w, (BitmapIndex.mem_tokenize st q.or _).2 ⟨w, hw, rfl⟩, (token_iff hd he (.inr (.inr hw))).2 hwe⟩
  have ha : (∀ t ∈ BitmapIndex.tokenize st q.and, t ∈ elementTokens st e) ↔ ∀ w, IsWord q.and w → HasWord st.str e w := by
    constructor
    · intro h w hw
      exact (token_iff hd he (.inr (.inl hw))).1 (h _ ((BitmapIndex.mem_tokenize st q.and _).2 ⟨w, hw, rfl⟩))
    · intro h t ht
      obtain ⟨w, hw, rfl⟩ := (BitmapIndex.mem_tokenize st q.and t).1 ht
      exact (token_iff hd he (.inr (.inl hw))).2 (h w hw)
  have hn : (∀ t ∈ BitmapIndex.tokenize st q.not, t ∉ elementTokens st e) ↔ ∀ w, IsWord q.not w → ¬ HasWord st.str e w := by
    constructor
    · intro h w hw hwe
      exact h _ ((BitmapIndex.mem_tokenize st q.not _).2 ⟨w, hw, rfl⟩) ((token_iff hd he (.inl hw)).2 hwe)
    · intro h t ht hte
      obtain ⟨w, hw, rfl⟩ := (BitmapIndex.mem_tokenize st q.not t).1 ht
      exact h w hw ((token_iff hd he (.inl hw)).1 hte)
  have hnil : BitmapIndex.tokenize st q.and = [] ↔ ¬ ∃ w, IsWord q.and w := by
    rw [List.eq_nil_iff_forall_not_mem]
    constructor
    · rintro h ⟨w, hw⟩; exact h _ ((BitmapIndex.mem_tokenize st q.and _).2 ⟨w, hw, rfl⟩)
    · intro h t ht
      obtain ⟨w, hw, -⟩ := (BitmapIndex.mem_tokenize st q.and t).1 ht
      exact h ⟨w, hw⟩
  unfold BitmapIndex.Selects TextQuery.Matches parseTerms
  simp only [ho, ha, hn, hnil]
  apply and_congr_left'
  by_cases hor : ∃ w, IsWord q.or w
  · have hc : (¬ ∃ w, IsWord q.and w) ∨ ∃ t ∈ BitmapIndex.tokenize st q.or, ∃ x ∈ els, t ∈ elementTokens st x := by
      by_cases hand : ∃ w, IsWord q.and w
      · obtain ⟨w, hw, x, hx, hxw⟩ := h2 hand hor
        exact .inr ⟨st.id w, (BitmapIndex.mem_tokenize st q.or _).2 ⟨w, hw, rfl⟩, x, hx, (token_iff hd hx (.inr (.inr hw))).2 hxw⟩
      · exact .inl hand
    rw [if_pos (hc.imp_left hnil.2)]
    exact ⟨fun h _ => h, fun h => h hor⟩
  · have hand : ∃ w, IsWord q.and w := by
      obtain ⟨w, hw | hw⟩ := h1
      · exact absurd ⟨w, hw⟩ hor
      · exact ⟨w, hw⟩
    have hc : ¬ ((¬ ∃ w, IsWord q.and w) ∨ ∃ t ∈ BitmapIndex.tokenize st q.or, ∃ x ∈ els, t ∈ elementTokens st x) := by
      rintro (h | ⟨t, ht, -⟩)
      · exact h hand
      · obtain ⟨w, hw, -⟩ := (BitmapIndex.mem_tokenize st q.or t).1 ht
        exact hor ⟨w, hw⟩
    rw [if_neg (fun h => hc (h.imp_left hnil.1))]
    exact ⟨fun _ h => absurd h hor, fun _ => trivial⟩

open Classical in
/-- C18, partial. After every history, a text query over any tiles returns, tile by tile in storage order, exactly the held
elements matching the query (and passing the box filter `hit`), each once. Required: the query has an or-word or an and-word;
if it has both, some or-word occurs in each non-empty tile searched; with not-words no tile holds more than 1048544 elements. Without
these the claim is false, see the theorems below and `C59_violated_xor`. -/
theorem C18_text_search_partial (st : Strings) (ops : List (Op (Element C))) (q : TextQuery) (hit : Element C → Bool)
    (tiles : List QuadKey)
    (hd : ∀ t ∈ tiles, Distinct st q (holds t (history ops)))
    (h1 : ∃ w, IsWord q.or w ∨ IsWord q.and w)
    (h2 : ∀ t ∈ tiles, holds t (history ops) ≠ [] → (∃ w, IsWord q.and w) → (∃ w, IsWord q.or w) →
      ∃ w, IsWord q.or w ∧ ∃ e ∈ holds t (history ops), HasWord st.str e w)
    (h3 : ∀ t ∈ tiles, (∃ w, IsWord q.not w) → (holds t (history ops)).length ≤ 1048544) :
    (step (elementTokens st) (run (elementTokens st) init ops).1 (.text (parseTerms st q.not q.and q.or) hit tiles)).2 =
      .elements (tiles.flatMap fun t => (holds t (history ops)).filter fun e => decide (q.Matches st.str e) && hit e) := by
  have hi := (run_inv ops (MemStore.Inv.init (elementTokens (C := C) st))).1
  have := hi.searchText (parseTerms st q.not q.and q.or) hit (fun _ e => q.Matches st.str e) tiles ?_ ?_
  · simp only [step, this]; rfl
  · intro t ht
    by_cases hn : ∃ w, IsWord q.not w
    · right
      have := h3 t ht hn
      simp only [Ewah.maxLit]
      exact this
    · left
      show BitmapIndex.tokenize st q.not = []
      rw [List.eq_nil_iff_forall_not_mem]
      intro x hx
      obtain ⟨w, hw, -⟩ := (BitmapIndex.mem_tokenize st q.not x).1 hx
      exact hn ⟨w, hw⟩
  · intro t ht e he
    exact selects_iff (hd t ht) h1 (h2 t ht (List.ne_nil_of_mem he)) he

/-- No text search fails, in tiles of up to 1048544 elements, whatever the query. -/
theorem C18_never_fails (tokens : E → List UInt32) (ops : List (Op E)) (terms : Terms) (hit : E → Bool) (tiles : List QuadKey)
    (h3 : ∀ t ∈ tiles, (holds t (history ops)).length ≤ 1048544) :
    ∃ l, (step tokens (run tokens init ops).1 (.text terms hit tiles)).2 = .elements l := by
  classical
  have hi := (run_inv ops (MemStore.Inv.init tokens)).1
  have := hi.searchText terms hit (fun t e => BitmapIndex.Selects tokens (holds t (history ops)) terms e) tiles
    (fun t ht => .inr (by simp only [Ewah.maxLit]; exact h3 t ht)) (fun _ _ _ _ => Iff.rfl)
  exact ⟨_, by simp only [step, this]; rfl⟩

/-- Single letter words: the string of id `n` is the character `n`. -/
def letters : Strings := ⟨fun i => [i.toUInt8], fun w => match w with | [c] => c.toUInt32 | _ => 0⟩

/-- A node with one tag `k=v`. -/
def tagged (k v : UInt32) : Element Nat := .node 1 [⟨k, v⟩] 0

theorem isWord_iff (s w : Bytes) : IsWord s w ↔ w ∈ BitmapIndex.splitTokens [] s := by
  rw [BitmapIndex.mem_splitTokens s [] (by simp) w]; simp

instance (s w : Bytes) : Decidable (IsWord s w) := decidable_of_iff _ (isWord_iff s w).symm
instance (str : UInt32 → Bytes) (e : Element Nat) (w : Bytes) : Decidable (HasWord str e w) :=
  inferInstanceAs (Decidable (∃ t ∈ e.tags, _))

/-- C18 is violated: when and-words and or-words are given and no or-word occurs in the tile, the or-words are ignored.
Here `a=b` is returned for and-word `a`, or-word `z`. -/
theorem C18_violated_unmatched_or :
    let q : TextQuery := ⟨[], [97], [122]⟩
    (step (elementTokens letters) (run (elementTokens letters) init [.save ⟨1, 0, 0⟩ (tagged 97 98)]).1
      (.text (parseTerms letters q.not q.and q.or) (fun _ => true) [⟨1, 0, 0⟩])).2 = .elements [tagged 97 98] ∧
    ¬ q.Matches letters.str (tagged 97 98) := by
  refine ⟨?_, ?_⟩
  · with_unfolding_all rfl
  · rintro ⟨h, -, -⟩
    obtain ⟨w, h1, h2⟩ := h ⟨[122], by decide⟩
    rw [isWord_iff] at h1
    have : w = [122] := by
      have e : BitmapIndex.splitTokens [] [122] = [[122]] := by decide
      rw [e] at h1; simpa using h1
    subst this
    revert h2
    decide

/-- C18 is violated: a query of not-words only returns nothing, although `a=b` has no word `z`. -/
theorem C18_violated_only_not :
    let q : TextQuery := ⟨[122], [], []⟩
    (step (elementTokens letters) (run (elementTokens letters) init [.save ⟨1, 0, 0⟩ (tagged 97 98)]).1
      (.text (parseTerms letters q.not q.and q.or) (fun _ => true) [⟨1, 0, 0⟩])).2 = .elements [] ∧
    q.Matches letters.str (tagged 97 98) := by
  refine ⟨by with_unfolding_all rfl, ?_, ?_, ?_⟩
  · rintro ⟨w, hw⟩; rw [isWord_iff] at hw; simp [BitmapIndex.splitTokens] at hw
  · intro w hw; rw [isWord_iff] at hw; simp [BitmapIndex.splitTokens] at hw
  · intro w hw
    rw [isWord_iff] at hw
    have e : BitmapIndex.splitTokens [] [122] = [[122]] := by decide
    rw [e] at hw
    simp only [List.mem_singleton] at hw
    subst hw
    decide

/-- The hypotheses of `C18_text_search_partial` are met: words `a`, `b`, `c` in one tile, or-word `b`, and-word `a`, not-word `c`. -/
example : let q : TextQuery := ⟨[99], [97], [98]⟩
    let ops : List (Op (Element Nat)) := [.save ⟨1, 0, 0⟩ (tagged 97 98), .save ⟨1, 0, 0⟩ (tagged 97 99)]
    (∃ w, IsWord q.or w ∨ IsWord q.and w) ∧ (∃ w, IsWord q.or w ∧ ∃ e ∈ holds ⟨1, 0, 0⟩ (history ops), HasWord letters.str e w) ∧
    (step (elementTokens letters) (run (elementTokens letters) init ops).1
      (.text (parseTerms letters q.not q.and q.or) (fun _ => true) [⟨1, 0, 0⟩])).2 = .elements [tagged 97 98] :=
  ⟨⟨[98], .inl (by decide)⟩, ⟨[98], by decide, tagged 97 98, by decide, by decide⟩, by with_unfolding_all rfl⟩

example : Distinct letters ⟨[99], [97], [98]⟩ [tagged 97 98, tagged 97 99] := by
  have e1 : ∀ c, c = 97 ∨ c = 98 ∨ c = 99 → BitmapIndex.splitTokens [] [c] = [[c]] := by
    rintro c (rfl | rfl | rfl) <;> decide
  have hs : ∀ w, (∃ e ∈ [tagged 97 98, tagged 97 99], HasWord letters.str e w) → w = [97] ∨ w = [98] ∨ w = [99] := by
    rintro w ⟨e, he, t, ht, h⟩
    simp only [isWord_iff] at h
    simp only [List.mem_cons, List.not_mem_nil, or_false] at he
    rcases he with rfl | rfl <;>
    · simp only [tagged, Element.tags, List.mem_singleton] at ht
      subst ht
      rcases h with h | h <;>
      · have h := h
        revert h
        with_unfolding_all simp [letters, BitmapIndex.splitTokens, BitmapIndex.separators]
        intro h; subst h; decide
  intro w w' h h' e
  have hw : w = [97] ∨ w = [98] ∨ w = [99] := by
    simp only [isWord_iff, e1 97 (by simp), e1 98 (by simp), e1 99 (by simp), List.mem_singleton] at h
    tauto
  rcases hw with rfl | rfl | rfl <;> rcases hs w' h' with rfl | rfl | rfl <;> first | rfl | (revert e; decide)

end Verif.Props
