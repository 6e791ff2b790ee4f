import Verif.Model.MemStore
import Verif.Proof.BitmapIndex
import Verif.Props.StoreSpec
import Mathlib.Data.List.Sort

/-! Lemmas about the in-memory store. -/
namespace Verif.MemStore
open Verif.BitmapIndex (Bitmap Terms Indexed)
open Verif.Props.StoreSpec (Event holds)
open Verif.Ewah (maxLit)

variable {E : Type}

theorem fetch_append (els : List E) (a b : List Nat) :
    fetch els (a ++ b) = (fetch els a).bind fun x => (fetch els b).bind fun y => .ok (x ++ y) := by
  induction a with
  | nil => simp [fetch, Outcome.bind]; cases fetch els b <;> rfl
  | cons o os ih =>
    simp only [List.cons_append, fetch]
    cases els[o]? with
    | none => rfl
    | some e =>
      simp only [ih]
      cases fetch els os <;> simp [Outcome.bind]
      cases fetch els b <;> rfl

theorem fetch_range (els : List E) (p : E → Bool) (n : Nat) (hn : n ≤ els.length) :
    fetch els ((List.range n).filter fun k => els[k]?.any p) = .ok ((els.take n).filter p) := by
  induction n with
  | zero => rfl
  | succ n ih =>
    rw [List.range_succ, List.filter_append, fetch_append, ih (by omega)]
    have hg : els[n]? = some els[n] := List.getElem?_eq_getElem (by omega)
    rw [List.take_succ, hg]
    simp only [Outcome.bind, Option.toList, List.filter_append]
    by_cases hp : p els[n]
    · simp [hg, hp, fetch, Outcome.bind]
    · simp [hg, hp, fetch]

/-- The positions of the matching elements fetch the matching elements. -/
theorem fetch_filter (els : List E) (os : List Nat) (P : E → Prop) [DecidablePred P] (h1 : os.Pairwise (· < ·))
    (h2 : ∀ k, k ∈ os ↔ ∃ e, els[k]? = some e ∧ P e) : fetch els os = .ok (els.filter fun e => decide (P e)) := by
  have : os = (List.range els.length).filter fun k => els[k]?.any fun e => decide (P e) := by
    apply List.Pairwise.eq_of_mem_iff h1 (List.Pairwise.filter _ List.pairwise_lt_range)
    intro k
    rw [h2, List.mem_filter, List.mem_range]
    constructor
    · rintro ⟨e, he, hp⟩
      exact ⟨(List.getElem?_eq_some_iff.1 he).1, by simp [he, hp]⟩
    · rintro ⟨hk, hp⟩
      refine ⟨els[k], List.getElem?_eq_getElem hk, ?_⟩
      rw [List.getElem?_eq_getElem hk] at hp
      simpa using hp
  rw [this, fetch_range _ _ _ (Nat.le_refl _), List.take_length]

/-- The store agrees with its history. -/
def Inv (tokens : E → List UInt32) (s : Store E) (h : List (Event E)) : Prop :=
  ∀ q, s.tile q = holds q h ∧ (s.elements.find q = none ↔ holds q h = []) ∧
    Indexed (fun _ => False) tokens (s.tile q) ((s.bitmaps.find q).getD [])

theorem Inv.init (tokens : E → List UInt32) : Inv tokens (init : Store E) [] := by
  intro q
  exact ⟨rfl, by simp [MemStore.init, Assoc.find, holds], Indexed.nil _ _⟩

theorem Inv.save {tokens : E → List UInt32} {s : Store E} {h : List (Event E)} (hi : Inv tokens s h)
    (q : QuadKey) (e : E) : ∃ s', save tokens s q e = .ok s' ∧ Inv tokens s' (.saved q e :: h) := by
  obtain ⟨bm, b1, b2⟩ := BitmapIndex.add_indexed (hi q).2.2 e (by simp)
  refine ⟨_, by simp only [MemStore.save, b1]; rfl, ?_⟩
  intro q'
  by_cases hq : q' = q
  · subst hq
    simp only [Store.tile, Assoc.find_set, if_true, Option.getD_some, holds] at *
    rw [← (hi q').1]
    exact ⟨rfl, by simp, b2⟩
  · have hq' : q ≠ q' := fun h => hq h.symm
    simp only [Store.tile, Assoc.find_set, if_neg hq, holds, if_neg hq']
    exact hi q'

theorem Inv.erase {tokens : E → List UInt32} {s : Store E} {h : List (Event E)} (hi : Inv tokens s h)
    (q : QuadKey) : Inv tokens (erase s q) (.erased q :: h) := by
  intro q'
  by_cases hq : q' = q
  · subst hq
    simp only [Store.tile, MemStore.erase, Assoc.find_erase, if_true, holds]
    exact ⟨rfl, by simp, Indexed.nil _ _⟩
  · have hq' : q ≠ q' := fun h => hq h.symm
    simp only [Store.tile, MemStore.erase, Assoc.find_erase, if_neg hq, holds, if_neg hq']
    exact hi q'

theorem Inv.hasData {tokens : E → List UInt32} {s : Store E} {h : List (Event E)} (hi : Inv tokens s h)
    (q : QuadKey) : hasData s q = decide (holds q h ≠ []) := by
  unfold MemStore.hasData
  have := (hi q).2.1
  cases hf : s.elements.find q with
  | none => simp [this.1 hf]
  | some x => have : holds q h ≠ [] := fun hc => by rw [this.2 hc] at hf; cases hf
              simp [this]

theorem Inv.searchTile {tokens : E → List UInt32} {s : Store E} {h : List (Event E)} (hi : Inv tokens s h)
    (q : QuadKey) (c : Option Nat) :
    searchTile s q c = match c with | none => holds q h | some n => (holds q h).take n := by
  unfold MemStore.searchTile
  have h1 := (hi q).1
  unfold Store.tile at h1
  cases hf : s.elements.find q with
  | none => rw [(hi q).2.1.1 hf]; cases c <;> simp
  | some x =>
    rw [hf] at h1
    simp only [Option.getD_some] at h1
    subst h1; rfl

theorem Inv.searchText {tokens : E → List UInt32} {s : Store E} {h : List (Event E)} (hi : Inv tokens s h)
    (t : Terms) (hit : E → Bool) (P : QuadKey → E → Prop) [∀ q, DecidablePred (P q)] (qs : List QuadKey)
    (hl : ∀ q ∈ qs, t.not = [] ∨ (holds q h).length ≤ 32 * maxLit)
    (hP : ∀ q ∈ qs, ∀ e ∈ holds q h, BitmapIndex.Selects tokens (holds q h) t e ↔ P q e) :
    searchText s t hit qs = .ok (qs.flatMap fun q => (holds q h).filter fun e => decide (P q e) && hit e) := by
  induction qs with
  | nil => rfl
  | cons q qs ih =>
    rw [MemStore.searchText, ih (fun q' hq' => hl q' (by simp [hq'])) (fun q' hq' => hP q' (by simp [hq']))]
    have here : searchTextTile s t q = .ok ((holds q h).filter fun e => decide (P q e)) := by
      unfold searchTextTile
      rw [hi.hasData]
      by_cases hne : holds q h = []
      · simp [hne]
      · rw [if_pos (by simpa using hne)]
        have hix := (hi q).2.2
        rw [(hi q).1] at hix
        obtain ⟨os, o1, o2, o3⟩ := BitmapIndex.search_spec hix t (by simp) (by simp) (by simp) (hl q (by simp))
        rw [o1]
        simp only
        rw [(hi q).1]
        apply fetch_filter _ _ _ o2
        intro k
        rw [o3]
        constructor
        · rintro ⟨e, he, hp⟩; exact ⟨e, he, (hP q (by simp) e (List.mem_of_getElem? he)).1 hp⟩
        · rintro ⟨e, he, hp⟩; exact ⟨e, he, (hP q (by simp) e (List.mem_of_getElem? he)).2 hp⟩
    simp only [here, Outcome.bind, List.flatMap_cons, List.filter_filter, Bool.and_comm]

end Verif.MemStore
