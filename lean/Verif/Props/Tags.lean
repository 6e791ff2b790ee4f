import Verif.Model.Building

/-! # C77: tags are found -/
namespace Verif.Props
open Verif.Building

namespace TagsProof

/-- The keys are in order. -/
def Sorted (tags : List Tag) : Prop := (tags.map Tag.key).Pairwise (· ≤ ·)

theorem search (key : UInt32) (fuel : Nat) (tags : List Tag) (hs : Sorted tags) (hf : tags.length ≤ fuel) :
    (∀ v, searchTag key fuel tags = some v → ⟨key, v⟩ ∈ tags) ∧ (searchTag key fuel tags = none → ∀ t ∈ tags, t.key ≠ key) := by
  induction fuel generalizing tags with
  | zero =>
    obtain rfl : tags = [] := List.length_eq_zero_iff.1 (by omega)
    simp [searchTag]
  | succ fuel ih =>
    unfold searchTag
    cases hm : tags[tags.length / 2]? with
    | none =>
      rw [List.getElem?_eq_none_iff] at hm
      obtain rfl : tags = [] := List.length_eq_zero_iff.1 (by omega)
      simp
    | some middle =>
      obtain ⟨hlt, hmid⟩ := List.getElem?_eq_some_iff.1 hm
      have hsplit : tags = tags.take (tags.length / 2) ++ middle :: tags.drop (tags.length / 2 + 1) := by
        rw [← hmid, List.getElem_cons_drop hlt, List.take_append_drop]
      have hs' := hs
      rw [Sorted, hsplit, List.map_append, List.map_cons, List.pairwise_append, List.pairwise_cons] at hs'
      obtain ⟨hl, ⟨hmr, hr⟩, hlm⟩ := hs'
      have memS : ∀ t, t ∈ tags ↔ t ∈ tags.take (tags.length / 2) ∨ t = middle ∨ t ∈ tags.drop (tags.length / 2 + 1) := by
        intro t
        conv => lhs; rw [hsplit]
        simp
      simp only
      split
      · rename_i heq
        refine ⟨?_, by simp⟩
        intro v hv
        simp only [Option.some.injEq] at hv
        rw [memS]
        right; left
        obtain ⟨mk, mv⟩ := middle
        simp only at heq hv
        rw [heq, hv]
      · rename_i hne
        split
        · rename_i hgt
          obtain ⟨i1, i2⟩ := ih (tags.take (tags.length / 2)) hl (by rw [List.length_take]; omega)
          refine ⟨fun v hv => (memS _).2 (.inl (i1 v hv)), ?_⟩
          intro hn t ht
          rcases (memS t).1 ht with h | rfl | h
          · exact i2 hn t h
          · exact hne
          · have := hmr t.key (List.mem_map_of_mem h)
            intro hk
            rw [hk] at this
            exact absurd hgt (by rw [gt_iff_lt, UInt32.not_lt]; exact this)
        · rename_i hle
          obtain ⟨i1, i2⟩ := ih (tags.drop (tags.length / 2 + 1)) hr (by rw [List.length_drop]; omega)
          refine ⟨fun v hv => (memS _).2 (.inr (.inr (i1 v hv))), ?_⟩
          intro hn t ht
          rcases (memS t).1 ht with h | rfl | h
          · have := hlm t.key (List.mem_map_of_mem h) middle.key (List.mem_cons_self ..)
            intro hk
            rw [hk] at this
            have h3 : middle.key ≤ key := by rw [gt_iff_lt, UInt32.not_lt] at hle; exact hle
            exact hne (UInt32.le_antisymm h3 this)
          · exact hne
          · exact i2 hn t h

end TagsProof
open TagsProof

/-- C77: among tags in the order of their keys, a lookup returns the value of a tag with this key, and the default value only if there is none. -/
theorem C77_value (key default : UInt32) (tags : List Tag) (hs : (tags.map Tag.key).Pairwise (· ≤ ·)) :
    ⟨key, getTagValue key tags default⟩ ∈ tags ∨ (getTagValue key tags default = default ∧ ∀ t ∈ tags, t.key ≠ key) := by
  obtain ⟨h1, h2⟩ := search key tags.length tags hs (Nat.le_refl _)
  unfold getTagValue
  cases hv : searchTag key tags.length tags with
  | some v => exact .inl (h1 v hv)
  | none => exact .inr ⟨rfl, h2 hv⟩

/-- C77: with one tag for each key, an element has the tag exactly if it is there. Partial: the value is not the default value of the lookup. -/
theorem C77_has_partial (key value : UInt32) (tags : List Tag) (hs : (tags.map Tag.key).Pairwise (· < ·)) (hv : value ≠ 0xFFFFFFFF) :
    hasTag key value tags = true ↔ ⟨key, value⟩ ∈ tags := by
  have hle : (tags.map Tag.key).Pairwise (· ≤ ·) := hs.imp fun h => UInt32.le_of_lt h
  unfold hasTag
  rw [beq_iff_eq]
  rcases C77_value key 0xFFFFFFFF tags hle with h | ⟨h, hn⟩
  · constructor
    · intro he; rw [he]; exact h
    · intro hm
      have uniq : ∀ (l : List Tag) (k a b : UInt32), (l.map Tag.key).Pairwise (· < ·) → (⟨k, a⟩ : Tag) ∈ l → (⟨k, b⟩ : Tag) ∈ l → a = b := by
        intro l k a b
        induction l with
        | nil => intro _ h; cases h
        | cons t l ih =>
          intro hp ha hb
          rw [List.map_cons, List.pairwise_cons] at hp
          rcases List.mem_cons.1 ha with rfl | ha2
          · rcases List.mem_cons.1 hb with hb | hb
            · injection hb with _ h; exact h.symm
            · exact absurd (hp.1 k (List.mem_map.2 ⟨⟨k, b⟩, hb, rfl⟩)) (UInt32.lt_irrefl _)
          · rcases List.mem_cons.1 hb with rfl | hb
            · exact absurd (hp.1 k (List.mem_map.2 ⟨⟨k, a⟩, ha2, rfl⟩)) (UInt32.lt_irrefl _)
            · exact ih hp.2 ha2 hb
      exact uniq tags key _ _ hs hm h
  · rw [h]
    exact ⟨fun he => absurd he hv, fun hm => absurd rfl (hn _ hm)⟩

/-- C77: the mark for parts of a building (formats/osm/BuildingProcessor.hpp:55 appends it to the tags, perhaps several times) is found, and nothing else is taken
for it. The ids of strings are smaller than its key. -/
theorem C77_ignore (tags : List Tag) (hs : (tags.map Tag.key).Pairwise (· ≤ ·)) (hk : ∀ t ∈ tags, t.key < 0xFFFFFFFF) (times : Nat) :
    hasIgnore (tags ++ List.replicate times (⟨0xFFFFFFFF, 0⟩ : Tag)) = true ↔ 0 < times := by
  have hsorted : ((tags ++ List.replicate times (⟨0xFFFFFFFF, 0⟩ : Tag)).map Tag.key).Pairwise (· ≤ ·) := by
    rw [List.map_append, List.map_replicate, List.pairwise_append]
    refine ⟨hs, ?_, ?_⟩
    · rw [List.pairwise_replicate]; exact .inr (UInt32.le_refl _)
    · intro a ha b hb
      obtain ⟨t, ht, rfl⟩ := List.mem_map.1 ha
      rw [List.eq_of_mem_replicate hb]
      exact UInt32.le_of_lt (hk t ht)
  unfold hasIgnore hasTag
  rw [beq_iff_eq]
  rcases C77_value 0xFFFFFFFF 0xFFFFFFFF _ hsorted with h | ⟨h, hn⟩
  · rcases List.mem_append.1 h with h | h
    · exact absurd (hk _ h) (UInt32.lt_irrefl _)
    · have he := List.eq_of_mem_replicate h
      injection he with _ he
      rw [he]
      simp only [true_iff]
      rcases Nat.eq_zero_or_pos times with rfl | hp
      · simp at h
      · exact hp
  · rw [h]
    constructor
    · intro hc; exact absurd hc (by decide)
    · intro hp
      exact absurd rfl (hn ⟨0xFFFFFFFF, 0⟩ (List.mem_append_right _ (List.mem_replicate.2 ⟨by omega, rfl⟩)))

/-- Five tags, one of them is asked for. -/
example : hasTag 7 30 [⟨1, 10⟩, ⟨3, 20⟩, ⟨7, 30⟩, ⟨8, 40⟩, ⟨12, 50⟩] = true ∧ hasTag 7 31 [⟨1, 10⟩, ⟨3, 20⟩, ⟨7, 30⟩, ⟨8, 40⟩, ⟨12, 50⟩] = false ∧
    hasIgnore [⟨1, 10⟩, ⟨3, 20⟩, ⟨0xFFFFFFFF, 0⟩] = true := by decide +kernel

/-- C77: a tag which is there is not found if the tags are not in order. Relations which are written by hand to the store have such tags. -/
theorem C77_violated_order : ∃ (tags : List Tag) (t : Tag), t ∈ tags ∧ hasTag t.key t.value tags = false ∧ (tags.map Tag.key).Nodup :=
  ⟨[⟨7, 30⟩, ⟨1, 10⟩, ⟨3, 20⟩], ⟨7, 30⟩, by decide +kernel⟩

/-- C77: any element has a tag whose value is the largest number, if it has no tag with this key. -/
theorem C77_violated_default (key : UInt32) (tags : List Tag) (hs : (tags.map Tag.key).Pairwise (· ≤ ·)) (hn : ∀ t ∈ tags, t.key ≠ key) :
    hasTag key 0xFFFFFFFF tags = true ∧ ⟨key, 0xFFFFFFFF⟩ ∉ tags := by
  refine ⟨?_, fun h => hn _ h rfl⟩
  unfold hasTag
  rw [beq_iff_eq]
  rcases C77_value key 0xFFFFFFFF tags hs with h | ⟨h, -⟩
  · exact absurd rfl (hn _ h)
  · exact h.symm

end Verif.Props
