import Verif.Props.TilesSpec
import Verif.Proof.Tiles

namespace Verif.Props
open Verif.TilesSpec

/-- C09: a tile file path determines the directory, the tile and the extension, so two different valid
tiles, two kinds of file of one tile, or two style directories of the mesh cache never share a file. -/
theorem C09_tile_path_injective (root root' ext ext' : List Char) (q q' : QuadKey)
    (hq : Valid q) (hq' : Valid q') (he : Extension ext) (he' : Extension ext')
    (h : tilePath root q ext = tilePath root' q' ext') : root = root' ∧ q = q' ∧ ext = ext' := by
  obtain ⟨⟨t, rfl⟩, hs⟩ := he
  obtain ⟨⟨t', rfl⟩, hs'⟩ := he'
  have noslash : ∀ (q : QuadKey) (e : List Char), '/' ∉ e → '/' ∉ quadKeyToString q ++ e := by
    intro q e he hc
    rcases List.mem_append.1 hc with hc | hc
    · have := quadCode_digit q _ _ hc; revert this; decide
    · exact he hc
  have nodot : ∀ q : QuadKey, '.' ∉ quadKeyToString q := by
    intro q hc
    have := quadCode_digit q _ _ hc; revert this; decide
  unfold tilePath at h
  replace h : (root ++ '/' :: (toString q.lod).toList) ++ '/' :: (quadKeyToString q ++ '.' :: t) =
      (root' ++ '/' :: (toString q'.lod).toList) ++ '/' :: (quadKeyToString q' ++ '.' :: t') := by
    simpa [List.append_assoc] using h
  obtain ⟨h1, h2⟩ := split_last_unique (noslash _ _ hs) (noslash _ _ hs') h
  obtain ⟨hroot, -⟩ := split_last_unique (lodString_no_slash _ hq.1) (lodString_no_slash _ hq'.1) h1
  obtain ⟨h3, h4⟩ := split_first_unique (nodot q) (nodot q') h2
  have hlen := congrArg List.length h3
  simp only [quadKeyToString, quadCode_length] at hlen
  have hlod : q.lod = q'.lod := by have := hq.1; have := hq'.1; omega
  unfold quadKeyToString at h3
  rw [← hlen] at h3
  have hb := quadCode_bits h3
  obtain ⟨_, hx1, hx2, hy1, hy2⟩ := hq
  obtain ⟨_, hx1', hx2', hy1', hy2'⟩ := hq'
  rw [← hlen] at hx2' hy2'
  refine ⟨hroot, ?_, by rw [h4]⟩
  cases q; cases q'
  simp only [QuadKey.mk.injEq]
  exact ⟨hlod, bitSet_inj hx1 hx2 hx1' hx2' (fun k hk => (hb k hk).1),
    bitSet_inj hy1 hy2 hy1' hy2' (fun k hk => (hb k hk).2)⟩

/-- Without validity two keys can share a file: index 5 on lod 2 is stored like index 1. -/
theorem C09_invalid_tiles_can_collide :
    tilePath [] ⟨2, 5, 0⟩ dataExt = tilePath [] ⟨2, 1, 0⟩ dataExt := by decide

example : Valid ⟨16, 35205, 21489⟩ ∧ Extension dataExt ∧ Extension indexExt ∧ Extension bitmapExt := by
  refine ⟨by unfold Valid; decide, ⟨⟨_, rfl⟩, by decide⟩, ⟨⟨_, rfl⟩, by decide⟩, ⟨⟨_, rfl⟩, by decide⟩⟩
example : tilePath "d".toList ⟨3, 5, 6⟩ dataExt = "d/3/321.dat".toList := by decide

/-- C10: the comparator is the lexicographic order on (lod, x, y) ... -/
theorem C10_comparator_is_lexicographic (l r : QuadKey) : QuadKey.lt l r = true ↔ Before l r := by
  unfold QuadKey.lt Before
  (repeat' split) <;> simp only [decide_eq_true_eq] <;> omega

/-- ... which is a strict total order: irreflexive, transitive, and two keys that are not ordered
either way (what `std::map` treats as the same key) are equal in every field and for `operator==`. -/
theorem C10_strict_total_order (a b c : QuadKey) :
    QuadKey.lt a a = false ∧
    (QuadKey.lt a b = true → QuadKey.lt b c = true → QuadKey.lt a c = true) ∧
    ((QuadKey.lt a b = false ∧ QuadKey.lt b a = false) ↔ a = b) ∧
    (QuadKey.eq a b = true ↔ a = b) := by
  have key : ∀ x y : QuadKey, QuadKey.lt x y = false ↔ ¬ Before x y := by
    intro x y
    rw [← C10_comparator_is_lexicographic]; simp
  refine ⟨?_, ?_, ?_, ?_⟩
  · rw [key]; unfold Before; omega
  · simp only [C10_comparator_is_lexicographic]; unfold Before; omega
  · rw [key, key]
    cases a; cases b
    simp only [QuadKey.mk.injEq, Before]
    omega
  · cases a; cases b
    simp only [QuadKey.eq, QuadKey.mk.injEq, Bool.and_eq_true, decide_eq_true_eq, and_assoc]

example : QuadKey.lt ⟨1, 1, 1⟩ ⟨2, 0, 0⟩ = true ∧ QuadKey.lt ⟨2, 0, 3⟩ ⟨2, 1, 0⟩ = true := by decide

/-- C11: a range exists exactly when both ends are in `[1, 19]`, everything else is `domain_error`. -/
theorem C11_lod_range (s e : Int) :
    (1 ≤ s ∧ s ≤ 19 ∧ 1 ≤ e ∧ e ≤ 19 → LodRange.make s e = .ok ⟨s, e⟩) ∧
    (¬ (1 ≤ s ∧ s ≤ 19 ∧ 1 ≤ e ∧ e ≤ 19) → LodRange.make s e = .throw "domain_error") := by
  unfold LodRange.make minLod maxLod
  constructor
  · intro h; rw [if_neg (by omega)]
  · intro h; rw [if_pos (by omega)]

/-- The default range cannot be constructed. -/
theorem C11_default_throws : LodRange.default = .throw "domain_error" := by decide

/-- Iterating a range visits exactly the lods between its ends, in increasing order, each once (none
when the range is reversed). -/
theorem C11_lods (r : LodRange) :
    (∀ lod : Int, lod ∈ r.lods ↔ r.start ≤ lod ∧ lod ≤ r.stop) ∧ r.lods.Pairwise (· < ·) :=
  ⟨mem_intRange _ _, sorted_intRange _ _⟩

example : (LodRange.mk 14 16).lods = [14, 15, 16] ∧ (LodRange.mk 5 4).lods = [] := by decide

end Verif.Props
