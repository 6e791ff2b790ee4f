import Verif.Proof.Atlas

/-! # C92: texture atlases -/
namespace Verif.Props
open Verif.Atlas Verif.AtlasSpec Verif.AtlasProof
open Verif.MapCss (isSpace)
open Verif.MapCssSpec (Digits)
open Verif.LsysTextSpec (PrintsInt)

namespace AtlasProof

/-- The texture which is found is the one which is asked for. -/
theorem chosen (x : Text) (index : Nat) (outside : Nat × Nat × Nat × Nat) (groups : Assoc (List Char) Group) (h : Holds x x.regions groups) (key : List Char)
    (seed : Nat) : ∃ t, random ((create outside index groups).get key) seed = .ok t ∧ Chosen x key seed t := by
  unfold TextureAtlas.get create
  simp only
  rcases h key with ⟨h1, h2⟩ | ⟨g, h1, h2, h3⟩
  · rw [h2]
    exact ⟨⟨0, 0, outside.1, outside.2.1, outside.2.2.1, outside.2.2.2⟩, by simp [random, Nat.mod_one], .inl ⟨h1, rfl, rfl⟩⟩
  · rw [h2]
    simp only
    have hl := h3.length_eq
    have hp := List.length_pos_of_ne_nil h1
    have hlt : seed % g.length < g.length := Nat.mod_lt _ (by omega)
    refine ⟨g[seed % g.length], by simp [random, hlt], .inr ⟨(named key x.regions)[seed % g.length]'(by omega), ?_, ?_⟩⟩
    · simp only [hl]
      exact List.getElem?_eq_getElem _
    · exact List.Forall₂.get h3 (by omega) hlt

end AtlasProof

open AtlasProof

/-- C92: a text of an atlas whose regions fit into 16 bits is read, and with each name and seed the region is found which is in the text. -/
theorem C92_read (outside : Nat × Nat × Nat × Nat) (x : Text) (w u : List Char) (hw : PrintsAtlas x w) (hu : Stops u) (hf : ∀ r ∈ x.regions, Fits r) :
    ∃ a, parse outside (w ++ u) = .ok a ∧ (a.index : Int) = x.id % 2 ^ 16 ∧ ∀ key seed, ∃ t, random (a.get key) seed = .ok t ∧ Chosen x key seed t := by
  obtain ⟨groups, h1, h2⟩ := addRegions_ok x x.regions [] [] (fun key => .inl ⟨rfl, rfl⟩) hf
  refine ⟨_, ?_, ?_, fun key seed => chosen x (wrap x.id) outside groups h2 key seed⟩
  · unfold parse
    rw [(atlas_iff _ x u).2 ⟨⟨w, hw, rfl⟩, hu⟩]
    simp only [h1, Outcome.bind]
  · simp only [create, wrap]
    omega

/-- C92: all other texts are refused, by an exception. -/
theorem C92_refused (outside : Nat × Nat × Nat × Nat) (t : List Char) :
    parse outside t = .throw "MapCssException" ↔ ∀ x w u, t = w ++ u → PrintsAtlas x w → ¬ Stops u := by
  constructor
  · intro h x w u ht hw hu
    unfold parse at h
    rw [(atlas_iff t x u).2 ⟨⟨w, hw, ht⟩, hu⟩] at h
    simp only at h
    by_cases hf : ∀ r ∈ x.regions, Fits r
    · obtain ⟨groups, h1, -⟩ := addRegions_ok x x.regions [] [] (fun key => .inl ⟨rfl, rfl⟩) hf
      rw [h1] at h
      cases h
    · push Not at hf
      obtain ⟨e, he⟩ := addRegions_ub x x.regions [] hf
      rw [he] at h
      cases h
  · intro h
    unfold parse
    cases e : atlas t with
    | ok x u =>
      obtain ⟨⟨w, hw, ht⟩, hu⟩ := (atlas_iff t x u).1 e
      exact absurd hu (h x w u ht hw)
    | fail => rfl
    | error => rfl

/-- C92: a text is the text of at most one atlas, if nothing follows. -/
theorem C92_unique (w : List Char) (x x' : Text) (h : PrintsAtlas x w) (h' : PrintsAtlas x' w) : x = x' := by
  have hs : Stops [] := by
    refine ⟨by simp [Apart], ?_⟩
    rintro ⟨r, w, v, hw, -, e⟩
    have := printsRegion_length hw
    simp only [List.nil_eq, List.append_eq_nil_iff] at e
    rw [e.1] at this
    simp at this
  have e1 := (atlas_iff w x []).2 ⟨⟨w, h, by simp⟩, hs⟩
  have e2 := (atlas_iff w x' []).2 ⟨⟨w, h', by simp⟩, hs⟩
  rw [e1] at e2
  simpa using e2

/-- C92: each region of the text is found with some seed. -/
theorem C92_all (x : Text) (r : Region) (hr : r ∈ x.regions) :
    ∃ seed, ∀ t, Chosen x r.groupName seed t → Shows x r t := by
  have hm : r ∈ named r.groupName x.regions := by simp [named, hr]
  obtain ⟨i, hi, e⟩ := List.getElem_of_mem hm
  refine ⟨i, ?_⟩
  rintro t (⟨h, -⟩ | ⟨r', h1, h2⟩)
  · rw [h] at hm
    simp at hm
  · rw [Nat.mod_eq_of_lt hi, List.getElem?_eq_getElem hi, e] at h1
    simp only [Option.some.injEq] at h1
    subst h1
    exact h2

/-- C92 is violated: a region outside of 16 bits, such as one with a negative coordinate, is not refused: its conversion is undefined. -/
theorem C92_violated_range (outside : Nat × Nat × Nat × Nat) (x : Text) (w u : List Char) (hw : PrintsAtlas x w) (hu : Stops u) (hf : ∃ r ∈ x.regions, ¬ Fits r) :
    ∃ e, parse outside (w ++ u) = .ub e := by
  obtain ⟨e, he⟩ := addRegions_ub x x.regions [] hf
  refine ⟨e, ?_⟩
  unfold parse
  rw [(atlas_iff _ x u).2 ⟨⟨w, hw, rfl⟩, hu⟩]
  simp only [he, Outcome.bind]

/-- C92 is violated: behind a region which is written in a wrong way nothing is read, and nothing is refused. Here the name of the region has a character
outside of ASCII, such as an umlaut. -/
theorem C92_violated_rest (outside : Nat × Nat × Nat × Nat) (x : Text) (w n v : List Char) (hw : PrintsAtlas x w) (hn' : ∀ c ∈ n, c.toNat < 128 ∧ c ≠ ',') (c : Char)
    (hc : 128 ≤ c.toNat) : parse outside (w ++ '\n' :: (n ++ c :: v)) = parse outside w := by
  have hn : ∀ c ∈ n, isName c = true := fun c h => (isName_iff c).2 (hn' c h)
  have hb : isSpace c = false := by
    unfold isSpace
    simp only [decide_eq_false_iff_not, not_or, not_and, not_le]
    refine ⟨?_, by omega⟩
    rintro rfl
    revert hc
    decide
  have hc' : isName c = false := by simp [isName]; omega
  have h1 : Stops ('\n' :: (n ++ c :: v)) := by
    refine ⟨by simp [Apart], (region_fail_iff _).1 ?_⟩
    obtain ⟨m, hm, e⟩ : ∃ m, (∀ d ∈ m, isName d = true) ∧ skip ('\n' :: (n ++ c :: v)) = m ++ c :: v := by
      refine ⟨n.dropWhile isSpace, fun d hd => hn d ((List.dropWhile_sublist isSpace).subset hd), ?_⟩
      have : skip ('\n' :: (n ++ c :: v)) = skip (n ++ c :: v) := by simp [skip, List.dropWhile, show isSpace '\n' = true by decide]
      rw [this]
      unfold skip
      clear hn hn' this
      induction n with
      | nil => simp [List.dropWhile, hb]
      | cons d n ih =>
        simp only [List.cons_append, List.dropWhile]
        cases hd : isSpace d
        · simp
        · simpa using ih
    have hcm : comma (c :: v) = .fail := by
      have : skip (c :: v) = c :: v := by simp [skip, List.dropWhile, hb]
      unfold comma
      rw [this]
      have : c ≠ ',' := by
        rintro rfl
        revert hc
        decide
      simp [this]
    unfold region name
    rw [e, List.takeWhile_append_of_pos hm, List.dropWhile_append_of_pos hm]
    simp only [List.takeWhile, List.dropWhile, hc', List.append_nil]
    cases m with
    | nil => simp [MapCss.Res.andThen]
    | cons d m => simp [MapCss.Res.andThen, hcm]
  have h2 : Stops [] := ⟨by simp [Apart], (region_fail_iff _).1 region_nil⟩
  unfold parse
  rw [(atlas_iff _ x _).2 ⟨⟨w, hw, rfl⟩, h1⟩, (atlas_iff w x []).2 ⟨⟨w, hw, by simp⟩, h2⟩]

namespace AtlasProof

theorem provide_find (outside : Nat × Nat × Nat × Nat) (atlases : List TextureAtlas) (index : Nat) :
    (provide outside atlases).find index = if index = 65535 then some (create outside 0 []) else atlases.find? fun a => a.index = index := by
  have key : ∀ (m : Assoc Nat TextureAtlas), (atlases.foldl (fun m a => m.emplace a.index a) m).find index =
      (m.find index).or (atlases.find? fun a => a.index = index) := by
    induction atlases with
    | nil => intro m; simp
    | cons a as ih =>
      intro m
      rw [List.foldl_cons, ih, Assoc.find_emplace]
      by_cases h : index = a.index
      · subst h
        cases e : m.find a.index <;> simp
      · have h' : ¬ a.index = index := fun h' => h h'.symm
        rw [if_neg h]
        simp [h']
  unfold provide
  rw [key, Assoc.find_emplace]
  by_cases h : index = 65535
  · simp [h, defaultTextureIndex, Assoc.find]
  · simp [h, defaultTextureIndex, Assoc.find]

end AtlasProof

/-- C92: the textures of an index come from the first atlas with this index; without such an atlas there is nothing. -/
theorem C92_provider (outside : Nat × Nat × Nat × Nat) (atlases : List TextureAtlas) (index : Nat) (hi : index ≠ 65535) (key : List Char) :
    (∀ before a after, atlases = before ++ a :: after → a.index = index → (∀ b ∈ before, b.index ≠ index) →
        getTexture (provide outside atlases) index key = .ok (a.get key)) ∧
    ((∀ a ∈ atlases, a.index ≠ index) → ∃ g, getTexture (provide outside atlases) index key = .ok g ∧ ∀ seed, ∃ t, random g seed = .ok t ∧ Nothing t) := by
  constructor
  · rintro before a after rfl ha hb
    unfold getTexture
    rw [provide_find, if_neg hi, List.find?_append, List.find?_eq_none.2 (by simpa using hb)]
    simp [ha]
  · intro h
    unfold getTexture
    rw [provide_find, if_neg hi, List.find?_eq_none.2 (by simpa using h), provide_find, if_pos (by rfl)]
    exact ⟨_, rfl, fun seed => ⟨_, by simp [random, TextureAtlas.get, create, Assoc.find, Nat.mod_one]; rfl, rfl, rfl⟩⟩

/-- C92 is violated: an atlas with the index 65535 (or -1) is never used. -/
theorem C92_violated_last (outside : Nat × Nat × Nat × Nat) (atlases : List TextureAtlas) (key : List Char) (seed : Nat) :
    ∃ g t, getTexture (provide outside atlases) 65535 key = .ok g ∧ random g seed = .ok t ∧ Nothing t := by
  unfold getTexture
  rw [provide_find, if_pos rfl]
  exact ⟨_, _, rfl, by simp [random, TextureAtlas.get, create, Assoc.find, Nat.mod_one]; rfl, rfl, rfl⟩

/-- C92 is violated: a second atlas with the same index is never used, whatever its groups are. -/
theorem C92_violated_second (outside : Nat × Nat × Nat × Nat) (before between after : List TextureAtlas) (a b : TextureAtlas) (h : a.index = b.index) (index : Nat)
    (key : List Char) : getTexture (provide outside (before ++ a :: (between ++ b :: after))) index key =
      getTexture (provide outside (before ++ a :: (between ++ after))) index key := by
  have e : ∀ i, (provide outside (before ++ a :: (between ++ b :: after))).find i = (provide outside (before ++ a :: (between ++ after))).find i := by
    intro i
    rw [provide_find, provide_find]
    by_cases hi : i = 65535
    · simp [hi]
    · rw [if_neg hi, if_neg hi, List.find?_append, List.find?_append]
      congr 1
      by_cases ha : a.index = i
      · simp [ha]
      · have hb : ¬ b.index = i := h ▸ ha
        simp [ha, hb]
  unfold getTexture
  rw [e, e]

/-- The text of a small atlas is read. -/
example : parse (0, 0, 0, 0) "1,512,256\nbrick,0,0,128,128\nold brick, 128, 0, 128, 64\nbrick,256,0,100,50\n".toList =
    .ok ⟨1, [(['b', 'r', 'i', 'c', 'k'], [⟨512, 256, 0, 0, 128, 128⟩, ⟨512, 256, 256, 0, 100, 50⟩]),
      (['o', 'l', 'd', ' ', 'b', 'r', 'i', 'c', 'k'], [⟨512, 256, 128, 0, 128, 64⟩])], [⟨0, 0, 0, 0, 0, 0⟩]⟩ := by
  decide +kernel

namespace AtlasProof

theorem one_number (n : Nat) (h : n < 10) : Number n [Char.ofNat (48 + n)] :=
  ⟨[], _, gap_nil, .positive [] _ n .none ⟨[n], by simp, by simpa using h, by simp, by simp⟩ (by omega), rfl⟩

end AtlasProof

/-- The hypotheses can be met: this text is one of an atlas. -/
example : PrintsAtlas ⟨1, 8, 8, [⟨['a'], 0, 0, 4, 4⟩]⟩ "1,8,8 a,0,0,4,4".toList := by
  have hc : Comma [','] := ⟨[], gap_nil, rfl⟩
  have hb : Gap [' '] := by simp [Gap, Blank]
  refine .mk ⟨1, 8, 8, [⟨['a'], 0, 0, 4, 4⟩]⟩ ['1'] [','] ['8'] [','] ['8'] " a,0,0,4,4".toList (one_number 1 (by decide)) hc (one_number 8 (by decide)) hc
    (one_number 8 (by decide)) (by simp [Apart]) (.one _ _ ?_)
  exact .mk ⟨['a'], 0, 0, 4, 4⟩ [' '] ['0'] [','] ['0'] [','] ['4'] [','] ['4'] hb ⟨by simp, by simp, by simp [Blank]⟩ (one_number 0 (by decide)) hc (one_number 0 (by decide)) hc
    (one_number 4 (by decide)) hc (one_number 4 (by decide))

/-- Such regions fit, and others do not. -/
example : Fits ⟨['a'], 0, 0, 4, 4⟩ ∧ ¬ Fits ⟨['a'], -1, 0, 4, 4⟩ := by simp [Fits]

end Verif.Props
