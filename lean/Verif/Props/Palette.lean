import Verif.Props.PaletteSpec
import Verif.Props.Atlas
import Verif.Props.BuildingSheet
import Verif.Props.Gradient
import Verif.Props.Surface
import Verif.Props.TerrainSheet

/-! # C113: surfaces have the colors and textures which the stylesheet names -/
namespace Verif.Props
open Verif.Clipper (El)
open Verif.Style (Rule Declaration FilterCollection Str)
open Verif.StyleSpec Verif.GradientSpec Verif.ColorSpec Verif.SurfaceSpec Verif.AtlasSpec Verif.ShownSpec Verif.PaletteSpec Verif.LoadTileSpec
open Verif.Color (Color)
open Verif.StyleEval (Arith)
open Verif.MeshBuilder (Texture Vec2 Vec3)
open Verif.BuildingSheetSpec (Amount Word PartFaces IsBuilding Within)
open Verif.Palette

namespace PaletteProof

theorem meaning_get {l : List Stop} {j : Nat} {A : ℝ × Color} (h : (meaning (K := ℝ) l)[j]? = some A) :
    ∃ s, l[j]? = some s ∧ A = (s.time (decide (j = 0)), s.color) := by
  cases l with
  | nil => simp [meaning] at h
  | cons a l =>
    cases j with
    | zero =>
      simp only [meaning, List.getElem?_cons_zero, Option.some.injEq] at h
      exact ⟨a, rfl, by simp [← h]⟩
    | succ j =>
      simp only [meaning, List.getElem?_cons_succ, List.getElem?_map, Option.map_eq_some_iff] at h
      obtain ⟨s, h1, h2⟩ := h
      exact ⟨s, by simpa using h1, by simp [← h2]⟩

theorem meaning_last {l : List Stop} {last : ℝ × Color} (hl : 1 < l.length) (h : (meaning (K := ℝ) l).getLast? = some last) :
    ∃ s, l.getLast? = some s ∧ last = (s.time false, s.color) := by
  match l, hl with
  | a :: b :: l, _ =>
    have hx : (meaning (K := ℝ) (a :: b :: l)).getLast? = ((b :: l).map fun s => ((s.time false : ℝ), s.color)).getLast? := by
      simp [meaning, List.getLast?_cons]
    rw [hx, List.getLast?_map, Option.map_eq_some_iff] at h
    obtain ⟨s, h1, h2⟩ := h
    exact ⟨s, by rw [List.getLast?_cons_cons]; exact h1, h2.symm⟩

theorem meaning_length (l : List Stop) : (meaning (K := ℝ) l).length = l.length := by
  cases l <;> simp [meaning]

/-- The color in the middle of a gradient. -/
theorem middle {l : List Stop} (h0 : l ≠ []) (hlast : 1 < l.length → ∀ s, l.getLast? = some s → ∀ ds, s.percent = some ds → 50 ≤ number ds) :
    ∃ c, Color.evaluate (meaning (K := ℝ) l) (1 / 2) = .ok c ∧ Middle l c := by
  by_cases hl : 1 < l.length
  swap
  · match l, h0, hl with
    | [s], _, _ => exact ⟨s.color, ColorProof.evaluate_zero _ _ (s.time true, s.color) rfl rfl, .one s⟩
    | _ :: _ :: _, _, hl => simp at hl
  · obtain ⟨last, hlast'⟩ : ∃ last, (meaning (K := ℝ) l).getLast? = some last := by
      cases h : (meaning (K := ℝ) l).getLast? with
      | some x => exact ⟨x, rfl⟩
      | none =>
        have := congrArg List.length (List.getLast?_eq_none_iff.1 h)
        rw [meaning_length] at this
        simp only [List.length_nil] at this
        omega
    obtain ⟨s, hs, rfl⟩ := meaning_last hl hlast'
    have ht : (1 / 2 : ℝ) ≤ s.time false := by
      unfold Stop.time
      cases hp : s.percent with
      | none => norm_num
      | some ds =>
        have h50 : (50 : ℝ) ≤ (number ds : ℝ) := by exact_mod_cast hlast hl s hs ds hp
        simp only
        rw [le_div_iff₀ (by norm_num)]
        linarith
    rcases C33_between_partial (meaning (K := ℝ) l) (1 / 2) _ hlast' ht with ⟨p, h1, h2, h3⟩ | ⟨i, A, B, c, h1, h2, h3, h4, h5, h6⟩
    · obtain ⟨a, ha, rfl⟩ := meaning_get h1
      refine ⟨a.color, h2, ?_⟩
      have h3' := h3 (by rw [meaning_length]; exact hl)
      cases l with
      | nil => simp at ha
      | cons b l =>
        simp only [List.getElem?_cons_zero, Option.some.injEq] at ha
        subst ha
        exact .first _ _ (by simpa using h3')
    · obtain ⟨a, ha, rfl⟩ := meaning_get h1
      obtain ⟨b, hb, rfl⟩ := meaning_get h2
      exact ⟨c, h5, .between l i a b c ha hb h3 (by simpa using h4) h6⟩

theorem hue_of {cast : List Char → Option ℝ} (hc : Reads cast) {text : Str} (h : Legible 50 text) :
    ∃ g c, Gradient.loadGradient cast text = .ok g ∧ Color.evaluate g (1 / 2 : ℝ) = .ok c ∧ Hue text c := by
  rcases h with ⟨s, h1, h2, rfl⟩ | ⟨blanks, l, h0, h1, h2, rfl⟩
  · exact ⟨_, s.color, C109_single_partial cast hc s h1 h2, ColorProof.evaluate_zero _ _ (s.time true, s.color) rfl rfl, .inl ⟨s, rfl, h1, rfl⟩⟩
  · obtain ⟨c, h3, h4⟩ := middle h0 h2
    exact ⟨_, c, (C109_stops_partial cast hc blanks l h0 h1).2, h3, .inr ⟨blanks, l, rfl, h1, h4⟩⟩

theorem number_of {x : ℝ} {i : Int} (h : TerrainSheetSpec.IsWhole x i) (h0 : 0 ≤ i) (h1 : i < 65535) : toUInt16 x = .ok i.toNat := by
  have := TerrainSheetProof.whole_of h
  unfold TerrainSheet.toInt32 at this
  unfold toUInt16
  simp only at this ⊢
  split_ifs at this with a b
  all_goals
    injection this with this
    simp only [this, a, if_true, if_false]
    rw [if_pos ⟨h0, by omega⟩]

/-- The atlases which are read from their texts. -/
theorem atlases_of (outside : Nat × Nat × Nat × Nat) {xs : List Atlas.Text} {texts : List (List Char)} (h : AtlasTexts xs texts) :
    ∃ as, TerrainSheet.readAll (Atlas.parse outside) texts = .ok as ∧
      List.Forall₂ (fun x (a : Atlas.TextureAtlas) => (a.index : Int) = x.id % 2 ^ 16 ∧ ∀ key seed, ∃ t, Atlas.random (a.get key) seed = .ok t ∧ Chosen x key seed t) xs as := by
  induction h with
  | nil => exact ⟨[], rfl, .nil⟩
  | cons hx _ ih =>
    obtain ⟨as, h1, h2⟩ := ih
    obtain ⟨w, u, rfl, hw, hu, hf⟩ := hx
    obtain ⟨a, h3, h4, h5⟩ := C92_read outside _ w u hw hu hf
    exact ⟨a :: as, by simp only [TerrainSheet.readAll, h3, Outcome.bind, h1], .cons ⟨h4, h5⟩ h2⟩

theorem split_forall₂ {A B : Type} {R : A → B → Prop} {xs : List A} {bs after : List B} {b : B} {before : List B} (h : List.Forall₂ R xs bs) (e : bs = before ++ b :: after) :
    ∃ xb x xa, xs = xb ++ x :: xa ∧ List.Forall₂ R xb before ∧ R x b := by
  subst e
  induction before generalizing xs with
  | nil =>
    cases h with
    | cons hx ht => exact ⟨[], _, _, rfl, .nil, hx⟩
  | cons c before ih =>
    cases h with
    | cons hx ht =>
      obtain ⟨xb, x, xa, rfl, h1, h2⟩ := ih ht
      exact ⟨_ :: xb, x, xa, rfl, .cons hx h1, h2⟩

theorem first_with (as : List Atlas.TextureAtlas) (i : Nat) :
    (∃ before a after, as = before ++ a :: after ∧ a.index = i ∧ ∀ b ∈ before, b.index ≠ i) ∨ ∀ a ∈ as, a.index ≠ i := by
  induction as with
  | nil => right; simp
  | cons a as ih =>
    by_cases h : a.index = i
    · exact .inl ⟨[], a, as, rfl, h, by simp⟩
    · rcases ih with ⟨before, b, after, rfl, h1, h2⟩ | ih
      · exact .inl ⟨a :: before, b, after, rfl, h1, by simpa [h] using h2⟩
      · exact .inr (by simpa [h] using ih)

theorem texture_of {outside : Nat × Nat × Nat × Nat} {xs : List Atlas.Text} {as : List Atlas.TextureAtlas}
    (h : List.Forall₂ (fun x (a : Atlas.TextureAtlas) => (a.index : Int) = x.id % 2 ^ 16 ∧ ∀ key seed, ∃ t, Atlas.random (a.get key) seed = .ok t ∧ Chosen x key seed t) xs as)
    (i : Nat) (hi : i < 65535) (type : Str) (seed : Nat) :
    ∃ group r, Atlas.getTexture (Atlas.provide outside as) i type = .ok group ∧ Atlas.random group seed = .ok r ∧ Textured xs i type seed (textureOf i r) := by
  obtain ⟨p1, p2⟩ := C92_provider outside as i (by omega) type
  rcases first_with as i with ⟨before, a, after, e, ha, hb⟩ | hno
  · obtain ⟨xb, x, xa, rfl, h1, h2, h3⟩ := split_forall₂ h e
    obtain ⟨t, h4, h5⟩ := h3 type seed
    refine ⟨_, t, p1 before a after e ha hb, h4, .inl ⟨xb, x, xa, t, rfl, by rw [← h2, ha], ?_, h5, rfl, rfl, rfl, rfl, rfl, rfl, rfl⟩⟩
    intro b hb'
    obtain ⟨n, hn, rfl⟩ := List.getElem_of_mem hb'
    have hlen := h1.length_eq
    have := List.forall₂_iff_get.1 h1
    have hr := (this.2 n hn (by omega)).1
    simp only [List.get_eq_getElem] at hr
    intro e'
    rw [e'] at hr
    exact hb _ (List.getElem_mem (hlen ▸ hn)) (by exact_mod_cast hr)
  · obtain ⟨g, h1, h2⟩ := p2 hno
    obtain ⟨t, h3, h4, h5⟩ := h2 seed
    refine ⟨g, t, h1, h3, .inr ⟨?_, rfl, by simp [textureOf, h4], by simp [textureOf, h5]⟩⟩
    intro x hx
    obtain ⟨n, hn, rfl⟩ := List.getElem_of_mem hx
    have hlen := h.length_eq
    have := List.forall₂_iff_get.1 h
    have hr := (this.2 n hn (by omega)).1
    simp only [List.get_eq_getElem] at hr
    intro e'
    rw [e'] at hr
    exact hno _ (List.getElem_mem (hlen ▸ hn)) (by exact_mod_cast hr)

theorem color_still (l : Surface.Look) (hn : l.colorNoiseFreq = 0) {c : Color} (hc : Color.evaluate l.gradient (1 / 2 : ℝ) = .ok c) (x y : ℝ) :
    Surface.colorAt l x y = .ok (Surface.toInt c) := by
  unfold Surface.colorAt Surface.noise Noise.perlin2D
  rw [hn, if_pos (by norm_num)]
  simp only [Outcome.bind]
  rw [show ((0 : ℝ) + 1) / 2 = 1 / 2 by norm_num, hc]

end PaletteProof
open PaletteProof

/-- C113 (partial): the paint of a palette. For a legible color and a number of a texture, all that is painted has the color which the text stands for, and the texture of the
first atlas with this number, one of the group in turn. Missing: illegible colors. -/
theorem C113_paint_partial (cast : List Char → Option ℝ) (hc : Reads cast) (outside : Nat × Nat × Nat × Nat) {xs : List Atlas.Text} {texts : List (List Char)}
    (hx : AtlasTexts xs texts) (tile : QuadKey) {text : Str} (ht : Legible 50 text) {v : ℝ} {i : Int} (hv : TerrainSheetSpec.IsWhole v i) (h0 : 0 ≤ i) (h1 : i < 65535)
    (type : Str) (scale : ℝ) (seed : UInt64) :
    ∃ pal n c, palette cast outside texts tile = .ok pal ∧ Hue text c ∧ Packed c n ∧ Plainly (paintOf pal text v type scale seed) n ∧
      Textured xs i type seed.toNat (paintOf pal text v type scale seed).texture := by
  obtain ⟨as, h2, h3⟩ := atlases_of outside hx
  obtain ⟨g, c, h4, h5, h6⟩ := hue_of hc ht
  obtain ⟨group, r, h7, h8, h9⟩ := texture_of (outside := outside) h3 i.toNat (by omega) type seed.toNat
  rw [Int.toNat_of_nonneg h0] at h9
  have hcreate : create ⟨cast, Atlas.provide outside as, tile⟩ text 0 v type scale seed.toNat =
      .ok (lookOf tile ⟨g, 0, !r.isEmpty, scale⟩ (textureOf i.toNat r)) := by
    simp only [create, number_of hv h0 h1, Outcome.bind, h4, h7, h8]
  have hcol := color_still ⟨g, 0, !r.isEmpty, scale⟩ rfl h5
  refine ⟨_, Surface.toInt c, c, by rw [palette, h2]; rfl, h6, SurfaceProof.packed_toInt c, ?_, ?_⟩
  · unfold paintOf
    rw [hcreate]
    exact ⟨fun q => by simp only [TerrainSheet.orElse, lookOf, hcol], fun q => by simp only [TerrainSheet.orElse, lookOf, hcol],
      fun q => by simp only [TerrainSheet.orElse, lookOf, hcol]⟩
  · unfold paintOf
    rw [hcreate]
    exact h9

namespace PaletteProof
open Verif.BuildingSpec

theorem flat_color {look : Building.Look ℝ} {n : Int} (hl : Plainly look n) {height : ℝ} {flip : Bool} {io : MeshBuilder.TriangleIo ℝ} {ts : List (Triangle ℝ)}
    (h : FlatFaces look height flip io ts) : ∀ t ∈ ts, t.1.color = n ∧ t.2.1.color = n ∧ t.2.2.color = n := by
  have hp : ∀ c corner, IsPoint io (fun _ q => (height, look.pointColor q, look.pointUv q)) c corner → corner.color = n := by
    rintro c corner ⟨j, p, -, -, rfl⟩
    exact hl.point p
  have hside : ∀ (s t : Triangle ℝ), SameSide s t → t.1.color = n ∧ t.2.1.color = n ∧ t.2.2.color = n → s.1.color = n ∧ s.2.1.color = n ∧ s.2.2.color = n := by
    rintro s t hs ⟨h1, h2, h3⟩
    simp only [SameSide, List.mem_cons, List.not_mem_nil, or_false] at hs
    rcases hs with rfl | rfl | rfl
    exacts [⟨h1, h2, h3⟩, ⟨h2, h3, h1⟩, ⟨h3, h1, h2⟩]
  unfold FlatFaces at h
  generalize io.triangles = cs at h
  induction h with
  | nil => intro t ht; cases ht
  | cons hx _ ih =>
    intro t ht
    rcases List.mem_cons.1 ht with rfl | ht
    · obtain ⟨a, b, d, h1, h2, h3, h4⟩ := hx
      have hc : a.color = n ∧ b.color = n ∧ d.color = n := ⟨hp _ _ h1, hp _ _ h2, hp _ _ h3⟩
      split_ifs at h4
      · exact hside _ _ h4 hc
      · obtain ⟨e1, e2, e3⟩ := hside _ _ h4 hc
        exact ⟨e1, e3, e2⟩
    · exact ih t ht

theorem roof_color {look : Building.Look ℝ} {n : Int} (hl : Plainly look n) {type : String} {roofHeight top : ℝ} {io : MeshBuilder.TriangleIo ℝ}
    {outers : List (List (Polygon.Vec ℝ))} {ts : List (Triangle ℝ)} (h : RoofFaces look type roofHeight top io outers ts) :
    ∀ t ∈ ts, t.1.color = n ∧ t.2.1.color = n ∧ t.2.2.color = n := by
  rcases h with ⟨-, rfl⟩ | ⟨-, h⟩ | ⟨-, rfl⟩
  · intro t ht; cases ht
  · exact flat_color hl h
  · intro t ht
    obtain ⟨ring, -, ht⟩ := List.mem_flatMap.1 ht
    obtain ⟨e, -, rfl⟩ := List.mem_map.1 ht
    exact ⟨hl.triangle _, hl.triangle _, hl.triangle _⟩

theorem wall_color {look : Building.Look ℝ} {n : Int} (hl : Plainly look n) {bottom top : ℝ} {ring : List (Polygon.Vec ℝ)} :
    ∀ t ∈ ringWalls look bottom top ring, t.1.color = n ∧ t.2.1.color = n ∧ t.2.2.color = n := by
  intro t ht
  obtain ⟨e, -, ht⟩ := List.mem_flatMap.1 ht
  simp only [wallFaces, List.mem_cons, List.not_mem_nil, or_false] at ht
  rcases ht with rfl | rfl <;> exact ⟨hl.plane _, hl.plane _, hl.plane _⟩

theorem part_color {env : Building.Env ℝ} {id : UInt64} {part : BuildingSpec.Part ℝ} {faces : List (Triangle ℝ × Texture)} (h : PartFaces env id part faces) {n k : Int}
    (hr : Plainly (part.style.roofLook id) n) (hw : Plainly (part.style.facadeLook id) k) :
    ∃ tops walls, faces = tops ++ walls ∧ Uniform n (part.style.roofLook id).texture tops ∧ Uniform k (part.style.facadeLook id).texture walls := by
  obtain ⟨start, ring, rest, p, outlines, holes, bottom, top, roof, floor, -, -, -, -, -, -, -, -, h1, h2, rfl⟩ := h
  refine ⟨_, _, rfl, ?_, ?_⟩
  · intro f hf
    obtain ⟨t, ht, rfl⟩ := List.mem_map.1 hf
    refine ⟨rfl, ?_⟩
    rcases List.mem_append.1 ht with ht | ht
    · exact roof_color hr h1 t ht
    · split_ifs at h2
      · exact flat_color hr h2 t ht
      · rw [h2] at ht; cases ht
  · intro f hf
    obtain ⟨t, ht, rfl⟩ := List.mem_map.1 hf
    obtain ⟨r, -, ht⟩ := List.mem_flatMap.1 ht
    exact ⟨rfl, wall_color hw t ht⟩

/-- The style of a part is that of an element which is drawn. -/
def Drawn (style : El → Building.Style ℝ) : El → Prop
  | .area id tags cs => (style (.area id tags cs)).building = true
  | .relation id tags ms => IsMultipolygon style (.relation id tags ms)
  | _ => False

mutual
theorem parts_within (style : El → Building.Style ℝ) : ∀ (e : El), ∀ part ∈ BuildingSpec.parts style e, ∃ x, Within x e ∧ part.style = style x ∧ Drawn style x
  | .node .., part, h => by simp [BuildingSpec.parts] at h
  | .way .., part, h => by simp [BuildingSpec.parts] at h
  | .area id tags cs, part, h => by
    rw [BuildingSpec.parts] at h
    split_ifs at h with hb
    · rw [List.mem_singleton.1 h]
      exact ⟨_, .self _, rfl, hb⟩
    · cases h
  | .relation id tags ms, part, h => by
    rw [BuildingSpec.parts] at h
    split_ifs at h with h0 hm
    · cases h
    · rw [List.mem_singleton.1 h]
      exact ⟨_, .self _, rfl, hm⟩
    · obtain ⟨m, hm, x, h1, h2⟩ := partsOf_within style ms part h
      exact ⟨x, .member hm h1, h2⟩

theorem partsOf_within (style : El → Building.Style ℝ) : ∀ (ms : List El), ∀ part ∈ BuildingSpec.partsOf style ms, ∃ m ∈ ms, ∃ x, Within x m ∧ part.style = style x ∧ Drawn style x
  | [], part, h => by simp [BuildingSpec.partsOf] at h
  | m :: ms, part, h => by
    rw [BuildingSpec.partsOf] at h
    rcases List.mem_append.1 h with h | h
    · exact ⟨m, List.mem_cons_self, parts_within style m part h⟩
    · obtain ⟨m', hm, x, h1⟩ := partsOf_within style ms part h
      exact ⟨m', List.mem_cons_of_mem _ hm, x, h1⟩
end

theorem describes_of {ar : Arith ℝ} {senv : Style.Env ℝ} {paint : BuildingSheet.Paint} {ds : List Declaration} {style : El → Building.Style ℝ} {x : El}
    (h : BuildingSheetSpec.Told ar senv paint ds (style x) x) (hd : Drawn style x) :
    Word ar senv x.tags (lastValue ds "building".toList) "true".toList ∧ BuildingSheetSpec.Describes ar senv paint ds x.tags (style x) := by
  match x with
  | .node .. => exact hd.elim
  | .way .. => exact hd.elim
  | .area id tags cs =>
    obtain ⟨b, h1, h2, h3⟩ := h
    have := h2.1 hd
    exact ⟨this ▸ h1, h3 this⟩
  | .relation id tags ms =>
    obtain ⟨m, b, h1, h2, h3, h4⟩ := h
    obtain ⟨e1, e2⟩ := h3.1 hd
    exact ⟨e2 ▸ h2, h4 e1 e2⟩

variable {ar : Arith ℝ} {senv : Style.Env ℝ}

theorem dress_of {cast : List Char → Option ℝ} (hc : Reads cast) {outside : Nat × Nat × Nat × Nat} {xs : List Atlas.Text} {texts : List (List Char)}
    (hx : AtlasTexts xs texts) {tile : QuadKey} {pal : Palette} (hp : palette cast outside texts tile = .ok pal) {ds : List Declaration} {tags : List Tag} {pre : Str}
    (hs : Showable ar senv ds tags pre) (seed : UInt64) {look : UInt64 → Building.Look ℝ} {gradient type : Str} {index scale : ℝ}
    (h1 : Word ar senv tags (lastValue ds (pre ++ "color".toList)) gradient) (h2 : Amount ar senv tags (lastValue ds (pre ++ "texture-index".toList)) index)
    (h3 : Word ar senv tags (lastValue ds (pre ++ "texture-type".toList)) type) (hl : look = paintOf pal gradient index type scale) :
    ∃ n, Plainly (look seed) n ∧ Dress ar senv xs seed.toNat ds tags pre n (look seed).texture := by
  obtain ⟨i, hi, i0, i1⟩ := hs.2 _ h2
  obtain ⟨pal', n, c, e, h4, h5, h6, h7⟩ := C113_paint_partial cast hc outside hx tile (hs.1 _ h1) hi i0 i1 type scale seed
  rw [hp] at e
  injection e with e
  subst e
  rw [hl]
  exact ⟨n, h6, gradient, index, i, type, c, h1, h2, h3, hi, h4, h5, h7⟩

/-- A building whose looks come from a palette. -/
theorem building_colors {cast : List Char → Option ℝ} (hc : Reads cast) {outside : Nat × Nat × Nat × Nat} {xs : List Atlas.Text} {texts : List (List Char)}
    (hx : AtlasTexts xs texts) {tile : QuadKey} {pal : Palette} (hp : palette cast outside texts tile = .ok pal) {decls : El → List Declaration}
    {env : Building.Env ℝ} {e : El} (htold : ∀ x, Within x e → BuildingSheetSpec.Told ar senv (paintOf pal) (decls x) (env.style x) x)
    (hshow : ∀ x, Within x e → Word ar senv x.tags (lastValue (decls x) "building".toList) "true".toList →
      Showable ar senv (decls x) x.tags "roof-".toList ∧ Showable ar senv (decls x) x.tags "facade-".toList)
    {m : UInt64 × MeshBuilder.Mesh ℝ} (h : IsBuilding env e m) : ShowsColors ar senv xs decls env e m := by
  obtain ⟨-, faces, h1, h2, -⟩ := h
  refine ⟨faces, ?_, h2⟩
  have key : ∀ part ∈ BuildingSpec.parts env.style e, ∀ fs, PartFaces env e.id part fs →
      ∃ x, Within x e ∧ part.style = env.style x ∧ Dressed ar senv xs e.id.toNat (decls x) x.tags fs := by
    intro part hpart fs hfs
    obtain ⟨x, hw, hst, hd⟩ := parts_within env.style e part hpart
    obtain ⟨hb, hdes⟩ := describes_of (htold x hw) hd
    obtain ⟨s1, s2⟩ := hshow x hw hb
    obtain ⟨g, i, t, sc, r1, r2, r3, -, r4⟩ := hdes.roofLook
    obtain ⟨g', i', t', sc', f1, f2, f3, -, f4⟩ := hdes.facadeLook
    obtain ⟨n, p1, d1⟩ := dress_of hc hx hp s1 e.id r1 r2 r3 r4
    obtain ⟨k, p2, d2⟩ := dress_of hc hx hp s2 e.id f1 f2 f3 f4
    rw [← hst] at p1 d1 p2 d2
    obtain ⟨tops, walls, q1, q2, q3⟩ := part_color hfs p1 p2
    exact ⟨x, hw, hst, tops, walls, n, _, k, _, q1, q2, d1, q3, d2⟩
  clear h2
  generalize BuildingSpec.parts env.style e = ps at h1 key
  induction h1 with
  | nil => exact .nil
  | cons hf _ ih => exact .cons ⟨hf, key _ List.mem_cons_self _ hf⟩ (ih fun part hp => key part (List.mem_cons_of_mem _ hp))

/-- The texts of the atlases of a stylesheet. -/
theorem sheet_atlases {L : Type} {T : MapCss.Tools Atlas.TextureAtlas L} {outside : Nat × Nat × Nat × Nat} (hT : T.atlas = Atlas.parse outside) {css g : List Char}
    {entries : List (MapCssSpec.Entry Atlas.TextureAtlas L)} (h : MapCssSpec.Reads T css g entries) :
    ∃ texts xs, (∀ t ∈ texts, ∃ f, T.file f = some t) ∧ AtlasTexts xs texts ∧
      TerrainSheet.readAll (Atlas.parse outside) texts = .ok (entries.filterMap MapCssSpec.Entry.texture?) := by
  have one : ∀ t a, Atlas.parse outside t = .ok a → ∃ x w u, t = w ++ u ∧ PrintsAtlas x w ∧ Stops u ∧ ∀ r ∈ x.regions, Fits r := by
    intro t a ha
    by_contra hno
    by_cases hw : ∀ x w u, t = w ++ u → PrintsAtlas x w → ¬ Stops u
    · rw [(C92_refused outside t).2 hw] at ha
      cases ha
    · push Not at hw
      obtain ⟨x, w, u, rfl, hw, hu⟩ := hw
      by_cases hf : ∀ r ∈ x.regions, Fits r
      · exact hno ⟨x, w, u, rfl, hw, hu, hf⟩
      · push Not at hf
        obtain ⟨e, he⟩ := C92_violated_range outside x w u hw hu hf
        rw [he] at ha
        cases ha
  have app : ∀ (t1 t2 : List (List Char)) (a1 a2 : List Atlas.TextureAtlas), TerrainSheet.readAll (Atlas.parse outside) t1 = .ok a1 →
      TerrainSheet.readAll (Atlas.parse outside) t2 = .ok a2 → TerrainSheet.readAll (Atlas.parse outside) (t1 ++ t2) = .ok (a1 ++ a2) := by
    intro t1
    induction t1 with
    | nil =>
      intro t2 a1 a2 h1 h2
      injection h1 with h1
      subst h1
      exact h2
    | cons t t1 ih =>
      intro t2 a1 a2 h1 h2
      obtain ⟨b, hb, h1⟩ := TerrainSheetProof.bind_ok h1
      obtain ⟨bs, hbs, h1⟩ := TerrainSheetProof.bind_ok h1
      injection h1 with h1
      subst h1
      simp only [List.cons_append, TerrainSheet.readAll, hb, Outcome.bind, ih t2 bs a2 hbs h2]
  induction h with
  | done t => exact ⟨[], [], by simp, .nil, rfl⟩
  | rule r w t u es hr ht ih =>
    obtain ⟨texts, xs, h1, h2, h3⟩ := ih
    exact ⟨texts, xs, h1, h2, h3⟩
  | imported f w c g fs t u es hf hc hi hg ht ih1 ih2 =>
    obtain ⟨texts, xs, h1, h2, h3⟩ := ih1
    obtain ⟨texts', xs', h1', h2', h3'⟩ := ih2
    refine ⟨texts ++ texts', xs ++ xs', fun t ht => ?_, List.rel_append h2 h2', ?_⟩
    · rcases List.mem_append.1 ht with ht | ht
      exacts [h1 t ht, h1' t ht]
    · rw [List.filterMap_append]
      exact app _ _ _ _ h3 h3'
  | texture f w c a t u es hf hc ha ht ih =>
    obtain ⟨texts, xs, h1, h2, h3⟩ := ih
    rw [hT] at ha
    obtain ⟨x, w', u', e, hx⟩ := one c a ha
    refine ⟨c :: texts, x :: xs, fun t ht => ?_, .cons ⟨w', u', e, hx⟩ h2, ?_⟩
    · rcases List.mem_cons.1 ht with rfl | ht
      exacts [⟨f, hc⟩, h1 t ht]
    · simp only [TerrainSheet.readAll, ha, Outcome.bind, h3]
      rfl
  | lsystem f w c l t u es hf hc hl ht ih =>
    obtain ⟨texts, xs, h1, h2, h3⟩ := ih
    exact ⟨texts, xs, h1, h2, h3⟩

end PaletteProof

open Verif.BuildingSpec (Fine Delivered)
open Verif.BuildingSheetSpec (Told Clear Drawable words amounts)
open Verif.BuildingSheet (deliver)

/-- C113 (partial): the builder of buildings gets some elements. Then the mesh of each building shows its parts, and roofs, floors and walls have the colors and the textures which
the rules of the stylesheet declare for them, the texture being chosen by the id of the building. Missing: as in `C111_meshes_partial`, and colors which cannot be read. -/
theorem C113_meshes_partial (cast : List Char → Option ℝ) (hc : Reads cast) (outside : Nat × Nat × Nat × Nat) {xs : List Atlas.Text} {texts : List (List Char)}
    (hx : AtlasTexts xs texts) (ar : Arith ℝ) (hz : ar.zero = 0) (hs : StyleEvalSpec.Sane ar) (senv : Style.Env ℝ) {rules : List Rule} {fc : FilterCollection}
    (hok : Style.build senv rules = .ok fc) {P : Str → Prop} (hm : Mentions rules P) (hk : ∀ k ∈ words ++ amounts, P k) (base : Building.Env ℝ) (q : QuadKey)
    (calls : List El) (hr : ∀ e ∈ calls, ∀ x, Within x e → Readable senv P x ∧ Clear ar senv (decls senv rules q.lod x) x.tags)
    (hshow : ∀ e ∈ calls, ∀ x, Within x e → Word ar senv x.tags (lastValue (decls senv rules q.lod x) "building".toList) "true".toList →
      Showable ar senv (decls senv rules q.lod x) x.tags "roof-".toList ∧ Showable ar senv (decls senv rules q.lod x) x.tags "facade-".toList) :
    ∃ pal style, palette cast outside texts q = .ok pal ∧ (∀ e ∈ calls, ∀ x, Within x e → Told ar senv (paintOf pal) (decls senv rules q.lod x) (style x) x) ∧
      ((∀ e ∈ calls, Fine style e) → (∀ e ∈ calls, ∀ part ∈ BuildingSpec.parts style e, Drawable { base with style := style } part) →
        ∃ ms, deliver ar senv (paintOf pal) base fc q.lod calls = .ok ms ∧
          List.Forall₂ (fun e m => IsBuilding { base with style := style } e m ∧ ShowsColors ar senv xs (decls senv rules q.lod) { base with style := style } e m)
            (calls.filter (Delivered style)) ms) := by
  obtain ⟨as, h1, -⟩ := atlases_of outside hx
  obtain ⟨pal, hp⟩ : ∃ pal, palette cast outside texts q = .ok pal := ⟨_, by rw [palette, h1]; rfl⟩
  obtain ⟨style, h2, h3⟩ := C111_meshes_partial ar hz hs senv hok hm hk (paintOf pal) base q.lod calls hr
  refine ⟨pal, style, hp, h2, fun hfine hdraw => ?_⟩
  obtain ⟨ms, h4, h5⟩ := h3 hfine hdraw
  refine ⟨ms, h4, ?_⟩
  have hmem : ∀ e ∈ calls.filter (Delivered style), e ∈ calls := fun e he => (List.mem_filter.1 he).1
  generalize calls.filter (Delivered style) = shown at h5 hmem
  clear h4
  induction h5 with
  | nil => exact .nil
  | cons hb _ ih =>
    exact .cons ⟨hb, building_colors hc hx hp (h2 _ (hmem _ List.mem_cons_self)) (hshow _ (hmem _ List.mem_cons_self)) hb⟩
      (ih fun e he => hmem e (List.mem_cons_of_mem _ he))

/-- C113 (partial): the ground of a tile. A context whose color is legible, with the last color of a gradient at its end, shows at each point a color which the stylesheet names or
one between neighbours of the gradient, and the first texture of the group which it names. Missing: colors which cannot be read, and points where the noise cannot be computed. -/
theorem C113_ground_partial (cast : List Char → Option ℝ) (hc : Reads cast) (outside : Nat × Nat × Nat × Nat) {xs : List Atlas.Text} {texts : List (List Char)}
    (hx : AtlasTexts xs texts) (tile : QuadKey) (noise : ℝ → Nat → Vec2 ℝ → ℝ) (triangulate : ℝ → Polygon.Poly ℝ → MeshBuilder.TriangleIo ℝ) (ar : Arith ℝ)
    (senv : Style.Env ℝ) (box : Bbox ℝ) (tags : List Tag) (ds : List Declaration) (pre : Str)
    (hcol : ∀ g, Word ar senv tags (lastValue ds (pre ++ "color".toList)) g → Legible 100 g)
    (hidx : ∀ v, TerrainSheetSpec.Count ar senv tags (lastValue ds (pre ++ "texture-index".toList)) v → ∃ i, TerrainSheetSpec.IsWhole v i ∧ 0 ≤ i ∧ i < 65535) :
    ∃ pal, palette cast outside texts tile = .ok pal ∧ ∀ c, TerrainSheetSpec.Sketches ar senv (brushOf pal noise triangulate) box tags ds pre c →
      ∃ gradient freq type v i, Word ar senv tags (lastValue ds (pre ++ "color".toList)) gradient ∧
        TerrainSheetSpec.Degrees ar senv tags box (lastValue ds (pre ++ "color-noise-freq".toList)) freq ∧
        Word ar senv tags (lastValue ds (pre ++ "texture-type".toList)) type ∧
        TerrainSheetSpec.Count ar senv tags (lastValue ds (pre ++ "texture-index".toList)) v ∧ TerrainSheetSpec.IsWhole v i ∧
        Textured xs i type 0 c.look.texture ∧
        ∀ q, NoiseProof.InRange (q.x * freq) → NoiseProof.InRange (q.y * freq) → ∃ color, Tone gradient color ∧ Packed color (c.look.pointColor q) := by
  obtain ⟨as, h1, h2⟩ := atlases_of outside hx
  refine ⟨_, by rw [palette, h1]; rfl, ?_⟩
  rintro c ⟨maxArea, eleNoise, heightOffset, index, type, scale, gradient, freq, meshName, extras, -, -, -, s1, s2, -, s3, s4, -, -, -, -, -, -, -, s, -, -, hl⟩
  obtain ⟨i, i1, i2, i3⟩ := hidx _ s1
  obtain ⟨group, r, h3, h4, h5⟩ := texture_of (outside := outside) h2 i.toNat (by omega) type 0
  rw [Int.toNat_of_nonneg i2] at h5
  have hgr : ∃ g, Gradient.loadGradient cast gradient = .ok g ∧ Complete g ∧ ∀ n, OfGradient g n → ∃ color, Tone gradient color ∧ Packed color n := by
    rcases hcol _ s3 with ⟨st, g1, g2, rfl⟩ | ⟨blanks, l, g0, g1, g2, rfl⟩
    · refine ⟨_, C109_single_partial cast hc st g1 g2, fun last _ hlen => by simp at hlen, ?_⟩
      rintro n ⟨k, hk, ⟨h, -⟩ | ⟨p, hp, rfl⟩ | ⟨j, A, B, -, hB, -⟩⟩
      · cases h
      · simp only [List.getElem?_cons_zero, Option.some.injEq] at hp
        subst hp
        exact ⟨_, .inl ⟨st, rfl, g1, rfl⟩, hk⟩
      · simp at hB
    · refine ⟨_, (C109_stops_partial cast hc blanks l g0 g1).2, ?_, ?_⟩
      · intro last hlt hlen
        rw [meaning_length] at hlen
        obtain ⟨st, hst, rfl⟩ := meaning_last hlen hlt
        unfold Stop.time
        cases hp : st.percent with
        | none => simp
        | some dg =>
          have h100 : (100 : ℝ) ≤ (number dg : ℝ) := by exact_mod_cast g2 hlen st hst dg hp
          simp only
          rw [le_div_iff₀ (by norm_num)]
          linarith
      · rintro n ⟨k, hk, ⟨h, -⟩ | ⟨p, hp, rfl⟩ | ⟨j, A, B, hA, hB, hb⟩⟩
        · have := congrArg List.length h
          rw [meaning_length] at this
          exact absurd (List.length_eq_zero_iff.1 this) g0
        · obtain ⟨a, ha, rfl⟩ := meaning_get hp
          exact ⟨_, .inr ⟨blanks, l, rfl, g1, .inl ⟨a, ha, rfl⟩⟩, hk⟩
        · obtain ⟨a, ha, rfl⟩ := meaning_get hA
          obtain ⟨b, hb', rfl⟩ := meaning_get hB
          exact ⟨_, .inr ⟨blanks, l, rfl, g1, .inr ⟨j, a, b, ha, hb', hb⟩⟩, hk⟩
  obtain ⟨g, k1, k2, k3⟩ := hgr
  have hcreate : c.look = lookOf tile ⟨g, freq, !r.isEmpty, s⟩ (textureOf i.toNat r) := by
    rw [hl]
    simp only [brushOf, create, number_of i1 i2 i3, Outcome.bind, k1, h3, h4, TerrainSheet.orElse]
  refine ⟨gradient, freq, type, index, i, s3, s4, s2, s1, i1, by rw [hcreate]; exact h5, fun q q1 q2 => ?_⟩
  obtain ⟨n, n1, n2⟩ := SurfaceProof.color_ok ⟨g, freq, !r.isEmpty, s⟩ k2 q.x q.y q1 q2
  rw [hcreate]
  obtain ⟨color, c1, c2⟩ := k3 n n2
  exact ⟨color, c1, by simpa only [lookOf, n1, TerrainSheet.orElse] using c2⟩

open Verif.LoadTile Verif.QuadKeyBuilderSpec Verif.ImportSpec Verif.ImportRelationsSpec Verif.GeoStoreSpec GeoStoreProof
open Verif.OsmXmlSpec (Doc Head PrintsBody)

/-- C113 (partial): a stylesheet with the texts of its atlases and an OSM file are read, the file is imported, and a tile is loaded. Then the callback gets a mesh for each building
which is to be seen in the tile, in the colors and textures which the stylesheet declares. Missing: what C98, `C111_meshes_partial` and `C113_meshes_partial` leave open. -/
theorem C113_file_partial {K L : Type} [LinearOrder K] (outside : Nat × Nat × Nat × Nat) (T : MapCss.Tools Atlas.TextureAtlas L) (hT : T.atlas = Atlas.parse outside)
    {css g : List Char} {entries : List (MapCssSpec.Entry Atlas.TextureAtlas L)}
    (hcss : MapCssSpec.Reads T css g entries) (hg : MapCssSpec.Gap g) (senv : Style.Env ℝ) (hacc : (Style.build senv (rulesOf entries)).isOk = true)
    {P : Str → Prop} (hm : Mentions (rulesOf entries) P) (hskip : P "skip".toList) (hclip : P "clip".toList) (hkeys : ∀ k ∈ words ++ amounts, P k)
    (ar : Arith ℝ) (hz : ar.zero = 0) (hs : StyleEvalSpec.Sane ar) (cast : List Char → Option ℝ) (hc : Reads cast) (base : Building.Env ℝ)
    (env : Import.Env) (hsort : OsmSpec.Sorts env.sort) (tokens : El → List UInt32) {m : GeoStore.Map K (MemStore.Store El)}
    {B : Stores K (MemStore.Store El)} (hB : Abs m B) (hu : Used tokens B) {k : K} {s : MemStore.Store El} (hk : B k = some s) {target : Import.Target} (ht : Sensible target)
    {h w u : List Char} {d : Doc} (hh : Head h) (hw : PrintsBody d w) (hf : ∃ v, w = '<' :: v) (hb : d.bounds ≠ none ∨ d.nodes ≠ []) (hd : ImportSpec.Sound d)
    (hr : (d.relations.map (·.id)).Nodup) :
    ∃ fc texts xs, (∃ depth, ∀ n ≥ depth, openSheet T senv n css = .ok fc) ∧ (∀ t ∈ texts, ∃ f, T.file f = some t) ∧ AtlasTexts xs texts ∧
      ∃ x, ImportRelationsSpec.Describes env.eps (fun s => senv.getId s.toList) d x ∧ (ResolveSpec.Sound (withSheet env senv fc).resolver x →
        ∃ es, List.Forall₂ (fun key e => ResolveSpec.Becomes (withSheet env senv fc).resolver x (.old key) e) (ResolveSpec.All x) es ∧ ((∀ e ∈ es, Readable senv P e) →
          ∀ order : List UInt64 → List UInt64, (∀ l, (order l).Perm l) → ∃ N, ∀ n ≥ N,
            ∃ m', Import.importXml (GeoStore.memIface tokens) { withSheet env senv fc with order := order, stack := n } m k target (h ++ (w ++ u)) = (m', .done) ∧
              ∀ q, ∃ old pal, (GeoStore.step (GeoStore.memIface tokens) m (.tile q)).2 = .elements old ∧ palette cast outside texts q = .ok pal ∧
                pal.textures = Atlas.provide outside (entries.filterMap MapCssSpec.Entry.texture?) ∧
                ∀ l, l = old ++ es.filterMap (seen env.eng (wanted senv (rulesOf entries)) target q) →
                  (∀ e ∈ l.flatMap QuadKeyBuilderSpec.parts, ∀ x, Within x e → Readable senv P x ∧ Clear ar senv (decls senv (rulesOf entries) q.lod x) x.tags ∧
                    (Word ar senv x.tags (lastValue (decls senv (rulesOf entries) q.lod x) "building".toList) "true".toList →
                      Showable ar senv (decls senv (rulesOf entries) q.lod x) x.tags "roof-".toList ∧ Showable ar senv (decls senv (rulesOf entries) q.lod x) x.tags "facade-".toList)) →
                  DistinctIds senv (rulesOf entries) q.lod l →
                  ∀ sorted order : List (List Char) → List (List Char), (∀ l, (sorted l).Perm l) → (∀ l, (order l).Perm l) →
                    ∃ t style, loadTile (GeoStore.memIface tokens) senv fc sorted order m' q = .ok t ∧
                      (∀ e ∈ buildWith senv (rulesOf entries) q.lod "building".toList l, ∀ x, Within x e →
                        Told ar senv (paintOf pal) (decls senv (rulesOf entries) q.lod x) (style x) x) ∧
                      ((∀ e ∈ buildWith senv (rulesOf entries) q.lod "building".toList l, Fine style e ∧
                          ∀ part ∈ BuildingSpec.parts style e, Drawable { base with style := style } part) →
                        ∃ ms shown, deliver ar senv (paintOf pal) base fc q.lod (visited "building".toList t) = .ok ms ∧
                          shown.Perm ((buildWith senv (rulesOf entries) q.lod "building".toList l).filter (Delivered style)) ∧
                          List.Forall₂ (fun e m => IsBuilding { base with style := style } e m ∧
                            ShowsColors ar senv xs (decls senv (rulesOf entries) q.lod) { base with style := style } e m) shown ms))) := by
  obtain ⟨texts, xs, t1, t2, t3⟩ := sheet_atlases hT hcss
  obtain ⟨fc, ⟨depth, hopen⟩, x, hx, h1⟩ := C98_load_partial T hcss hg senv hacc hm hskip hclip env hsort tokens hB hu hk ht hh hw hf hb hd hr (u := u)
  have hok : Style.build senv (rulesOf entries) = .ok fc := by
    obtain ⟨depth', hdepth⟩ := C60_parse_partial T css g entries hcss hg
    obtain ⟨sheet, a1, a2⟩ := hdepth (max depth depth') (le_max_right _ _)
    have := hopen (max depth depth') (le_max_left _ _)
    rw [openSheet, a1] at this
    simp only [Outcome.bind] at this
    rwa [a2.1, LoadTileProof.toRule_rulesOf] at this
  refine ⟨fc, texts, xs, ⟨depth, hopen⟩, t1, t2, x, hx, fun hsound => ?_⟩
  obtain ⟨es, h2, h3⟩ := h1 hsound
  refine ⟨es, h2, fun hread order horder => ?_⟩
  obtain ⟨N, h4⟩ := h3 hread order horder
  refine ⟨N, fun n hn => ?_⟩
  obtain ⟨m', h5, h6⟩ := h4 n hn
  refine ⟨m', h5, fun q => ?_⟩
  obtain ⟨old, h7, h8⟩ := h6 q
  refine ⟨old, _, h7, by rw [palette, t3]; rfl, rfl, fun l hl hread' hdis sorted order' hsorted horder' => ?_⟩
  obtain ⟨t, h9, h10⟩ := h8 l hl (fun e he => (hread' e he e (.self e)).1) hdis sorted order' hsorted horder'
  have hp := (h10 "building".toList).2
  have hin : ∀ e ∈ visited "building".toList t, e ∈ l.flatMap QuadKeyBuilderSpec.parts := fun e he => List.mem_of_mem_filter (hp.mem_iff.1 he)
  obtain ⟨pal, style, hpal, h11, h12⟩ := C113_meshes_partial cast hc outside t2 ar hz hs senv hok hm hkeys base q (visited "building".toList t)
    (fun e he x hx => ⟨(hread' e (hin e he) x hx).1, (hread' e (hin e he) x hx).2.1⟩) (fun e he x hx => (hread' e (hin e he) x hx).2.2)
  rw [palette, t3] at hpal
  injection hpal with hpal
  subst hpal
  refine ⟨t, style, h9, fun e he => h11 e (hp.mem_iff.2 he), fun hall => ?_⟩
  obtain ⟨ms, h13, h14⟩ := h12 (fun e he => (hall e (hp.mem_iff.1 he)).1) (fun e he => (hall e (hp.mem_iff.1 he)).2)
  exact ⟨ms, _, h13, hp.filter _, h14⟩

/-- C113 is violated for gradients of several colors on buildings: with `gradient(red, blue)` all that is painted is of one purple color which is not even opaque, whatever the texture is.
Neither red nor blue are to be seen. -/
theorem C113_violated_gradient (cast : List Char → Option ℝ) (hc : Reads cast) (textures : Assoc Nat Atlas.TextureAtlas) (tile : QuadKey) (v : ℝ) (type : Str) (scale : ℝ)
    (seed : UInt64) {look : Building.Look ℝ} (hl : create ⟨cast, textures, tile⟩ "gradient(red, blue)".toList 0 v type scale seed.toNat = .ok look) :
    ∃ n, Packed ⟨127, 0, 127, 254⟩ n ∧ Plainly (paintOf ⟨cast, textures, tile⟩ "gradient(red, blue)".toList v type scale seed) n := by
  have hg : Gradient.loadGradient cast "gradient(red, blue)".toList = .ok [(0, ⟨255, 0, 0, 255⟩), (1, ⟨0, 0, 255, 255⟩)] :=
    (C109_stops_partial cast hc 1 [⟨"red".toList, ⟨255, 0, 0, 255⟩, none⟩, ⟨"blue".toList, ⟨0, 0, 255, 255⟩, none⟩] (by simp) (by
      intro s hs
      simp only [List.mem_cons, List.not_mem_nil, or_false] at hs
      rcases hs with rfl | rfl
      · exact ⟨.name _ _ (by decide +kernel), by simp⟩
      · exact ⟨.name _ _ (by decide +kernel), by simp⟩)).2
  have hhalf : ∀ (x : ℝ) (i : Int), (i : ℝ) ≤ x → x < i + 1 → 0 ≤ i → i < 1000 → Color.toInt x = .ok i := by
    intro x i h1 h2 h3 h4
    unfold Color.toInt
    have hx : 0 ≤ x := le_trans (by exact_mod_cast h3) h1
    have hf : ⌊x⌋ = i := Int.floor_eq_iff.2 ⟨h1, h2⟩
    simp only [if_pos hx, hf]
    rw [if_pos (by omega)]
  have hev : Color.evaluate [((0 : ℝ), (⟨255, 0, 0, 255⟩ : Color)), (1, ⟨0, 0, 255, 255⟩)] (1 / 2) = .ok ⟨127, 0, 127, 254⟩ := by
    have hi : Color.index (1 / 2 : ℝ) [((0 : ℝ), (⟨255, 0, 0, 255⟩ : Color)), (1, ⟨0, 0, 255, 255⟩)] = 1 := by simp [Color.index]
    unfold Color.evaluate
    rw [hi]
    have z : Color.toInt (0 : ℝ) = .ok 0 := hhalf _ _ (by norm_num) (by norm_num) (by norm_num) (by norm_num)
    have y : Color.toInt ((255 : ℝ) * 2⁻¹) = .ok 127 := hhalf _ _ (by norm_num) (by norm_num) (by norm_num) (by norm_num)
    have y' : Color.toInt ((255 : ℝ) * (1 - 2⁻¹)) = .ok 127 := hhalf _ _ (by norm_num) (by norm_num) (by norm_num) (by norm_num)
    simp [Color.interpolate, Color.scale, z, y, y', Outcome.bind]
    decide
  unfold paintOf
  rw [hl]
  unfold create at hl
  obtain ⟨i, -, hl⟩ := TerrainSheetProof.bind_ok hl
  rw [hg, Outcome.bind] at hl
  obtain ⟨group, -, hl⟩ := TerrainSheetProof.bind_ok hl
  obtain ⟨r, -, hl⟩ := TerrainSheetProof.bind_ok hl
  injection hl with hl
  subst hl
  have hcol := color_still ⟨[((0 : ℝ), (⟨255, 0, 0, 255⟩ : Color)), (1, ⟨0, 0, 255, 255⟩)], 0, !r.isEmpty, scale⟩ rfl hev
  exact ⟨_, SurfaceProof.packed_toInt _, fun q => by simp only [TerrainSheet.orElse, lookOf, hcol], fun q => by simp only [TerrainSheet.orElse, lookOf, hcol],
    fun q => by simp only [TerrainSheet.orElse, lookOf, hcol]⟩

/-- C113 is violated for buildings without color: nothing can be found for them. -/
theorem C113_violated_no_color (cast : List Char → Option ℝ) (textures : Assoc Nat Atlas.TextureAtlas) (tile : QuadKey) {v : ℝ} {i : Int} (hv : TerrainSheetSpec.IsWhole v i)
    (h0 : 0 ≤ i) (h1 : i < 65535) (noise : ℝ) (type : Str) (scale : ℝ) (seed : Nat) : create ⟨cast, textures, tile⟩ [] noise v type scale seed = .throw "MapCssException" := by
  have := C109_nothing cast [] (by simp)
  rw [if_pos rfl] at this
  simp only [create, number_of hv h0 h1, Outcome.bind, this]

namespace PaletteProof.Sample
open BuildingSheetProof.Sample

/-- `area|z1-16[a=b] { builder: building; building: true; height: 12m; roof-type: flat; facade-type: flat; roof-color: red; roof-texture-index: 2; roof-texture-type: a;
facade-color: gradient(red, blue); }` -/
def painted : List Declaration := [⟨"builder".toList, "building".toList⟩, ⟨"building".toList, "true".toList⟩, ⟨"height".toList, ['1', '2', 'm']⟩,
  ⟨"roof-type".toList, "flat".toList⟩, ⟨"facade-type".toList, "flat".toList⟩, ⟨"roof-color".toList, ['r', 'e', 'd']⟩, ⟨"roof-texture-index".toList, ['2']⟩,
  ⟨"roof-texture-type".toList, ['a']⟩, ⟨"facade-color".toList, "gradient(red, blue)".toList⟩]

/-- The text of an atlas. -/
def atlas : List Char := "2,8,8 a,0,0,4,4".toList

theorem atlas_text : AtlasTexts [⟨2, 8, 8, [⟨['a'], 0, 0, 4, 4⟩]⟩] [atlas] := by
  refine .cons ⟨atlas, [], (List.append_nil _).symm, ?_, ?_, by simp [Fits]⟩ .nil
  · have hc : Comma [','] := ⟨[], AtlasProof.gap_nil, rfl⟩
    have hb : Gap [' '] := by simp [Gap, Blank]
    refine .mk ⟨2, 8, 8, [⟨['a'], 0, 0, 4, 4⟩]⟩ ['2'] [','] ['8'] [','] ['8'] " a,0,0,4,4".toList (AtlasProof.one_number 2 (by decide)) hc (AtlasProof.one_number 8 (by decide)) hc
      (AtlasProof.one_number 8 (by decide)) (by simp [Apart]) (.one _ _ ?_)
    exact .mk ⟨['a'], 0, 0, 4, 4⟩ [' '] ['0'] [','] ['0'] [','] ['4'] [','] ['4'] hb ⟨by simp, by simp, by simp [Blank]⟩ (AtlasProof.one_number 0 (by decide)) hc
      (AtlasProof.one_number 0 (by decide)) hc (AtlasProof.one_number 4 (by decide)) hc (AtlasProof.one_number 4 (by decide))
  · refine ⟨by simp [Apart], ?_⟩
    rintro ⟨r, w, v, hw, -, h⟩
    obtain ⟨h, -⟩ := List.append_eq_nil_iff.1 h.symm
    cases hw
    simp at h

/-- A conversion of digits. -/
noncomputable def cast (s : List Char) : Option ℝ :=
  if s ≠ [] ∧ s.all Gradient.isDigit then some (number (s.map fun c => c.toNat - 48) : ℝ) else none

theorem cast_reads : Reads cast := by
  intro ds h0 h
  have hall : (ds.map digit).all Gradient.isDigit = true := by
    rw [List.all_eq_true]; exact GradientProof.digits_class h
  have hback : (ds.map digit).map (fun c => c.toNat - 48) = ds := by
    rw [List.map_map]
    conv_rhs => rw [← List.map_id ds]
    apply List.map_congr_left
    intro d hd
    have key : ∀ d < 10, (digit d).toNat - 48 = d := by decide
    exact key d (h d hd)
  rw [cast, if_pos ⟨by simpa using h0, hall⟩, hback]

theorem red : Legible 50 ['r', 'e', 'd'] :=
  .inl ⟨⟨['r', 'e', 'd'], ⟨255, 0, 0, 255⟩, none⟩, ⟨.name _ _ (by decide +kernel), by simp⟩, by decide, rfl⟩

theorem purple : Legible 100 "gradient(red, blue)".toList := by
  refine .inr ⟨1, [⟨"red".toList, ⟨255, 0, 0, 255⟩, none⟩, ⟨"blue".toList, ⟨0, 0, 255, 255⟩, none⟩], by simp, ?_, by simp, rfl⟩
  intro s hs
  simp only [List.mem_cons, List.not_mem_nil, or_false] at hs
  rcases hs with rfl | rfl
  · exact ⟨.name _ _ (by decide +kernel), by simp⟩
  · exact ⟨.name _ _ (by decide +kernel), by simp⟩

theorem weaker {text : Str} (h : Legible 100 text) : Legible 50 text := by
  rcases h with h | ⟨b, l, h1, h2, h3, h4⟩
  · exact .inl h
  · exact .inr ⟨b, l, h1, h2, fun a s b c d => le_trans (by norm_num) (h3 a s b c d), h4⟩

theorem purple_plain : StyleValueSpec.Plain "gradient(red, blue)".toList := plain 'g' "radient(red, blue)".toList (by decide) (by decide)

theorem two_plain : Amount arith strings house.tags (some ['2']) (strings.num ['2']) :=
  .plain _ (plain '2' [] (by decide) (by decide)) ⟨by simp, by decide, by decide⟩

theorem painted_clear : BuildingSheetSpec.Clear arith strings painted house.tags := by
  constructor
  · intro k hk
    simp only [words, List.mem_cons, List.not_mem_nil, or_false] at hk
    rcases hk with rfl | rfl | rfl | rfl | rfl | rfl | rfl | rfl | rfl
    · exact ⟨_, .plain _ (plain 't' ['r', 'u', 'e'] (by decide) (by decide))⟩
    · exact ⟨_, .nothing⟩
    · exact ⟨_, .plain _ (plain 'f' ['l', 'a', 't'] (by decide) (by decide))⟩
    · exact ⟨_, .nothing⟩
    · exact ⟨_, .plain _ (plain 'r' ['e', 'd'] (by decide) (by decide))⟩
    · exact ⟨_, .plain _ (plain 'a' [] (by decide) (by decide))⟩
    · exact ⟨_, .plain _ (plain 'f' ['l', 'a', 't'] (by decide) (by decide))⟩
    · exact ⟨_, .plain _ purple_plain⟩
    · exact ⟨_, .nothing⟩
  · intro k hk
    simp only [amounts, List.mem_cons, List.not_mem_nil, or_false] at hk
    rcases hk with rfl | rfl | rfl | rfl | rfl | rfl | rfl
    · exact ⟨_, .metres ['1', '2']⟩
    · exact ⟨_, .nothing⟩
    · exact ⟨_, .nothing⟩
    · exact ⟨_, two_plain⟩
    · exact ⟨_, .nothing⟩
    · exact ⟨_, .nothing⟩
    · exact ⟨_, .nothing⟩

theorem showable : Showable arith strings painted house.tags "roof-".toList ∧ Showable arith strings painted house.tags "facade-".toList := by
  have hun := fun o => C111_unique_partial arith rfl (fun _ => ⟨rfl, rfl⟩) strings house.tags o
  refine ⟨⟨fun g hg => ?_, fun v hv => ⟨2, ?_, by norm_num, by norm_num⟩⟩, ⟨fun g hg => ?_, fun v hv => ⟨0, ?_, by norm_num, by norm_num⟩⟩⟩
  · rw [(hun _).2 _ _ hg (.plain _ (plain 'r' ['e', 'd'] (by decide) (by decide)))]
    exact red
  · rw [(hun _).1 _ _ hv two_plain]
    norm_num [strings, TerrainSheetSpec.IsWhole]
  · rw [(hun _).2 _ _ hg (.plain _ purple_plain)]
    exact weaker purple
  · rw [(hun _).1 _ _ hv .nothing]
    norm_num [TerrainSheetSpec.IsWhole]

end PaletteProof.Sample
open PaletteProof.Sample

/-- A house with red roof and walls of a gradient, with a texture of an atlas on the roof: one mesh is delivered, and it shows the colors. -/
example (outside : Nat × Nat × Nat × Nat) (paint : BuildingSheet.Paint) (q : QuadKey) (hq : q.lod = 1) : ∃ pal fc style m,
    Style.build BuildingSheetProof.Sample.strings [{ BuildingSheetProof.Sample.rule with declarations := painted }] = .ok fc ∧
    palette PaletteProof.Sample.cast outside [atlas] q = .ok pal ∧
    deliver BuildingSheetProof.Sample.arith BuildingSheetProof.Sample.strings (paintOf pal) (BuildingSheetProof.Sample.ground paint) fc q.lod [BuildingSheetProof.Sample.house] = .ok [m] ∧
    ShowsColors BuildingSheetProof.Sample.arith BuildingSheetProof.Sample.strings [⟨2, 8, 8, [⟨['a'], 0, 0, 4, 4⟩]⟩] (fun _ => painted)
      { BuildingSheetProof.Sample.ground paint with style := style } BuildingSheetProof.Sample.house m ∧
    (BuildingSpec.parts style BuildingSheetProof.Sample.house).length = 1 := by
  open BuildingSheetProof.Sample in
  obtain ⟨fc, hok⟩ : ∃ fc, Style.build strings [{ rule with declarations := painted }] = .ok fc := ⟨_, rfl⟩
  have hw : ∀ x, Within x house → x = house := by
    intro x hx
    cases hx
    rfl
  have hs : StyleEvalSpec.Sane arith := fun _ => ⟨rfl, rfl⟩
  have hds : ∀ x, Within x house → decls strings [{ rule with declarations := painted }] q.lod x = painted := fun x hx => by
    rw [hw x hx, hq]; exact house_decls painted
  obtain ⟨pal, style, hp, h1, h2⟩ := C113_meshes_partial PaletteProof.Sample.cast PaletteProof.Sample.cast_reads outside atlas_text arith rfl hs strings hok (P := (· ∈ table))
    (by unfold Mentions; decide) (by decide) (BuildingSheetProof.Sample.ground paint) q [house] (by
      intro e he x hx
      rw [List.mem_singleton.1 he] at hx
      rw [hds x hx, hw x hx]
      exact ⟨readable, painted_clear⟩) (by
      intro e he x hx _
      rw [List.mem_singleton.1 he] at hx
      rw [hds x hx, hw x hx]
      exact showable)
  have ht := h1 house (by simp) house (.self _)
  rw [hds house (.self _)] at ht
  obtain ⟨b, hb1, hb2, hb3⟩ := ht
  have hun := fun o => C111_unique_partial arith rfl hs strings house.tags o
  have hb : b = "true".toList := (hun _).2 _ _ hb1 (.plain _ (plain 't' ['r', 'u', 'e'] (by decide) (by decide)))
  have hd := hb3 hb
  have hbt : (style house).building = true := hb2.2 hb
  have e3 : (style house).roofType = "flat" := String.toList_inj.1 ((hun _).2 _ _ hd.roofType (.plain _ (plain 'f' ['l', 'a', 't'] (by decide) (by decide))))
  have e4 : (style house).facadeType = "flat" := String.toList_inj.1 ((hun _).2 _ _ hd.facadeType (.plain _ (plain 'f' ['l', 'a', 't'] (by decide) (by decide))))
  have hparts : BuildingSpec.parts style house = [⟨style house, [([⟨0, 0⟩, ⟨4, 0⟩, ⟨4, 3⟩, ⟨0, 3⟩], false)]⟩] := by
    have : (style (.area 7 [⟨0, 1⟩] [⟨0, 0⟩, ⟨0, 4⟩, ⟨3, 4⟩, ⟨3, 0⟩])).building = true := hbt
    simp [house, BuildingSpec.parts, this, BuildingSpec.ground]
  have hopen : PolygonSpec.opened (1 / 1000 : ℝ) [⟨0, 0⟩, ⟨4, 0⟩, ⟨4, 3⟩, ⟨0, 3⟩] = [⟨0, 0⟩, ⟨4, 0⟩, ⟨4, 3⟩, ⟨0, 3⟩] := by
    norm_num [PolygonSpec.opened]
  obtain ⟨ms, h3, h4⟩ := h2 (by intro e he; rw [List.mem_singleton.1 he]; trivial) (by
    intro e he part hp
    rw [List.mem_singleton.1 he, hparts, List.mem_singleton] at hp
    subst hp
    refine ⟨⟨⟨0, 0⟩, _, _, rfl⟩, ?_, ?_, by rw [e3]; decide, e4⟩
    · intro r hr
      rw [List.mem_singleton.1 hr]
      show PolygonSpec.opened (1 / 1000 : ℝ) _ ≠ []
      rw [hopen]
      simp
    · intro p _
      show ∀ t ∈ [((0 : Int), (1 : Int), (2 : Int)), (2, 3, 0)], ∀ c ∈ [t.1, t.2.1, t.2.2], 0 ≤ c ∧ c < 4
      decide)
  have hdel : Delivered style house = true := by
    have : (style (.area 7 [⟨0, 1⟩] [⟨0, 0⟩, ⟨0, 4⟩, ⟨3, 4⟩, ⟨3, 0⟩])).building = true := hbt
    simp only [house, Delivered, this, Bool.and_true, Bool.not_eq_true']
    decide
  rw [List.filter_cons_of_pos hdel, List.filter_nil] at h4
  cases h4 with
  | @cons _ m _ _ hc hl =>
    cases hl
    refine ⟨pal, fc, style, m, hok, hp, h3, ?_, by rw [hparts]; rfl⟩
    obtain ⟨-, faces, f1, f2⟩ := hc
    refine ⟨faces, f1.imp ?_, f2⟩
    rintro part fs ⟨a1, x, a2, a3, a4⟩
    exact ⟨a1, x, a2, a3, by rw [hds x a2] at a4; exact a4⟩

/-- The paint of the palette with the second texture of a group. -/
example (outside : Nat × Nat × Nat × Nat) (tile : QuadKey) : ∃ pal n c, palette PaletteProof.Sample.cast outside [atlas] tile = .ok pal ∧ Hue ['r', 'e', 'd'] c ∧ Packed c n ∧
    Plainly (paintOf pal ['r', 'e', 'd'] 2 ['a'] 1 7) n ∧ Textured [⟨2, 8, 8, [⟨['a'], 0, 0, 4, 4⟩]⟩] 2 ['a'] 7 (paintOf pal ['r', 'e', 'd'] 2 ['a'] 1 7).texture :=
  C113_paint_partial _ PaletteProof.Sample.cast_reads outside atlas_text tile red (v := 2) (i := 2) (by norm_num [TerrainSheetSpec.IsWhole]) (by norm_num) (by norm_num) ['a'] 1 7

end Verif.Props
