import Verif.Props.TerrainSheetSpec
import Verif.Props.BuildingSheet
import Verif.Props.Surface
import Verif.Props.TerrainMesh

/-! # C112: the ground looks as the stylesheet says -/
namespace Verif.Props
open Verif.Clipper (El)
open Verif.Style (Rule Declaration Str FilterCollection)
open Verif.StyleSpec Verif.LoadTileSpec Verif.TerrainSheet Verif.TerrainSheetSpec Verif.TerrainSpec Verif.ShownSpec
open Verif.BuildingSheetSpec (Word)
open Verif.StyleEval (Arith getString)
open Verif.StyleValue (value valueRelative valueBox valueIn)
open Verif.Terrain (Context BuilderEnv State)

namespace TerrainSheetProof
open StyleValueProof BuildingSheetProof

variable {ar : Arith ℝ} {senv : Style.Env ℝ} {tags : List Tag} {st : Style.Style} {key : Str}

theorem measure_of (hz : ar.zero = 0) (hs : StyleEvalSpec.Sane ar) {metres : ℝ → ℝ} {whole : ℝ} {o : Option Str} {v : ℝ} (h : Measure ar senv tags metres whole o v)
    (hf : st.declarations.find (senv.getId key) = o) (box : Bbox ℝ) (hb : ∀ v, (if box.isValid then Geodesy.getOffset box.center v else v) = metres v) :
    valueIn ar senv tags st key whole box = .ok v := by
  cases h with
  | nothing => simp [valueIn, StyleEval.getValue, hf, hz]
  | metres w =>
    rw [← hb]
    cases hv : box.isValid <;> simp [valueIn, StyleEval.getValue, hf, hv]
  | percent w =>
    simp only [valueIn, StyleEval.getValue, hf, last_append, List.dropLast_concat, if_neg (show ¬ ('%' : Char) = 'm' by decide), if_true]
    congr 1
    ring
  | plain text hp hn =>
    obtain ⟨c, hc, h1, h2⟩ := noDimension_last text hn
    simp [valueIn, StyleEval.getValue, hf, hc, h1, h2, parse_plain ar text hp]
  | computed e val v r ht he h0 h1 hv hr => exact C31_numeric_partial ar hs senv tags ht val e he h0 h1 v _ hv hr st key hf _ _

theorem part_of (hz : ar.zero = 0) (hs : StyleEvalSpec.Sane ar) {size : ℝ} {o : Option Str} {v : ℝ} (h : Part ar senv tags size o v)
    (hf : st.declarations.find (senv.getId key) = o) : valueRelative ar senv tags st key size = .ok v :=
  measure_of hz hs h hf Bbox.empty (by simp [empty_invalid])

theorem count_of (hz : ar.zero = 0) (hs : StyleEvalSpec.Sane ar) {o : Option Str} {v : ℝ} (h : Count ar senv tags o v)
    (hf : st.declarations.find (senv.getId key) = o) : value ar senv tags st key = .ok v := part_of hz hs h hf

theorem degrees_of (hz : ar.zero = 0) (hs : StyleEvalSpec.Sane ar) {q : QuadKey} {o : Option Str} {v : ℝ} (h : Degrees ar senv tags (Mercator.tileBox q) o v)
    (hf : st.declarations.find (senv.getId key) = o) : valueBox ar senv tags st key (Mercator.tileBox q) = .ok v := by
  have hv : (Mercator.tileBox q).isValid = true := by
    have h1 := SurfaceProof.width_pos q
    have h2 := SurfaceProof.height_pos q
    simp only [Bbox.isValid, Bool.and_eq_true, decide_eq_true_eq]
    constructor <;> linarith
  exact measure_of hz hs h hf _ (by simp [hv])

theorem whole_of {x : ℝ} {i : Int} (h : IsWhole x i) : toInt32 x = .ok i := by
  obtain ⟨h1, h2, h4, h5⟩ := h
  have hi : (if 0 ≤ x then ⌊x⌋ else ⌈x⌉) = i := by
    rw [abs_lt] at h2
    split_ifs with h0
    · rw [Int.floor_eq_iff]
      rw [abs_of_nonneg h0] at h1
      exact ⟨(le_abs_self _).trans h1, by linarith⟩
    · push Not at h0
      rw [Int.ceil_eq_iff]
      rw [abs_of_neg h0] at h1
      exact ⟨by linarith, by have := neg_le_abs (i : ℝ); linarith⟩
  unfold toInt32
  simp only [hi]
  rw [if_pos ⟨by omega, by omega⟩]

variable {brush : Brush} {ds : List Declaration} {q : QuadKey}

theorem context_of (hz : ar.zero = 0) (hs : StyleEvalSpec.Sane ar) {pre : Str} (hst : ∀ k ∈ contextKeys, st.declarations.find (senv.getId (pre ++ k)) = lastValue ds (pre ++ k))
    {c : Context ℝ} (h : Sketches ar senv brush (boxOf q) tags ds pre c) : readContext ar senv brush (boxOf q) tags st pre = .ok c := by
  obtain ⟨maxArea, eleNoise, heightOffset, index, type, scale, gradient, colorNoise, meshName, extras, h1, h2, h3, h4, h5, h6, h7, h8, h9, h10, e1, e2, e3, e4, e5, s, e6, e7, e8⟩ := h
  unfold readContext
  rw [show (boxOf q).height * (boxOf q).height = ((boxOf q).hi.lat - (boxOf q).lo.lat) ^ 2 by simp only [Bbox.height]; ring]
  rw [part_of hz hs h1 (hst _ (by decide)), Outcome.bind, part_of (size := (boxOf q).height) hz hs h2 (hst _ (by decide)), Outcome.bind,
    part_of (size := (boxOf q).height) hz hs h3 (hst _ (by decide)), Outcome.bind, count_of hz hs h4 (hst _ (by decide)), Outcome.bind, string_of hs h5 (hst _ (by decide)), Outcome.bind,
    count_of hz hs h6 (hst _ (by decide)), Outcome.bind, string_of hs h7 (hst _ (by decide)), Outcome.bind, degrees_of hz hs h8 (hst _ (by decide)), Outcome.bind,
    string_of hs h9 (hst _ (by decide)), Outcome.bind, string_of hs h10 (hst _ (by decide)), Outcome.bind]
  have hscale : (if scale > 0 then scale else 1) = s := by
    split_ifs with h
    · exact (e6 h).symm
    · exact (e7 (not_lt.1 h)).symm
  rw [hscale, ← e1, ← e2, ← e3, ← e4, ← e5, ← e8]
  cases c
  simp only [String.ofList_toList]

theorem layer_of (hz : ar.zero = 0) (hs : StyleEvalSpec.Sane ar) (hst : ∀ k ∈ elementKeys, st.declarations.find (senv.getId k) = lastValue ds k)
    {s : Terrain.Style ℝ} (h : LayerTold ar senv brush (boxOf q) ds tags s) (default : Context ℝ) :
    ∃ l, readLayer ar senv brush (boxOf q) tags st default = .ok l ∧ ∀ level width, LayerTold ar senv brush (boxOf q) ds tags ⟨l.1, level, width, l.2⟩ := by
  have hk := hst "terrain-layer".toList (by decide)
  rcases h with ⟨h1, h2, h3⟩ | ⟨t, name, h1, h2, h3⟩
  · rw [h1] at hk
    refine ⟨(none, s.context), ?_, fun _ _ => .inl ⟨h1, rfl, h3⟩⟩
    unfold readLayer
    rw [hk]
    simp only
    rw [context_of hz hs (pre := []) (fun k hk => hst k (List.mem_append_right _ hk)) h3]
    rfl
  · rw [h1] at hk
    refine ⟨(some (String.ofList name), default), ?_, fun _ _ => .inr ⟨t, name, h1, h2, rfl⟩⟩
    unfold readLayer
    rw [hk]
    simp only
    rw [string_of hs h2 hk]
    rfl

theorem width_of (hz : ar.zero = 0) (hs : StyleEvalSpec.Sane ar) (hst : ∀ k ∈ elementKeys, st.declarations.find (senv.getId k) = lastValue ds k)
    {s : Terrain.Style ℝ} (h : WidthTold ar senv (boxOf q) ds tags s) : getWidth ar senv (boxOf q) tags st = .ok s.width := by
  obtain ⟨v, h1, h2⟩ := h
  unfold getWidth
  rw [degrees_of hz hs h1 (hst _ (by decide)), Outcome.bind, hst "dimension".toList (by decide)]
  rcases h2 with ⟨h2, h3⟩ | ⟨t, d, h2, h3, h4⟩
  · rw [h2, h3]
  · rw [h2]
    simp only
    rw [degrees_of hz hs h3 ((hst _ (by decide)).trans h2), Outcome.bind, h4]

end TerrainSheetProof
open TerrainSheetProof

/-- C112 (partial): what is read for an element is what the rules of the stylesheet declare for it. Missing: gradients and textures are a parameter, and what C28, C31 and C70 leave open. -/
theorem C112_style_partial (ar : Arith ℝ) (hz : ar.zero = 0) (hs : StyleEvalSpec.Sane ar) (senv : Style.Env ℝ) {rules : List Rule} {fc : FilterCollection}
    (hok : Style.build senv rules = .ok fc) {P : Str → Prop} (hm : Mentions rules P) (hk : ∀ k ∈ elementKeys, P k) (brush : Brush) (q : QuadKey) (default : Context ℝ) (e : El)
    (hr : Readable senv P e) {s : Terrain.Style ℝ} (hc : Told ar senv brush (boxOf q) (decls senv rules q.lod e) s e) (hn : ∀ id t c, e ≠ .node id t c) :
    ∃ s, readElement ar senv brush (boxOf q) default fc q.lod e = .ok s ∧ Told ar senv brush (boxOf q) (decls senv rules q.lod e) s e := by
  obtain ⟨h1, -, -, -⟩ := LoadTileProof.style_of hok hm hr q.lod
  have hst : ∀ k ∈ elementKeys, (Style.forElement senv fc e q.lod.toNat).declarations.find (senv.getId k) = lastValue (decls senv rules q.lod e) k :=
    fun k hk' => h1 k (hk k hk')
  generalize decls senv rules q.lod e = ds at *
  match e with
  | .node id t c => exact absurd rfl (hn id t c)
  | .way id tags cs =>
    obtain ⟨c1, ⟨v, c2, c3⟩, c4⟩ := hc
    obtain ⟨l, l1, l2⟩ := layer_of hz hs hst c1 default
    refine ⟨⟨l.1, s.level, s.width, l.2⟩, ?_, l2 _ _, ⟨v, c2, c3⟩, c4⟩
    unfold readElement
    simp only [Element.tags] at l1 ⊢
    rw [l1, Outcome.bind, count_of hz hs c2 (hst _ (by decide)), Outcome.bind, whole_of c3, Outcome.bind, width_of hz hs hst c4, Outcome.bind]
  | .area id tags cs =>
    obtain ⟨c1, v, c2, c3⟩ := hc
    obtain ⟨l, l1, l2⟩ := layer_of hz hs hst c1 default
    refine ⟨⟨l.1, s.level, 0, l.2⟩, ?_, l2 _ _, v, c2, c3⟩
    unfold readElement
    simp only [Element.tags] at l1 ⊢
    rw [l1, Outcome.bind, count_of hz hs c2 (hst _ (by decide)), Outcome.bind, whole_of c3, Outcome.bind]
  | .relation id tags ms =>
    obtain ⟨l, l1, l2⟩ := layer_of hz hs hst hc default
    refine ⟨⟨l.1, 0, 0, l.2⟩, ?_, l2 _ _⟩
    unfold readElement
    simp only [Element.tags] at l1 ⊢
    rw [l1, Outcome.bind]

namespace TerrainSheetProof

theorem readAll_ok {A B : Type} {f : A → Outcome B} (l : List A) (h : ∀ a ∈ l, ∃ b, f a = .ok b) : ∃ bs, readAll f l = .ok bs ∧ ∀ b ∈ bs, ∃ a ∈ l, f a = .ok b := by
  induction l with
  | nil => exact ⟨[], rfl, by simp⟩
  | cons a l ih =>
    obtain ⟨b, hb⟩ := h a (List.mem_cons_self ..)
    obtain ⟨bs, h1, h2⟩ := ih fun x hx => h x (List.mem_cons_of_mem _ hx)
    refine ⟨b :: bs, by rw [readAll, hb, Outcome.bind, h1, Outcome.bind], fun y hy => ?_⟩
    rcases List.mem_cons.1 hy with rfl | hy
    · exact ⟨a, List.mem_cons_self .., hb⟩
    · obtain ⟨x, hx, hxy⟩ := h2 y hy
      exact ⟨x, List.mem_cons_of_mem _ hx, hxy⟩

/-- The tags of the members of a relation. -/
theorem tags_if (t tags : List Tag) : (if t.isEmpty then tags else t) = if t = [] then tags else t := by
  cases t <;> simp

mutual
theorem asked_reaches (hs : El → Bool) (tags : List Tag) : ∀ (e x : El), x ∈ asked hs tags e → Reaches tags x e ∧ ∀ id t c, x ≠ .node id t c
  | .node .., x, h => by simp [asked] at h
  | .way id t cs, x, h => by
    simp only [asked, List.mem_singleton, TerrainProof.withTags_eq] at h
    subst h
    exact ⟨.self _ _, fun _ _ _ h => by simp [TerrainSpec.tagged] at h⟩
  | .area id t cs, x, h => by
    simp only [asked, List.mem_singleton, TerrainProof.withTags_eq] at h
    subst h
    exact ⟨.self _ _, fun _ _ _ h => by simp [TerrainSpec.tagged] at h⟩
  | .relation id t ms, x, h => by
    rw [asked, List.mem_append, tags_if] at h
    generalize hu : (if t = [] then tags else t) = u at h
    rcases h with h | h
    · obtain ⟨m, hm, h1, h2⟩ := askedMembers_reaches hs u ms x h
      exact ⟨.member hm (hu ▸ h1), h2⟩
    · split at h
      · rw [List.mem_singleton, TerrainProof.withTags_eq] at h
        subst h
        exact ⟨.self _ _, fun _ _ _ h => by simp [TerrainSpec.tagged] at h⟩
      · cases h

theorem askedMembers_reaches (hs : El → Bool) (tags : List Tag) : ∀ (ms : List El) (x : El), x ∈ askedMembers hs tags ms →
    ∃ m ∈ ms, Reaches tags x m ∧ ∀ id t c, x ≠ .node id t c
  | [], x, h => by simp [askedMembers] at h
  | .node id t c :: ms, x, h => by
    rw [askedMembers] at h
    obtain ⟨m, hm, h1⟩ := askedMembers_reaches hs tags ms x h
    exact ⟨m, List.mem_cons_of_mem _ hm, h1⟩
  | .area id t c :: ms, x, h => by
    rw [askedMembers] at h
    obtain ⟨m, hm, h1⟩ := askedMembers_reaches hs tags ms x h
    exact ⟨m, List.mem_cons_of_mem _ hm, h1⟩
  | .way id t cs :: ms, x, h => by
    rw [askedMembers, List.mem_append] at h
    rcases h with h | h
    · split at h
      · exact ⟨_, List.mem_cons_self .., asked_reaches hs tags _ x h⟩
      · cases h
    · obtain ⟨m, hm, h1⟩ := askedMembers_reaches hs tags ms x h
      exact ⟨m, List.mem_cons_of_mem _ hm, h1⟩
  | .relation id t rs :: ms, x, h => by
    rw [askedMembers, List.mem_append] at h
    rcases h with h | h
    · split at h
      · exact ⟨_, List.mem_cons_self .., asked_reaches hs tags _ x h⟩
      · cases h
    · obtain ⟨m, hm, h1⟩ := askedMembers_reaches hs tags ms x h
      exact ⟨m, List.mem_cons_of_mem _ hm, h1⟩
end

variable {K : Type} [Field K] [LinearOrder K] [FloorRing K]

omit [Field K] [LinearOrder K] [FloorRing K] in
theorem layer_context {env : BuilderEnv K} {Q : Context K → Prop} (hQ : ∀ e, Q (env.style e).context) (e : Element (Geo K)) (x : Context K)
    (h : (layerOf (env.style e)).2 = some x) : Q x := by
  unfold layerOf at h
  split at h
  · injection h with h
    exact h ▸ hQ e
  · cases h

mutual
/-- The contexts of regions are those of styles. -/
theorem regions_context (env : BuilderEnv K) (Q : Context K → Prop) (hQ : ∀ e, Q (env.style e).context) (tags : List Tag) :
    ∀ (e : Element (Geo K)) (c : String × Terrain.Region K), c ∈ regionsOf env tags e → ∀ x, c.2.context = some x → Q x
  | .node .., c, h => by simp [regionsOf] at h
  | .way id t cs, c, h => by
    simp only [regionsOf, List.mem_singleton] at h
    subst h
    exact layer_context hQ _
  | .area id t cs, c, h => by
    simp only [regionsOf, List.mem_singleton] at h
    subst h
    exact layer_context hQ _
  | .relation id t ms, c, h => by
    simp only [regionsOf, List.mem_append] at h
    generalize (if t = [] then tags else t) = u at h
    rcases h with h | h
    · exact memberRegions_context env Q hQ u ms c h
    · split at h
      · cases h
      · rw [List.mem_singleton] at h
        subst h
        exact layer_context hQ _

theorem memberRegions_context (env : BuilderEnv K) (Q : Context K → Prop) (hQ : ∀ e, Q (env.style e).context) (tags : List Tag) :
    ∀ (ms : List (Element (Geo K))) (c : String × Terrain.Region K), c ∈ memberRegions env tags ms → ∀ x, c.2.context = some x → Q x
  | [], c, h => by simp [memberRegions] at h
  | .node .. :: ms, c, h => memberRegions_context env Q hQ tags ms c (by simpa [memberRegions] using h)
  | .area .. :: ms, c, h => memberRegions_context env Q hQ tags ms c (by simpa [memberRegions] using h)
  | .way id t cs :: ms, c, h => by
    rw [memberRegions, List.mem_append] at h
    rcases h with h | h
    · split at h
      · exact regions_context env Q hQ tags _ c h
      · cases h
    · exact memberRegions_context env Q hQ tags ms c h
  | .relation id t rs :: ms, c, h => by
    rw [memberRegions, List.mem_append] at h
    rcases h with h | h
    · split at h
      · exact regions_context env Q hQ tags _ c h
      · cases h
    · exact memberRegions_context env Q hQ tags ms c h
end

theorem bind_ok {A B : Type} {o : Outcome A} {f : A → Outcome B} {b : B} (h : o.bind f = .ok b) : ∃ a, o = .ok a ∧ f a = .ok b := by
  cases o with
  | ok a => exact ⟨a, rfl, h⟩
  | throw e => cases h
  | ub w => cases h

variable {ar : Arith ℝ} {senv : Style.Env ℝ} {tags : List Tag} {st : Style.Style} {brush : Brush} {ds : List Declaration} {q : QuadKey} {box : Bbox ℝ}

theorem context_range (ht : Triangulates brush) {pre : Str} {c : Context ℝ} (h : readContext ar senv brush box tags st pre = .ok c) : InRange c := by
  unfold readContext at h
  obtain ⟨a, -, h⟩ := bind_ok h
  obtain ⟨_, -, h⟩ := bind_ok h
  obtain ⟨_, -, h⟩ := bind_ok h
  obtain ⟨_, -, h⟩ := bind_ok h
  obtain ⟨_, -, h⟩ := bind_ok h
  obtain ⟨_, -, h⟩ := bind_ok h
  obtain ⟨_, -, h⟩ := bind_ok h
  obtain ⟨_, -, h⟩ := bind_ok h
  obtain ⟨_, -, h⟩ := bind_ok h
  obtain ⟨_, -, h⟩ := bind_ok h
  injection h with h
  subst h
  exact fun poly => ht a poly

theorem element_range (ht : Triangulates brush) {fc : FilterCollection} {lod : ℤ} {e : El} {default : Context ℝ} (hd : InRange default) {s : Terrain.Style ℝ}
    (h : readElement ar senv brush box default fc lod e = .ok s) : InRange s.context := by
  unfold readElement at h
  obtain ⟨l, h1, h⟩ := bind_ok h
  have hl : InRange l.2 := by
    unfold readLayer at h1
    split at h1
    · obtain ⟨c, h2, h1⟩ := bind_ok h1
      injection h1 with h1
      subst h1
      exact context_range ht h2
    · obtain ⟨_, -, h1⟩ := bind_ok h1
      injection h1 with h1
      subst h1
      exact hd
  cases e with
  | node => injection h with h; subst h; exact hl
  | relation => injection h with h; subst h; exact hl
  | area =>
    obtain ⟨_, -, h⟩ := bind_ok h
    obtain ⟨_, -, h⟩ := bind_ok h
    injection h with h; subst h; exact hl
  | way =>
    obtain ⟨_, -, h⟩ := bind_ok h
    obtain ⟨_, -, h⟩ := bind_ok h
    obtain ⟨_, -, h⟩ := bind_ok h
    injection h with h; subst h; exact hl

theorem named_of (hz : ar.zero = 0) (hs : StyleEvalSpec.Sane ar) {name : Str}
    (hst : ∀ k ∈ "sort-order".toList :: contextKeys, st.declarations.find (senv.getId (name ++ ['-'] ++ k)) = lastValue ds (name ++ ['-'] ++ k)) {order : Int} {c : Context ℝ}
    (h : NamedTold ar senv brush (boxOf q) ds name order c) : readNamed ar senv brush (boxOf q) st name = .ok (order, c) := by
  obtain ⟨⟨v, h1, h2⟩, h3⟩ := h
  have e : name ++ "-sort-order".toList = name ++ ['-'] ++ "sort-order".toList := by rw [List.append_assoc]; rfl
  unfold readNamed
  rw [count_of hz hs h1 ((hst _ (List.mem_cons_self ..)).trans (by rw [e])), Outcome.bind, whole_of h2, Outcome.bind,
    context_of hz hs (fun k hk => hst k (List.mem_cons_of_mem _ hk)) h3, Outcome.bind]

theorem named_range (ht : Triangulates brush) {name : Str} {r : Int × Context ℝ} (h : readNamed ar senv brush box st name = .ok r) : InRange r.2 := by
  unfold readNamed at h
  obtain ⟨_, -, h⟩ := bind_ok h
  obtain ⟨_, -, h⟩ := bind_ok h
  obtain ⟨c, h1, h⟩ := bind_ok h
  injection h with h
  subst h
  exact context_range ht h1

/-- The contexts of what is generated. -/
theorem prepared_context (env : BuilderEnv ℝ) (hsort : Sorts env.sortRegions env.sortLayers) (Q : Context ℝ → Prop) (h1 : ∀ e, Q (env.style e).context)
    (h2 : ∀ name, Q (env.layerContext name)) (es : List El) :
    ∀ r ∈ (env.sortLayers ((es.foldl (fun layers e => Terrain.visit env layers [] e) []).map (Terrain.prepareLayer env))).flatMap Terrain.Layer.regions,
      ∀ c, r.context = some c → Q c := by
  rw [TerrainProof.visits_eq]
  have hm := TerrainProof.mem_addAll ([] : Terrain.Layers ℝ) (es.flatMap (regionsOf env []))
  simp only [List.not_mem_nil, false_and, exists_false, false_or] at hm
  intro r hr c hc
  obtain ⟨l, hl, hr⟩ := List.mem_flatMap.1 hr
  obtain ⟨⟨name, rs⟩, hmem, rfl⟩ := List.mem_map.1 ((hsort.layers_perm _).mem_iff.1 hl)
  unfold Terrain.prepareLayer at hr
  split at hr
  · have hr := (hsort.regions_perm _).mem_iff.1 hr
    unfold Terrain.mergeRegions at hr
    obtain ⟨m, -, rfl⟩ := List.mem_map.1 hr
    injection hc with hc
    exact hc ▸ h2 name
  · have hr := (hsort.regions_perm _).mem_iff.1 hr
    obtain ⟨e, -, he⟩ := List.mem_flatMap.1 ((hm name r).1 ⟨rs, hmem, hr⟩)
    exact regions_context env Q h1 [] e _ he c hc

end TerrainSheetProof

/-- C112 (partial): the ground of a tile looks as the rules of the stylesheet say. The builder works with the layers, levels, widths and looks which the rules declare for elements, and
with those which are declared for layers and the background in rules for the canvas; then each point of the tile is on one piece, that of the layer with the highest order, and
the meshes show the pieces. Missing: gradients and textures are a parameter, the clipping library is a contract (C83), points in paths which are too small, and what C28, C31, C70, C84
and C85 leave open. -/
theorem C112_ground_partial (ar : Arith ℝ) (hz : ar.zero = 0) (hs : StyleEvalSpec.Sane ar) (senv : Style.Env ℝ) {rules : List Rule} {fc : FilterCollection}
    (hok : Style.build senv rules = .ok fc) {P : Str → Prop} (hm : Mentions rules P) (hb : ∀ s, P s → senv.getString (senv.getId s) = s) (hk : ∀ k ∈ elementKeys, P k)
    (hg : P "grid-cell-size".toList) (brush : Brush) (ht : Triangulates brush) (base : Terrain.Env ℝ) (sortRegions : List (Terrain.Region ℝ) → List (Terrain.Region ℝ))
    (sortLayers : List (Terrain.Layer ℝ) → List (Terrain.Layer ℝ)) (hsort : Sorts sortRegions sortLayers) (q : QuadKey) (calls : List El)
    (hc : Clear ar senv brush rules P q calls) :
    ∃ env, Follows ar senv brush rules base q calls env ∧ deliver ar senv brush base sortRegions sortLayers fc q calls = Terrain.build env calls ∧
      ∀ s, Terrain.build env calls = .ok s → ∀ (X : Type) (wind : Terrain.Path → X → Int), Exact base.library wind → IsGround wind env calls s := by
  obtain ⟨hcan, -⟩ := C28_canvas_partial senv rules fc hok q.lod.toNat P hm hb [] hc.conditions
  change ∀ k, P k → _ = lastValue (canvasDecls senv rules q.lod) k at hcan
  obtain ⟨step, c, hcs, hcc⟩ := hc.canvas
  have hctx := context_of hz hs (pre := []) (fun k hk' => hcan k (hk k (List.mem_append_right _ hk'))) hcc
  have hread : readCanvas ar senv brush (boxOf q) (cellOf q) (Style.forCanvas senv fc q.lod.toNat) = .ok (step, c) := by
    unfold readCanvas
    rw [degrees_of hz hs hcs (hcan _ hg), Outcome.bind, hctx, Outcome.bind]
  have hstyle : ∀ e ∈ calls, ∀ x, Reaches [] x e → (∀ id t c, x ≠ .node id t c) → ∃ s, readElement ar senv brush (boxOf q) c fc q.lod x = .ok s ∧
      Told ar senv brush (boxOf q) (decls senv rules q.lod x) s x := by
    intro e he x hx hn
    obtain ⟨h1, s, h2⟩ := hc.elements e he x hx
    exact C112_style_partial ar hz hs senv hok hm hk brush q c x h1 h2 hn
  have hname : ∀ e ∈ calls, ∀ x, Reaches [] x e → ∀ t name, lastValue (decls senv rules q.lod x) "terrain-layer".toList = some t → Word ar senv x.tags (some t) name →
      name ≠ [] → ∃ order c', readNamed ar senv brush (boxOf q) (Style.forCanvas senv fc q.lod.toNat) name = .ok (order, c') ∧
        NamedTold ar senv brush (boxOf q) (canvasDecls senv rules q.lod) name order c' := by
    intro e he x hx t name h1 h2 h3
    obtain ⟨h4, order, c', h5⟩ := hc.layers e he x hx t name h1 h2 h3
    exact ⟨order, c', named_of hz hs (fun k hk' => hcan _ (h4 k hk')) h5, h5⟩
  let env := builderEnv ar senv brush base sortRegions sortLayers fc q.lod (boxOf q) (step, c)
  refine ⟨env, ⟨?_, ?_, ?_, ⟨hcs, hcc⟩, ?_, rfl, rfl⟩, ?_, ?_⟩
  · intro e he x hx
    by_cases hn : ∀ id t c, x ≠ .node id t c
    · obtain ⟨s, h1, h2⟩ := hstyle e he x hx hn
      have : env.style x = s := by
        show orElse (readElement ar senv brush (boxOf q) c fc q.lod x) _ = s
        rw [h1]; rfl
      rwa [this]
    · push Not at hn
      obtain ⟨id, t, c, rfl⟩ := hn
      trivial
  · intro e he x hx
    obtain ⟨h1, -⟩ := hc.elements e he x hx
    exact C28_hasStyle senv rules fc hok x q.lod.toNat P hm h1.1 h1.2
  · intro e he x hx t name h1 h2 h3
    obtain ⟨order, c', h4, h5⟩ := hname e he x hx t name h1 h2 h3
    have : orElse (readNamed ar senv brush (boxOf q) (Style.forCanvas senv fc q.lod.toNat) (String.ofList name).toList) (0, c) = (order, c') := by
      rw [String.toList_ofList, h4]; rfl
    show NamedTold ar senv brush (boxOf q) _ name
      (orElse (readNamed ar senv brush (boxOf q) (Style.forCanvas senv fc q.lod.toNat) (String.ofList name).toList) (0, c)).1
      (orElse (readNamed ar senv brush (boxOf q) (Style.forCanvas senv fc q.lod.toNat) (String.ofList name).toList) (0, c)).2
    rw [this]
    exact h5
  · exact TerrainProof.toPath_eq _
  · have hasked : ∀ x ∈ calls.flatMap (asked (fun e => Style.hasStyle senv fc e q.lod.toNat) []), ∃ e ∈ calls, Reaches [] x e ∧ ∀ id t c, x ≠ .node id t c := by
      intro x hx
      obtain ⟨e, he, hx⟩ := List.mem_flatMap.1 hx
      exact ⟨e, he, asked_reaches _ _ e x hx⟩
    obtain ⟨styles, h1, h2⟩ := readAll_ok (f := readElement ar senv brush (boxOf q) c fc q.lod) _ (fun x hx => by
      obtain ⟨e, he, h1, h2⟩ := hasked x hx
      obtain ⟨s, h3, -⟩ := hstyle e he x h1 h2
      exact ⟨s, h3⟩)
    obtain ⟨layers, h3, -⟩ := readAll_ok (f := fun name : String => readNamed ar senv brush (boxOf q) (Style.forCanvas senv fc q.lod.toNat) name.toList)
      ((styles.filterMap Terrain.Style.layer).filter (· ≠ "")) (fun name hn => by
        obtain ⟨hn, h0⟩ := List.mem_filter.1 hn
        obtain ⟨s, hs1, hs2⟩ := List.mem_filterMap.1 hn
        obtain ⟨x, hx, hxs⟩ := h2 s hs1
        obtain ⟨e, he, hr, hnode⟩ := hasked x hx
        obtain ⟨s', h4, h5⟩ := hstyle e he x hr hnode
        rw [hxs] at h4
        injection h4 with h4
        subst h4
        have hl : LayerTold ar senv brush (boxOf q) (decls senv rules q.lod x) x.tags s := by
          cases x with
          | node id t c => exact absurd rfl (hnode id t c)
          | way => exact h5.1
          | area => exact h5.1
          | relation => exact h5
        rcases hl with ⟨-, hl, -⟩ | ⟨t, name', l1, l2, l3⟩
        · rw [hl] at hs2; cases hs2
        · rw [l3] at hs2
          injection hs2 with hs2
          have h0' : name' ≠ [] := by
            rintro rfl
            rw [← hs2] at h0
            exact absurd h0 (by decide)
          obtain ⟨order, c', h6, -⟩ := hname e he x hr t name' l1 l2 h0'
          exact ⟨_, by rw [← hs2, String.toList_ofList]; exact h6⟩)
    show deliver ar senv brush base sortRegions sortLayers fc q calls = Terrain.build (builderEnv ar senv brush base sortRegions sortLayers fc q.lod (boxOf q) (step, c)) calls
    unfold deliver
    simp only
    rw [show readCanvas ar senv brush (Mercator.tileBox q) (Mercator.tileBox (Mercator.toQuadKey ⟨0, 0⟩ q.lod)) (Style.forCanvas senv fc q.lod.toNat) = .ok (step, c) from hread,
      Outcome.bind, h1, Outcome.bind, h3, Outcome.bind]
  · intro s h X wind hx
    have hc0 : InRange c := context_range ht hctx
    have hs0 : Sorts env.sortRegions env.sortLayers := hsort
    have h1 : ∀ e, InRange (env.style e).context := by
      intro e
      show InRange (orElse (readElement ar senv brush (boxOf q) c fc q.lod e) ⟨none, 0, 0, c⟩).context
      cases hh : readElement ar senv brush (boxOf q) c fc q.lod e with
      | ok s => exact element_range ht hc0 hh
      | throw => exact hc0
      | ub => exact hc0
    have h2 : ∀ name, InRange (env.layerContext name) := by
      intro name
      show InRange (orElse (readNamed ar senv brush (boxOf q) (Style.forCanvas senv fc q.lod.toNat) name.toList) (0, c)).2
      cases hh : readNamed ar senv brush (boxOf q) (Style.forCanvas senv fc q.lod.toNat) name.toList with
      | ok s => exact named_range ht hh
      | throw => exact hc0
      | ub => exact hc0
    obtain ⟨results, r1, r2, r3, -⟩ := C85_meshes env.generator _ (prepared_context env hs0 InRange h1 h2 calls) hc0 s h
    exact ⟨fun x hr hn hsk => C84_owner wind env hx hs0 calls s h x hr hn hsk, results, r1, r2, r3⟩

namespace TerrainSheetProof
open Verif.QuadKeyBuilderSpec Verif.QuadKeyBuilder

theorem visited_calls {C : Type} (b : Name) (t : List (Event C)) : visited b t = visited b (callsOf b t) := by
  induction t with
  | nil => rfl
  | cons ev t ih =>
    unfold visited callsOf at ih ⊢
    by_cases h : target ev = b
    · rw [List.filter_cons_of_pos (by simpa using h), List.filterMap_cons, List.filterMap_cons, ih]
    · rw [List.filter_cons_of_neg (by simpa using h), List.filterMap_cons]
      cases ev with
      | prepare => exact ih
      | complete => exact ih
      | visit b' e =>
        have : b' ≠ b := h
        simp only [if_neg this]
        exact ih

theorem calls_of {C : Type} {b : Name} {t : List (Event C)} (h : LifeCycle b t) :
    callsOf b t = if visited b t = [] then [] else .prepare b :: (visited b t).map (.visit b) ++ [.complete b] := by
  rw [visited_calls]
  rcases h with h | ⟨es, h0, h⟩
  · rw [h]; rfl
  · have hv : visited b (callsOf b t) = es := by
      have : ∀ l : List (Element C), visited b (l.map (.visit b) ++ [.complete b]) = l := by
        intro l
        induction l with
        | nil => rfl
        | cons e l ih =>
          unfold visited at ih ⊢
          simp only [List.map_cons, List.cons_append, List.filterMap_cons, if_true, ih]
      rw [h]
      exact this es
    rw [hv, if_neg h0, h]

variable {ar : Arith ℝ} {senv : Style.Env ℝ} {brush : Brush} {rules : List Rule} {q : QuadKey}

theorem follows_perm {base : Terrain.Env ℝ} {a b : List El} (h : a.Perm b) {env : BuilderEnv ℝ} (hf : Follows ar senv brush rules base q a env) :
    Follows ar senv brush rules base q b env :=
  ⟨fun e he => hf.styles e (h.mem_iff.2 he), fun e he => hf.chosen e (h.mem_iff.2 he), fun e he => hf.layers e (h.mem_iff.2 he), hf.canvas, hf.tile, hf.border, hf.rest⟩

theorem clear_perm {P : Str → Prop} {a b : List El} (h : a.Perm b) (hf : Clear ar senv brush rules P q a) : Clear ar senv brush rules P q b :=
  ⟨fun e he => hf.elements e (h.mem_iff.2 he), fun e he => hf.layers e (h.mem_iff.2 he), hf.canvas, hf.conditions⟩

theorem ground_perm {X : Type} {wind : Terrain.Path → X → Int} {a b : List El} (h : a.Perm b) {env : BuilderEnv ℝ} {s : Terrain.State ℝ} (hf : IsGround wind env a s) :
    IsGround wind env b s := by
  have hm : ∀ c, c ∈ a.flatMap (regionsOf env []) ↔ c ∈ b.flatMap (regionsOf env []) := fun c => (h.flatMap_right _).mem_iff
  refine ⟨fun x hr hn hs => ?_, hf.2⟩
  obtain ⟨p, hp, hc⟩ := hf.1 x hr (fun r hr' => hn r (by
    obtain ⟨c, hc, rfl⟩ := List.mem_map.1 hr'
    exact List.mem_map.2 ⟨c, (hm c).1 hc, rfl⟩)) hs
  refine ⟨p, hp, ?_⟩
  rcases hc with ⟨h1, h2⟩ | ⟨c, h1, h2, h3, h4⟩
  · exact .inl ⟨h1, fun c hc => h2 c ((hm c).2 hc)⟩
  · exact .inr ⟨c, (hm c).1 h1, h2, h3, fun c' hc' => h4 c' ((hm c').2 hc')⟩

end TerrainSheetProof

open Verif.LoadTile Verif.QuadKeyBuilderSpec Verif.ImportSpec Verif.ImportRelationsSpec Verif.GeoStoreSpec GeoStoreProof
open Verif.OsmXmlSpec (Doc Head PrintsBody)

/-- C112 (partial): a stylesheet and an OSM file are read, the file is imported, and a tile is loaded. Then the terrain builder gets the elements which are to be seen in the tile and for
which the rules name it, and the ground it makes of them is as the rules say. If there is no such element, then the builder is not called at all, and there is no ground. Missing:
what C98 and `C112_ground_partial` leave open. -/
theorem C112_file_partial {K A L : Type} [LinearOrder K] (T : MapCss.Tools A L) {css g : List Char} {entries : List (MapCssSpec.Entry A L)}
    (hcss : MapCssSpec.Reads T css g entries) (hg : MapCssSpec.Gap g) (senv : Style.Env ℝ) (hacc : (Style.build senv (rulesOf entries)).isOk = true)
    {P : Str → Prop} (hm : Mentions (rulesOf entries) P) (hback : ∀ s, P s → senv.getString (senv.getId s) = s) (hskip : P "skip".toList) (hclip : P "clip".toList)
    (hkeys : ∀ k ∈ elementKeys, P k) (hcell : P "grid-cell-size".toList) (ar : Arith ℝ) (hz : ar.zero = 0) (hs : StyleEvalSpec.Sane ar) (brush : Brush) (hbr : Triangulates brush)
    (base : Terrain.Env ℝ) (sortRegions : List (Terrain.Region ℝ) → List (Terrain.Region ℝ)) (sortLayers : List (Terrain.Layer ℝ) → List (Terrain.Layer ℝ))
    (hsorts : Sorts sortRegions sortLayers)
    (env : Import.Env) (hsort : OsmSpec.Sorts env.sort) (tokens : El → List UInt32) {m : GeoStore.Map K (MemStore.Store El)}
    {B : Stores K (MemStore.Store El)} (hB : Abs m B) (hu : Used tokens B) {k : K} {s : MemStore.Store El} (hk : B k = some s) {target : Import.Target} (ht : Sensible target)
    {h w u : List Char} {d : Doc} (hh : Head h) (hw : PrintsBody d w) (hf : ∃ v, w = '<' :: v) (hb : d.bounds ≠ none ∨ d.nodes ≠ []) (hd : ImportSpec.Sound d)
    (hr : (d.relations.map (·.id)).Nodup) :
    ∃ fc, (∃ depth, ∀ n ≥ depth, openSheet T senv n css = .ok fc) ∧
      ∃ x, ImportRelationsSpec.Describes env.eps (fun s => senv.getId s.toList) d x ∧ (ResolveSpec.Sound (withSheet env senv fc).resolver x →
        ∃ es, List.Forall₂ (fun key e => ResolveSpec.Becomes (withSheet env senv fc).resolver x (.old key) e) (ResolveSpec.All x) es ∧ ((∀ e ∈ es, Readable senv P e) →
          ∀ order : List UInt64 → List UInt64, (∀ l, (order l).Perm l) → ∃ N, ∀ n ≥ N,
            ∃ m', Import.importXml (GeoStore.memIface tokens) { withSheet env senv fc with order := order, stack := n } m k target (h ++ (w ++ u)) = (m', .done) ∧
              ∀ q, ∃ old, (GeoStore.step (GeoStore.memIface tokens) m (.tile q)).2 = .elements old ∧
                ∀ l es', l = old ++ es.filterMap (seen env.eng (wanted senv (rulesOf entries)) target q) → es' = buildWith senv (rulesOf entries) q.lod "terrain".toList l →
                  (∀ e ∈ l.flatMap QuadKeyBuilderSpec.parts, Readable senv P e) → Clear ar senv brush (rulesOf entries) P q es' →
                  DistinctIds senv (rulesOf entries) q.lod l →
                  ∀ sorted order : List (List Char) → List (List Char), (∀ l, (sorted l).Perm l) → (∀ l, (order l).Perm l) →
                    ∃ t calls benv, loadTile (GeoStore.memIface tokens) senv fc sorted order m' q = .ok t ∧ calls.Perm es' ∧
                      callsOf "terrain".toList t = (if es' = [] then [] else
                        .prepare "terrain".toList :: calls.map (.visit "terrain".toList) ++ [.complete "terrain".toList]) ∧
                      Follows ar senv brush (rulesOf entries) base q es' benv ∧
                      deliver ar senv brush base sortRegions sortLayers fc q calls = Terrain.build benv calls ∧
                      ∀ s, Terrain.build benv calls = .ok s → ∀ (X : Type) (wind : Terrain.Path → X → Int), Exact base.library wind → IsGround wind benv es' s)) := by
  obtain ⟨fc, ⟨depth, hopen⟩, x, hx, h1⟩ := C98_load_partial T hcss hg senv hacc hm hskip hclip env hsort tokens hB hu hk ht hh hw hf hb hd hr (u := u)
  have hok : Style.build senv (rulesOf entries) = .ok fc := by
    obtain ⟨depth', hdepth⟩ := C60_parse_partial T css g entries hcss hg
    obtain ⟨sheet, a1, a2⟩ := hdepth (max depth depth') (le_max_right _ _)
    have := hopen (max depth depth') (le_max_left _ _)
    rw [openSheet, a1] at this
    simp only [Outcome.bind] at this
    rwa [a2.1, LoadTileProof.toRule_rulesOf] at this
  refine ⟨fc, ⟨depth, hopen⟩, x, hx, fun hsound => ?_⟩
  obtain ⟨es, h2, h3⟩ := h1 hsound
  refine ⟨es, h2, fun hread order horder => ?_⟩
  obtain ⟨N, h4⟩ := h3 hread order horder
  refine ⟨N, fun n hn => ?_⟩
  obtain ⟨m', h5, h6⟩ := h4 n hn
  refine ⟨m', h5, fun q => ?_⟩
  obtain ⟨old, h7, h8⟩ := h6 q
  refine ⟨old, h7, fun l es' hl hes hread' hclear hdis sorted order' hsorted horder' => ?_⟩
  obtain ⟨t, h9, h10⟩ := h8 l hl hread' hdis sorted order' hsorted horder'
  obtain ⟨hlife, hp⟩ := h10 "terrain".toList
  rw [← hes] at hp
  obtain ⟨benv, b1, b2, b3⟩ := C112_ground_partial ar hz hs senv hok hm hback hkeys hcell brush hbr base sortRegions sortLayers hsorts q (visited "terrain".toList t)
    (clear_perm hp.symm hclear)
  refine ⟨t, visited "terrain".toList t, benv, h9, hp, ?_, follows_perm hp b1, b2, fun s hs' X wind hx => ground_perm hp (b3 s hs' X wind hx)⟩
  rw [calls_of hlife]
  by_cases h0 : es' = []
  · rw [if_pos h0, if_pos (by subst h0; exact hp.eq_nil)]
  · rw [if_neg h0, if_neg (fun h => h0 (by rw [h] at hp; exact hp.symm.eq_nil))]

namespace TerrainSheetProof.Sample
open BuildingSheetProof.Sample (arith plain)

/-- The strings which have a number. -/
def table : List Str := [['a'], ['b'], "builder".toList, "grid-cell-size".toList] ++ elementKeys ++ ("sort-order".toList :: contextKeys).map fun k => "water-".toList ++ k

/-- A string table which knows the numbers of the stylesheet. -/
noncomputable def strings : Style.Env ℝ := ⟨fun s => UInt32.ofNat (table.idxOf s), fun i => table.getD i.toNat [],
  fun s => if s = ['5'] then 5 else if s = ['2'] then 2 else 0, fun _ _ => false, fun _ => none⟩

/-- `canvas|z1-16 { grid-cell-size: 2%; color: green; water-sort-order: 5; water-color: blue; }` -/
def canvas : Rule := ⟨[⟨["canvas".toList], ⟨1, 16⟩, []⟩],
  [⟨"grid-cell-size".toList, ['2', '%']⟩, ⟨"color".toList, "green".toList⟩, ⟨"water-sort-order".toList, ['5']⟩, ⟨"water-color".toList, "blue".toList⟩]⟩

/-- `area|z1-16[a=b] { builder: terrain; terrain-layer: water; }` -/
def rule : Rule := ⟨[⟨["area".toList], ⟨1, 16⟩, [⟨['a'], ['='], ['b']⟩]⟩], [⟨"builder".toList, "terrain".toList⟩, ⟨"terrain-layer".toList, "water".toList⟩]⟩

/-- A lake. -/
def lake : El := .area 7 [⟨0, 1⟩] [⟨0, 0⟩, ⟨0, 4⟩, ⟨3, 4⟩, ⟨3, 0⟩]

/-- The tile. -/
def tile : QuadKey := ⟨1, 1, 0⟩

theorem mentions : Mentions [canvas, rule] (· ∈ table) := by
  unfold Mentions
  decide +kernel

theorem back : ∀ s ∈ table, strings.getString (strings.getId s) = s := by
  show ∀ s ∈ table, table.getD (UInt32.ofNat (table.idxOf s)).toNat [] = s
  decide +kernel

theorem readable : Readable strings (· ∈ table) lake := by
  refine ⟨⟨back, ?_⟩, by simp [lake, Element.tags], ?_⟩
  · intro t ht _ _
    simp only [lake, Element.tags, List.mem_singleton] at ht
    subst ht
    show UInt32.ofNat (table.idxOf (table.getD (0 : UInt32).toNat [])) = 0 ∧ UInt32.ofNat (table.idxOf (table.getD (1 : UInt32).toNat [])) = 1
    decide +kernel
  · intro k _ a ha b hb _ _
    simp only [lake, Element.tags, List.mem_singleton] at ha hb
    rw [ha, hb]

theorem lake_decls : decls strings [canvas, rule] tile.lod lake = rule.declarations := by
  have h : idRules strings (tile.lod).toNat lake.id [canvas, rule] = [] := by
    simp [idRules, canvas, rule]
  have ha : Applies strings (tile.lod).toNat lake.tags ⟨["area".toList], ⟨1, 16⟩, [⟨['a'], ['='], ['b']⟩]⟩ := by
    refine ⟨by unfold InZoom; decide, fun c hc => ?_⟩
    rw [List.mem_singleton.1 hc]
    refine ⟨⟨0, 1⟩, by simp [lake, Element.tags], ?_, .inr (.inl ⟨rfl, ?_⟩)⟩
    · show table.getD (0 : UInt32).toNat [] = ['a']
      decide
    · show table.getD (1 : UInt32).toNat [] = ['b']
      decide
  have hk : kindName (Style.kindOfElement lake) = "area".toList := rfl
  have hn : ¬ "canvas".toList = kindName (Style.kindOfElement lake) := by rw [hk]; decide
  unfold decls
  rw [h]
  simp only [declared, applied, List.flatMap_cons, List.flatMap_nil, List.append_nil]
  conv_lhs => unfold rule canvas
  simp only [List.flatMap_cons, List.flatMap_nil, List.append_nil]
  rw [if_neg (fun h => hn h.1), if_pos ⟨hk.symm, ha⟩]
  rfl

theorem canvas_decls : canvasDecls strings [canvas, rule] tile.lod = canvas.declarations := by
  have ha : Applies strings (tile.lod).toNat [] ⟨["canvas".toList], ⟨1, 16⟩, []⟩ := by
    refine ⟨by unfold InZoom; decide, fun c hc => by cases hc⟩
  have hk : kindName .canvas = "canvas".toList := rfl
  have hn : ¬ "area".toList = kindName .canvas := by rw [hk]; decide
  simp only [canvasDecls, declared, applied, List.flatMap_cons, List.flatMap_nil, List.append_nil]
  conv_lhs => unfold rule canvas
  simp only [List.flatMap_cons, List.flatMap_nil, List.append_nil]
  rw [if_pos ⟨hk.symm, ha⟩, if_neg (fun h => hn h.1)]
  rfl

theorem nodim (c : Char) (h1 : c ≠ 'm') (h2 : c ≠ '%') : StyleValueSpec.NoDimension [c] := by
  refine ⟨by simp, ?_, ?_⟩
  · rintro ⟨t, ht⟩
    have := congrArg List.getLast? ht
    simp at this
    exact h1 this.symm
  · rintro ⟨t, ht⟩
    have := congrArg List.getLast? ht
    simp at this
    exact h2 this.symm

/-- What is drawn for texts is not looked at here. -/
theorem sketched (brush : Brush) (box : Bbox ℝ) (pre color : Str) (hp : StyleValueSpec.Plain color) (hc : lastValue canvas.declarations (pre ++ "color".toList) = some color)
    (hno : ∀ k ∈ contextKeys, k ≠ "color".toList → lastValue canvas.declarations (pre ++ k) = none) :
    ∃ c, Sketches arith strings brush box [] canvas.declarations pre c := by
  refine ⟨⟨0, "", "", brush.look color 0 0 [] 1, brush.noise 0, brush.triangulate 0⟩, 0, 0, 0, 0, [], 0, color, 0, [], [], ?_⟩
  rw [hc, hno _ (by decide) (by decide), hno _ (by decide) (by decide), hno _ (by decide) (by decide), hno _ (by decide) (by decide), hno _ (by decide) (by decide),
    hno _ (by decide) (by decide), hno _ (by decide) (by decide), hno _ (by decide) (by decide), hno _ (by decide) (by decide)]
  exact ⟨.nothing, .nothing, .nothing, .nothing, .nothing, .nothing, .plain _ hp, .nothing, .nothing, .nothing, rfl, rfl, rfl, rfl, rfl, 1, fun h => absurd h (lt_irrefl _),
    fun _ => rfl, rfl⟩

theorem clear (brush : Brush) : Clear arith strings brush [canvas, rule] (· ∈ table) tile [lake] := by
  have reach : ∀ x, Reaches [] x lake → x = lake := by
    intro x h
    unfold lake at h ⊢
    cases h
    rfl
  refine ⟨?_, ?_, ?_, ?_⟩
  · intro e he x hx
    rw [List.mem_singleton.1 he] at hx
    rw [reach x hx, lake_decls]
    refine ⟨readable, ⟨some "water", 0, 0, ⟨0, "", "", brush.look [] 0 0 [] 1, brush.noise 0, brush.triangulate 0⟩⟩, ?_⟩
    show LayerTold _ _ _ _ _ _ _ ∧ LevelTold _ _ _ _ _
    refine ⟨.inr ⟨_, "water".toList, rfl, .plain _ (plain 'w' ['a', 't', 'e', 'r'] (by decide) (by decide)), rfl⟩, 0, .nothing, ?_⟩
    unfold IsWhole
    norm_num
  · intro e he x hx t name h1 h2 _
    rw [List.mem_singleton.1 he] at hx
    rw [reach x hx] at h1 h2
    rw [lake_decls] at h1
    have ht : t = "water".toList := (Option.some.inj (h1.symm.trans (show lastValue rule.declarations "terrain-layer".toList = some "water".toList by decide)))
    subst ht
    have hw := (C111_unique_partial arith rfl (fun _ => ⟨rfl, rfl⟩) strings lake.tags _).2 _ _ h2
      (.plain _ (plain 'w' ['a', 't', 'e', 'r'] (by decide) (by decide)))
    subst hw
    refine ⟨by decide +kernel, 5, ?_⟩
    rw [canvas_decls]
    obtain ⟨c, hc⟩ := sketched brush (boxOf tile) ("water".toList ++ ['-']) "blue".toList (plain 'b' ['l', 'u', 'e'] (by decide) (by decide)) (by decide) (by decide)
    refine ⟨c, ⟨5, ?_, ?_⟩, hc⟩
    · have := Measure.plain (ar := arith) (senv := strings) (tags := []) (metres := id) (whole := 1) ['5'] (plain '5' [] (by decide) (by decide)) (nodim '5' (by decide) (by decide))
      have h5 : strings.num ['5'] = 5 := rfl
      rw [h5] at this
      exact this
    · unfold IsWhole
      norm_num
  · rw [canvas_decls]
    obtain ⟨c, hc⟩ := sketched brush (boxOf tile) [] "green".toList (plain 'g' ['r', 'e', 'e', 'n'] (by decide) (by decide)) (by decide) (by decide)
    exact ⟨_, c, .percent ['2'], hc⟩
  · intro r hr s hs hn
    rcases List.mem_cons.1 hr with rfl | hr
    · simp only [canvas, List.mem_singleton] at hs
      subst hs
      rfl
    · rw [List.mem_singleton.1 hr] at hs
      simp only [rule, List.mem_singleton] at hs
      subst hs
      exact absurd hn (by decide)

/-- The hypotheses of `C112_ground_partial` hold for a lake and a stylesheet with a layer of water. -/
example (brush : Brush) (ht : Triangulates brush) (base : Terrain.Env ℝ) (sortRegions : List (Terrain.Region ℝ) → List (Terrain.Region ℝ))
    (sortLayers : List (Terrain.Layer ℝ) → List (Terrain.Layer ℝ)) (hsort : Sorts sortRegions sortLayers) :
    ∃ fc env, deliver arith strings brush base sortRegions sortLayers fc tile [lake] = Terrain.build env [lake] ∧ (env.style lake).layer = some "water" ∧ env.layerOrder "water" = 5 := by
  obtain ⟨fc, hok⟩ : ∃ fc, Style.build strings [canvas, rule] = .ok fc := ⟨_, rfl⟩
  obtain ⟨env, h1, h2, -⟩ := C112_ground_partial arith rfl (fun _ => ⟨rfl, rfl⟩) strings hok mentions back (by decide +kernel) (by decide +kernel) brush ht base sortRegions
    sortLayers hsort tile [lake] (clear brush)
  have hr : Reaches [] lake lake := .self [] lake
  have hw : Word arith strings lake.tags (some "water".toList) "water".toList := .plain _ (plain 'w' ['a', 't', 'e', 'r'] (by decide) (by decide))
  have hd : lastValue (decls strings [canvas, rule] tile.lod lake) "terrain-layer".toList = some "water".toList := by rw [lake_decls]; decide
  refine ⟨fc, env, h2, ?_, ?_⟩
  · have := (h1.styles lake (List.mem_singleton_self _) lake hr).1
    rcases this with ⟨h, -⟩ | ⟨t, name, h, hw', hl⟩
    · rw [hd] at h; cases h
    · rw [hd] at h
      injection h with h
      subst h
      have hn := (C111_unique_partial arith rfl (fun _ => ⟨rfl, rfl⟩) strings lake.tags _).2 _ _ hw' hw
      rw [hl, hn]
      rfl
  · obtain ⟨⟨v, hv, hi⟩, -⟩ := h1.layers lake (List.mem_singleton_self _) lake hr _ _ hd hw (by decide)
    rw [canvas_decls, show lastValue canvas.declarations ("water".toList ++ "-sort-order".toList) = some ['5'] by decide] at hv
    have h5 : v = 5 := by
      obtain ⟨st, hst⟩ : ∃ st : Style.Style, st.declarations.find (strings.getId []) = some ['5'] :=
        ⟨{ Style.emptyStyle with declarations := [(strings.getId [], ['5'])] }, by simp [Assoc.find]⟩
      have a := count_of rfl (fun _ => ⟨rfl, rfl⟩) hv hst
      have b := count_of (ar := arith) (senv := strings) (tags := []) rfl (fun _ => ⟨rfl, rfl⟩)
        (Measure.plain ['5'] (plain '5' [] (by decide) (by decide)) (nodim '5' (by decide) (by decide))) hst
      rw [a] at b
      injection b with b
    subst h5
    obtain ⟨i1, i2, -⟩ := hi
    have e : String.ofList "water".toList = "water" := rfl
    rw [e] at i1 i2
    rw [abs_lt] at i2
    rw [abs_of_pos (by norm_num : (0 : ℝ) < 5)] at i1
    have a1 := (le_abs_self _).trans i1
    have a2 : ((4 : Int) : ℝ) < env.layerOrder "water" := by push_cast; linarith
    have a3 : ((env.layerOrder "water" : Int) : ℝ) ≤ ((5 : Int) : ℝ) := by push_cast; exact a1
    have := Int.cast_lt.1 a2
    have := Int.cast_le.1 a3
    omega

end TerrainSheetProof.Sample

end Verif.Props
