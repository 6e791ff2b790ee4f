import Verif.Props.BarrierSheetSpec
import Verif.Props.Barrier
import Verif.Props.Palette
import Verif.Props.Quaternion

/-! # C114: barriers are built as the stylesheet says -/
namespace Verif.Props
open Verif.Clipper (El)
open Verif.Style (Rule Declaration FilterCollection Str)
open Verif.StyleSpec Verif.ShownSpec Verif.LoadTileSpec Verif.BarrierSheet Verif.BarrierSheetSpec Verif.BarrierSpec
open Verif.StyleEval (Arith)
open Verif.BuildingSheet (Paint readLook)
open Verif.BuildingSheetSpec (Amount Word)
open Verif.TerrainSheetSpec (Degrees Part Measure)

namespace BarrierSheetProof
open BuildingSheetProof TerrainSheetProof

variable {ar : Arith ℝ} {senv : Style.Env ℝ} {tags : List Tag} {st : Style.Style} {paint : Paint} {ds : List Declaration}

theorem look_of (hz : ar.zero = 0) (hs : StyleEvalSpec.Sane ar) (hst : ∀ k ∈ keys, st.declarations.find (senv.getId k) = lastValue ds k)
    {look : UInt64 → Building.Look ℝ} (h : LookTold ar senv paint ds tags look) : readLook ar senv paint tags st [] = .ok look := by
  obtain ⟨g, i, t, s, h1, h2, h3, h4, rfl⟩ := h
  unfold readLook
  simp only [List.nil_append]
  rw [value_of hz hs h2 (hst _ (by decide)), Outcome.bind, string_of hs h1 (hst _ (by decide)), Outcome.bind, string_of hs h3 (hst _ (by decide)), Outcome.bind,
    value_of hz hs h4 (hst _ (by decide)), Outcome.bind]

/-- What can be read in degrees can be read in other sizes. -/
theorem part_exists {box : Bbox ℝ} {o : Option Str} {v : ℝ} (h : Degrees ar senv tags box o v) (size : ℝ) : ∃ w, Part ar senv tags size o w := by
  cases h with
  | nothing => exact ⟨_, .nothing⟩
  | metres w => exact ⟨_, .metres w⟩
  | percent w => exact ⟨_, .percent w⟩
  | plain t h1 h2 => exact ⟨_, .plain t h1 h2⟩
  | computed e val v r h1 h2 h3 h4 h5 h6 => exact ⟨_, .computed e val v _ h1 h2 h3 h4 h5 h6⟩

theorem pillar_of (hz : ar.zero = 0) (hs : StyleEvalSpec.Sane ar) (hst : ∀ k ∈ keys, st.declarations.find (senv.getId k) = lastValue ds k) {q : QuadKey}
    {s : Barrier.Style ℝ} (h : Pillars ar senv (Mercator.tileBox q) ds tags s) (look : UInt64 → Building.Look ℝ) :
    readPillar ar senv (Mercator.tileBox q) tags st look = .ok ⟨true, 0, s.height, 0, 0, s.step, s.radiusX, s.radiusZ, look⟩ := by
  obtain ⟨-, h1, h2, r, h3, h4, h5⟩ := h
  obtain ⟨w, hw⟩ := part_exists h3 (Mercator.tileBox q).height
  unfold readPillar
  rw [degrees_of hz hs h3 (hst _ (by decide)), Outcome.bind, part_of hz hs hw (hst _ (by decide)), Outcome.bind, value_of hz hs h1 (hst _ (by decide)), Outcome.bind,
    value_of hz hs h2 (hst _ (by decide)), Outcome.bind, h4, h5]
  norm_num

theorem wall_of (hz : ar.zero = 0) (hs : StyleEvalSpec.Sane ar) (hst : ∀ k ∈ keys, st.declarations.find (senv.getId k) = lastValue ds k) {q : QuadKey}
    {s : Barrier.Style ℝ} (h : Wall ar senv (Mercator.tileBox q) ds tags s) (look : UInt64 → Building.Look ℝ) :
    readWall ar senv (Mercator.tileBox q) tags st look = .ok ⟨false, s.width, s.height, s.length, s.gap, 0, 0, 0, look⟩ := by
  obtain ⟨-, h1, h2, h3, h4⟩ := h
  unfold readWall
  rw [degrees_of hz hs h2 (hst _ (by decide)), Outcome.bind, value_of hz hs h1 (hst _ (by decide)), Outcome.bind, value_of hz hs h3 (hst _ (by decide)), Outcome.bind,
    value_of hz hs h4 (hst _ (by decide)), Outcome.bind]

theorem rotated_eq (j : Nat) : rotated j = ⟨Real.cos (2 * Real.pi * j / 7), 0, - Real.sin (2 * Real.pi * j / 7)⟩ := by
  have h := (C54_angle (Real.sin ((j : ℝ) * (2 * Real.pi / 7) / 2)) (Real.cos ((j : ℝ) * (2 * Real.pi / 7) / 2)) (Real.sin_sq_add_cos_sq _) ⟨0, 1, 0⟩ ⟨1, 0, 0⟩
    (by norm_num [QuaternionSpec.lengthSq]) (by norm_num [Quaternion.Vec3.dot])).2
  have h2 := Real.cos_two_mul' ((j : ℝ) * (2 * Real.pi / 7) / 2)
  have h3 := Real.sin_two_mul ((j : ℝ) * (2 * Real.pi / 7) / 2)
  have h4 : 2 * ((j : ℝ) * (2 * Real.pi / 7) / 2) = 2 * Real.pi * j / 7 := by ring
  rw [h4] at h2 h3
  unfold rotated
  simp only [h, h2, h3]
  simp [Quaternion.Vec3.scale, Quaternion.Vec3.add, Quaternion.Vec3.cross]

theorem env_eq (elevation : Geo ℝ → ℝ) (epsilon : ℝ) (fc : FilterCollection) (q : QuadKey) :
    envOf ar senv paint elevation epsilon fc q = inTile elevation epsilon q (styleOf ar senv paint (Mercator.tileBox q) fc q.lod) := by
  unfold envOf inTile
  congr 1
  funext j
  exact rotated_eq j

theorem distance_range (p r : Geo ℝ) : 0 ≤ Geodesy.distance p r ∧ Geodesy.distance p r < 21474836 := by
  obtain ⟨a, ⟨h1, h2, -⟩, h3, h4⟩ := C69_distance p r
  have := Real.pi_lt_d2
  refine ⟨le_trans (mul_nonneg (by norm_num [GeodesySpec.polarRadius]) h1) h3, lt_of_le_of_lt h4 ?_⟩
  norm_num [GeodesySpec.equatorialRadius]
  linarith

theorem possible {elevation : Geo ℝ → ℝ} {epsilon : ℝ} {q : QuadKey} {style : El → Barrier.Style ℝ} {job : El × UInt64 × List (Geo ℝ)}
    (h : Sensible (inTile elevation epsilon q style) job) : Possible (inTile elevation epsilon q style) job := by
  obtain ⟨h1, h2⟩ := h
  unfold Possible
  simp only
  split_ifs with hp
  · have := h1 hp
    refine ⟨by linarith, fun p _ => ?_⟩
    have hd := distance_range p.1 p.2
    exact ⟨hd.1, lt_of_lt_of_le hd.2 (by linarith)⟩
  · rcases h2 (by simpa using hp) with h | ⟨a, b, c, d⟩
    · exact .inl h
    · refine .inr ⟨a, b, fun p _ => ?_, fun p hp row hrow piece hpiece => ?_⟩
      · have hd := distance_range p.1 p.2
        exact ⟨hd.1, lt_of_lt_of_le hd.2 (by simp only; linarith)⟩
      · have := d p hp row hrow piece hpiece
        simp only [pow_two] at this
        exact this

end BarrierSheetProof

open BarrierSheetProof

/-- C114 (partial): the style which the builder of barriers reads for an element is the one which the rules of the stylesheet describe. -/
theorem C114_style_partial (ar : Arith ℝ) (hz : ar.zero = 0) (hs : StyleEvalSpec.Sane ar) (senv : Style.Env ℝ) {rules : List Rule} {fc : FilterCollection}
    (hok : Style.build senv rules = .ok fc) {P : Str → Prop} (hm : Mentions rules P) (hk : ∀ k ∈ keys, P k) (paint : Paint) (q : QuadKey) (e : El)
    (hr : Readable senv P e) (hc : Clear ar senv paint (Mercator.tileBox q) (decls senv rules q.lod e) e.tags) :
    ∃ s, readElement ar senv paint (Mercator.tileBox q) fc q.lod e = .ok s ∧ Told ar senv paint (Mercator.tileBox q) (decls senv rules q.lod e) e.tags s := by
  obtain ⟨h1, -, -, -⟩ := LoadTileProof.style_of hok hm hr q.lod
  have hst : ∀ k ∈ keys, (Style.forElement senv fc e q.lod.toNat).declarations.find (senv.getId k) = lastValue (decls senv rules q.lod e) k := fun k hk' => h1 k (hk k hk')
  obtain ⟨s, hl, type, ht, h⟩ := hc
  have e1 := look_of hz hs hst hl
  have e2 := BuildingSheetProof.string_of hs ht (hst _ (by decide))
  rcases h with ⟨hp, h⟩ | ⟨hp, h⟩
  · refine ⟨⟨true, 0, s.height, 0, 0, s.step, s.radiusX, s.radiusZ, s.look⟩, ?_, hl, type, ht, .inl ⟨hp, rfl, h.2⟩⟩
    simp only [readElement, e1, e2, Outcome.bind, if_pos hp, pillar_of hz hs hst h]
  · refine ⟨⟨false, s.width, s.height, s.length, s.gap, 0, 0, 0, s.look⟩, ?_, hl, type, ht, .inr ⟨hp, rfl, h.2⟩⟩
    simp only [readElement, e1, e2, Outcome.bind, if_neg hp, wall_of hz hs hst h]

/-- C114 (partial): the builder of barriers gets some elements. Then the callback gets the pillars and walls which the rules of the stylesheet describe for the elements, in order,
and nothing else. Members of relations are built as the rules for the relation say. Missing: styles which cannot be read, and lengths of less than a centimetre. -/
theorem C114_meshes_partial (ar : Arith ℝ) (hz : ar.zero = 0) (hs : StyleEvalSpec.Sane ar) (senv : Style.Env ℝ) {rules : List Rule} {fc : FilterCollection}
    (hok : Style.build senv rules = .ok fc) {P : Str → Prop} (hm : Mentions rules P) (hk : ∀ k ∈ keys, P k) (paint : Paint) (elevation : Geo ℝ → ℝ) {epsilon : ℝ}
    (he : 0 ≤ epsilon) (q : QuadKey) (calls : List El)
    (hr : ∀ e ∈ calls, Readable senv P e ∧ Clear ar senv paint (Mercator.tileBox q) (decls senv rules q.lod e) e.tags) :
    ∃ style, (∀ e ∈ calls, Told ar senv paint (Mercator.tileBox q) (decls senv rules q.lod e) e.tags (style e)) ∧
      ((∀ j ∈ jobs calls, Sensible (inTile elevation epsilon q style) j) →
        ∃ dss, deliver ar senv paint elevation epsilon fc q calls = .ok dss.flatten ∧ List.Forall₂ (Barriers (inTile elevation epsilon q style)) (jobs calls) dss) := by
  refine ⟨styleOf ar senv paint (Mercator.tileBox q) fc q.lod, fun e hin => ?_, fun h => ?_⟩
  · obtain ⟨s, h1, h2⟩ := C114_style_partial ar hz hs senv hok hm hk paint q e (hr e hin).1 (hr e hin).2
    simpa only [styleOf, h1, TerrainSheet.orElse] using h2
  · obtain ⟨dss, h1, h2⟩ := C82_delivered_partial (inTile elevation epsilon q (styleOf ar senv paint (Mercator.tileBox q) fc q.lod))
      (fun x hx => ⟨Real.sqrt_nonneg x, Real.mul_self_sqrt hx⟩) he calls fun j hj => possible (h j hj)
    exact ⟨dss, by rw [deliver, env_eq, h1]; rfl, h2⟩

namespace BarrierSheetProof
open Verif.PaletteSpec (Plainly Uniform Showable Dress AtlasTexts)
open Verif.AtlasSpec Verif.GradientSpec Verif.Palette PaletteProof

theorem wall_colors {w : Along.World ℝ} {look : Building.Look ℝ} {n : Int} (hl : Plainly look n) {size : Barrier.WallSize ℝ} {cs : List (Geo ℝ)} {ts : List (Triangle ℝ)}
    (h : WallFaces w look size cs ts) : ∀ t ∈ ts, t.1.color = n ∧ t.2.1.color = n ∧ t.2.2.color = n := by
  obtain ⟨rows, boxes, -, h, rfl⟩ := h
  generalize rows.flatten = ps at h
  induction h with
  | nil => simp
  | cons h1 _ ih =>
    intro t ht
    rw [List.flatten_cons, List.mem_append] at ht
    rcases ht with ht | ht
    · obtain ⟨v, -, -, -, rfl⟩ := h1
      simp only [boxFaces, sideFaces, ShownSpec.wall, topFace, hl.plane, hl.triangle, List.mem_append, List.mem_cons, List.not_mem_nil, or_false] at ht
      rcases ht with (((((rfl | rfl) | (rfl | rfl)) | (rfl | rfl)) | (rfl | rfl)) | (rfl | rfl)) <;> exact ⟨rfl, rfl, rfl⟩
    · exact ih t ht

theorem tinted_color {look : Building.Look ℝ} {n : Int} (hl : Plainly look n) {move : MeshBuilder.Vec3 ℝ → MeshBuilder.Vec3 ℝ} {t : Triangle ℝ} (h : Tinted look move t) :
    t.1.color = n ∧ t.2.1.color = n ∧ t.2.2.color = n := by
  obtain ⟨p, -, h1, h2, h3⟩ := h
  simp only [hl.triangle] at h1 h2 h3
  exact ⟨h1, h2, h3⟩

theorem uniform_of {look : Building.Look ℝ} {n : Int} {m : MeshBuilder.Mesh ℝ} {ts : List (Triangle ℝ)} (h : BarrierSpec.Textured m look ts)
    (hc : ∀ t ∈ ts, t.1.color = n ∧ t.2.1.color = n ∧ t.2.2.color = n) : ∃ faces, Paints m faces [] ∧ Uniform n look.texture faces := by
  refine ⟨_, h.2, fun f hf => ?_⟩
  obtain ⟨t, ht, rfl⟩ := List.mem_map.1 hf
  exact ⟨rfl, hc t ht⟩

theorem barrier_uniform {env : Barrier.Env ℝ} {job : El × UInt64 × List (Geo ℝ)} {out : List (Along.Delivered ℝ)} (h : Barriers env job out) {n : Int}
    (hl : Plainly ((env.style job.1).look job.2.1) n) : ∀ d ∈ out, ∃ faces, Paints d.mesh faces [] ∧ Uniform n ((env.style job.1).look job.2.1).texture faces := by
  obtain ⟨e, id, cs⟩ := job
  unfold Barriers at h
  simp only at h hl ⊢
  intro d hd
  split_ifs at h with hp
  · match cs with
    | [] =>
      simp only at h
      rw [h] at hd
      cases hd
    | [c] =>
      obtain ⟨m, ts, rfl, -, h1, -, h2⟩ := h
      rw [List.mem_singleton.1 hd]
      exact uniform_of h1 fun t ht => tinted_color hl (h2 t ht)
    | c :: c' :: cs =>
      obtain ⟨m, ts, rows, rfl, -, h1, -, -, h2⟩ := h
      rw [List.mem_singleton.1 hd]
      refine uniform_of h1 fun t ht => ?_
      obtain ⟨s, -, h3⟩ := h2 t ht
      exact tinted_color hl h3
  · obtain ⟨m, ts, rfl, -, h1, h2⟩ := h
    rw [List.mem_singleton.1 hd]
    exact uniform_of h1 (wall_colors hl h2)

theorem jobs_in {calls : List El} {j : El × UInt64 × List (Geo ℝ)} (h : j ∈ jobs calls) : j.1 ∈ calls := by
  unfold jobs at h
  obtain ⟨e, he, h⟩ := List.mem_flatMap.1 h
  obtain ⟨s, -, rfl⟩ := List.mem_map.1 h
  exact he

end BarrierSheetProof

open Verif.PaletteSpec (Showable AtlasTexts)
open Verif.GradientSpec (Reads)
open Verif.Palette (palette paintOf)

/-- C114 (partial): the meshes of barriers have the color and the texture which the rules of the stylesheet declare, the texture being chosen by the id of the element which is
built. Missing: as in `C114_meshes_partial`, and colors which cannot be read. -/
theorem C114_colors_partial (cast : List Char → Option ℝ) (hc : Reads cast) (outside : Nat × Nat × Nat × Nat) {xs : List Atlas.Text} {texts : List (List Char)}
    (hx : AtlasTexts xs texts) (ar : Arith ℝ) (hz : ar.zero = 0) (hs : StyleEvalSpec.Sane ar) (senv : Style.Env ℝ) {rules : List Rule} {fc : FilterCollection}
    (hok : Style.build senv rules = .ok fc) {P : Str → Prop} (hm : Mentions rules P) (hk : ∀ k ∈ keys, P k) (elevation : Geo ℝ → ℝ) {epsilon : ℝ}
    (he : 0 ≤ epsilon) (q : QuadKey) :
    ∃ pal, palette cast outside texts q = .ok pal ∧ ∀ calls : List El,
      (∀ e ∈ calls, Readable senv P e ∧ Clear ar senv (paintOf pal) (Mercator.tileBox q) (decls senv rules q.lod e) e.tags ∧
        Showable ar senv (decls senv rules q.lod e) e.tags []) →
      ∃ style, (∀ e ∈ calls, Told ar senv (paintOf pal) (Mercator.tileBox q) (decls senv rules q.lod e) e.tags (style e)) ∧
        ((∀ j ∈ jobs calls, Sensible (inTile elevation epsilon q style) j) →
          ∃ dss, deliver ar senv (paintOf pal) elevation epsilon fc q calls = .ok dss.flatten ∧
            List.Forall₂ (fun j out => Barriers (inTile elevation epsilon q style) j out ∧ ∀ d ∈ out, Colored ar senv xs j.2.1 (decls senv rules q.lod j.1) j.1.tags d.mesh)
              (jobs calls) dss) := by
  obtain ⟨as, h1, -⟩ := PaletteProof.atlases_of outside hx
  obtain ⟨pal, hp⟩ : ∃ pal, palette cast outside texts q = .ok pal := ⟨_, by rw [palette, h1]; rfl⟩
  refine ⟨pal, hp, fun calls hr => ?_⟩
  obtain ⟨style, h2, h3⟩ := C114_meshes_partial ar hz hs senv hok hm hk (paintOf pal) elevation he q calls fun e hin => ⟨(hr e hin).1, (hr e hin).2.1⟩
  refine ⟨style, h2, fun h => ?_⟩
  obtain ⟨dss, h4, h5⟩ := h3 h
  refine ⟨dss, h4, ?_⟩
  have key : ∀ j ∈ jobs calls, ∀ out, Barriers (inTile elevation epsilon q style) j out → ∀ d ∈ out, Colored ar senv xs j.2.1 (decls senv rules q.lod j.1) j.1.tags d.mesh := by
    intro j hj out hb d hd
    obtain ⟨⟨g, i, t, sc, r1, r2, r3, -, r4⟩, -⟩ := h2 j.1 (jobs_in hj)
    obtain ⟨n, p1, p2⟩ := PaletteProof.dress_of hc hx hp (pre := []) (hr j.1 (jobs_in hj)).2.2 j.2.1 r1 r2 r3 r4
    obtain ⟨faces, f1, f2⟩ := barrier_uniform hb (n := n) p1 d hd
    exact ⟨faces, n, _, f1, f2, p2⟩
  clear h4 h h3
  generalize jobs calls = js at h5 key
  induction h5 with
  | nil => exact .nil
  | cons hb _ ih => exact .cons ⟨hb, key _ List.mem_cons_self _ hb⟩ (ih fun j hj => key j (List.mem_cons_of_mem _ hj))

open Verif.LoadTile Verif.QuadKeyBuilderSpec Verif.ImportSpec Verif.ImportRelationsSpec Verif.GeoStoreSpec GeoStoreProof
open Verif.OsmXmlSpec (Doc Head PrintsBody)

/-- C114 (partial): a stylesheet with the texts of its atlases and an OSM file are read, the file is imported, and a tile is loaded. Then the callback gets the meshes of the
barriers which are to be seen in the tile, as the rules of the stylesheet describe them. Missing: what C98, `C114_meshes_partial` and `C114_colors_partial` leave open. -/
theorem C114_file_partial {K L : Type} [LinearOrder K] (outside : Nat × Nat × Nat × Nat) (T : MapCss.Tools Atlas.TextureAtlas L) (hT : T.atlas = Atlas.parse outside)
    {css g : List Char} {entries : List (MapCssSpec.Entry Atlas.TextureAtlas L)}
    (hcss : MapCssSpec.Reads T css g entries) (hg : MapCssSpec.Gap g) (senv : Style.Env ℝ) (hacc : (Style.build senv (rulesOf entries)).isOk = true)
    {P : Str → Prop} (hm : Mentions (rulesOf entries) P) (hskip : P "skip".toList) (hclip : P "clip".toList) (hkeys : ∀ k ∈ keys, P k)
    (ar : Arith ℝ) (hz : ar.zero = 0) (hs : StyleEvalSpec.Sane ar) (cast : List Char → Option ℝ) (hc : Reads cast) (elevation : QuadKey → Geo ℝ → ℝ) {epsilon : ℝ}
    (he : 0 ≤ epsilon)
    (env : Import.Env) (hsort : OsmSpec.Sorts env.sort) (tokens : El → List UInt32) {m : GeoStore.Map K (MemStore.Store El)}
    {B : Stores K (MemStore.Store El)} (hB : Abs m B) (hu : Used tokens B) {k : K} {s : MemStore.Store El} (hk : B k = some s) {target : Import.Target} (ht : Sensible target)
    {h w u : List Char} {d : Doc} (hh : Head h) (hw : PrintsBody d w) (hf : ∃ v, w = '<' :: v) (hb : d.bounds ≠ none ∨ d.nodes ≠ []) (hd : ImportSpec.Sound d)
    (hr : (d.relations.map (·.id)).Nodup) :
    ∃ fc texts xs, (∃ depth, ∀ n ≥ depth, openSheet T senv n css = .ok fc) ∧ (∀ t ∈ texts, ∃ f, T.file f = some t) ∧ AtlasTexts xs texts ∧
      ∃ x, ImportRelationsSpec.Describes env.eps (fun s => senv.getId s.toList) d x ∧ (ResolveSpec.Sound (withSheet env senv fc).resolver x →
        ∃ es, List.Forall₂ (fun key e => ResolveSpec.Becomes (withSheet env senv fc).resolver x (.old key) e) (ResolveSpec.All x) es ∧ ((∀ e ∈ es, Readable senv P e) →
          ∀ order : List UInt64 → List UInt64, (∀ l, (order l).Perm l) → ∃ N, ∀ n ≥ N,
            ∃ m', Import.importXml (GeoStore.memIface tokens) { withSheet env senv fc with order := order, stack := n } m k target (h ++ (w ++ u)) = (m', .done) ∧
              ∀ q, ∃ old pal, (GeoStore.step (GeoStore.memIface tokens) m (.tile q)).2 = .elements old ∧ palette cast outside texts q = .ok pal ∧
                pal.textures = Atlas.provide outside (entries.filterMap MapCssSpec.Entry.texture?) ∧
                ∀ l, l = old ++ es.filterMap (seen env.eng (wanted senv (rulesOf entries)) target q) →
                  (∀ e ∈ l.flatMap QuadKeyBuilderSpec.parts, Readable senv P e) →
                  (∀ e ∈ buildWith senv (rulesOf entries) q.lod "barrier".toList l,
                    Clear ar senv (paintOf pal) (Mercator.tileBox q) (decls senv (rulesOf entries) q.lod e) e.tags ∧ Showable ar senv (decls senv (rulesOf entries) q.lod e) e.tags []) →
                  DistinctIds senv (rulesOf entries) q.lod l →
                  ∀ sorted order : List (List Char) → List (List Char), (∀ l, (sorted l).Perm l) → (∀ l, (order l).Perm l) →
                    ∃ t style shown, loadTile (GeoStore.memIface tokens) senv fc sorted order m' q = .ok t ∧
                      shown.Perm (buildWith senv (rulesOf entries) q.lod "barrier".toList l) ∧
                      (∀ e ∈ shown, Told ar senv (paintOf pal) (Mercator.tileBox q) (decls senv (rulesOf entries) q.lod e) e.tags (style e)) ∧
                      ((∀ j ∈ jobs shown, BarrierSheetSpec.Sensible (inTile (elevation q) epsilon q style) j) →
                        ∃ dss, deliver ar senv (paintOf pal) (elevation q) epsilon fc q (visited "barrier".toList t) = .ok dss.flatten ∧
                          List.Forall₂ (fun j out => Barriers (inTile (elevation q) epsilon q style) j out ∧
                            ∀ d ∈ out, Colored ar senv xs j.2.1 (decls senv (rulesOf entries) q.lod j.1) j.1.tags d.mesh) (jobs shown) dss))) := by
  obtain ⟨texts, xs, t1, t2, t3⟩ := PaletteProof.sheet_atlases hT hcss
  obtain ⟨fc, ⟨depth, hopen⟩, x, hx, h1⟩ := C98_load_partial T hcss hg senv hacc hm hskip hclip env hsort tokens hB hu hk ht hh hw hf hb hd hr (u := u)
  have hok : Style.build senv (rulesOf entries) = .ok fc := by
    obtain ⟨depth', hdepth⟩ := C60_parse_partial T css g entries hcss hg
    obtain ⟨sheet, a1, a2⟩ := hdepth (max depth depth') (le_max_right _ _)
    have := hopen (max depth depth') (le_max_left _ _)
    rw [openSheet, a1] at this
    simp only [Outcome.bind] at this
    rwa [a2.1, LoadTileProof.toRule_rulesOf] at this
  refine ⟨fc, texts, xs, ⟨depth, hopen⟩, t1, t2, x, hx, fun hsound => ?_⟩
  obtain ⟨es, h2, h3⟩ := h1 hsound
  refine ⟨es, h2, fun hread order horder => ?_⟩
  obtain ⟨N, h4⟩ := h3 hread order horder
  refine ⟨N, fun n hn => ?_⟩
  obtain ⟨m', h5, h6⟩ := h4 n hn
  refine ⟨m', h5, fun q => ?_⟩
  obtain ⟨old, h7, h8⟩ := h6 q
  obtain ⟨pal, hpal, hpal2⟩ := C114_colors_partial cast hc outside t2 ar hz hs senv hok hm hkeys (elevation q) he q
  refine ⟨old, pal, h7, hpal, ?_, fun l hl hread' hclear hdis sorted order' hsorted horder' => ?_⟩
  · rw [palette, t3] at hpal
    injection hpal with hpal
    rw [← hpal]
  obtain ⟨t, h9, h10⟩ := h8 l hl hread' hdis sorted order' hsorted horder'
  have hp := (h10 "barrier".toList).2
  have hin : ∀ e ∈ visited "barrier".toList t, e ∈ l.flatMap QuadKeyBuilderSpec.parts := fun e he => List.mem_of_mem_filter (hp.mem_iff.1 he)
  obtain ⟨style, h11, h12⟩ := hpal2 (visited "barrier".toList t) fun e he => ⟨hread' e (hin e he), hclear e (hp.mem_iff.1 he)⟩
  exact ⟨t, style, visited "barrier".toList t, h9, hp, h11, h12⟩

/-- C114 is violated for stylesheets which forget the lengths of a barrier: they are accepted, but zero is taken for what is not declared, and then the distance of the first two
coordinates of a way is divided by zero and converted to an integer (WallGenerator.hpp:68, MeshUtils.hpp:50). So it is for walls without `length` and `gap`, and for
pillars without `step`. -/
theorem C114_violated_no_length (ar : Arith ℝ) (hz : ar.zero = 0) (hs : StyleEvalSpec.Sane ar) (senv : Style.Env ℝ) {rules : List Rule} {fc : FilterCollection}
    (hok : Style.build senv rules = .ok fc) {P : Str → Prop} (hm : Mentions rules P) (hk : ∀ k ∈ keys, P k) (paint : Paint) (elevation : Geo ℝ → ℝ) (epsilon : ℝ)
    (q : QuadKey) (id : UInt64) (tags : List Tag) (c c' : Geo ℝ) (cs : List (Geo ℝ)) (hr : Readable senv P (.way id tags (c :: c' :: cs)))
    (hc : Clear ar senv paint (Mercator.tileBox q) (decls senv rules q.lod (.way id tags (c :: c' :: cs))) tags)
    (hno : lastValue (decls senv rules q.lod (.way id tags (c :: c' :: cs))) "length".toList = none ∧
      lastValue (decls senv rules q.lod (.way id tags (c :: c' :: cs))) "gap".toList = none ∧
      lastValue (decls senv rules q.lod (.way id tags (c :: c' :: cs))) "step".toList = none) (rest : List El) :
    deliver ar senv paint elevation epsilon fc q (.way id tags (c :: c' :: cs) :: rest) = .ub "conversion to int" := by
  obtain ⟨s, h1, -, type, -, h2⟩ := C114_style_partial ar hz hs senv hok hm hk paint q _ hr hc
  have hun : ∀ v, Amount ar senv tags none v → v = 0 := fun v hv => (C111_unique_partial ar hz hs senv tags none).1 _ _ hv .nothing
  obtain ⟨n1, n2, n3⟩ := hno
  have hst : (envOf ar senv paint elevation epsilon fc q).style (.way id tags (c :: c' :: cs)) = s := by
    simp only [envOf, styleOf, h1, TerrainSheet.orElse]
  have hdiv : ∀ a : ℝ, Along.divInt a 0 = .ub "conversion to int" := fun a => by simp [Along.divInt]
  have key : Barrier.visit (envOf ar senv paint elevation epsilon fc q) {} (.way id tags (c :: c' :: cs)) = .ub "conversion to int" := by
    simp only [Barrier.visit, Barrier.build, Barrier.setStyle, hst]
    rcases h2 with ⟨-, hp, -, hstep, -⟩ | ⟨-, hp, -, -, hl, hg⟩
    · rw [n3] at hstep
      have h0 := hun _ hstep
      obtain ⟨ts, g0, -, -⟩ := BarrierProof.triangles_good (s.look id)
        ((Barrier.pillarCylinder (envOf ar senv paint elevation epsilon fc q) s c).generate (envOf ar senv paint elevation epsilon fc q).world.epsilon (fun v => v))
        (BarrierProof.Grown.start (s.look id).texture (.empty : MeshSpec.Built ({} : MeshBuilder.Mesh ℝ)))
      obtain ⟨proto, e1, -⟩ := g0.texture
      simp only [hp, if_true, Barrier.buildPillar, e1, Outcome.bind, List.isEmpty_cons, Bool.false_eq_true, if_false, List.zip_cons_cons, MeshBuilder.foldO,
        Along.copyMeshAlong, h0, hdiv]
    · rw [n1] at hl
      rw [n2] at hg
      simp only [hp, Bool.false_eq_true, if_false, Barrier.buildWall]
      rw [C81_violated_length _ _ _ (by simp only [hun _ hl, hun _ hg, add_zero])]
      rfl
  simp only [deliver, Barrier.visitAll, key]
  rfl

namespace BarrierSheetProof.Sample
open Verif.PaletteSpec PaletteProof.Sample

/-- The strings which have a number. -/
def table : List Str := [['a'], ['b'], "builder".toList] ++ keys

/-- A string table which knows the numbers of the stylesheet. -/
noncomputable def strings : Style.Env ℝ := ⟨fun s => UInt32.ofNat (table.idxOf s), fun i => table.getD i.toNat [],
  fun s => if s = ['1', '2'] then 12 else if s = ['2'] then 2 else 0, fun _ _ => false, fun _ => none⟩

/-- Arithmetic without numerals in expressions. -/
noncomputable def arith : Arith ℝ := ⟨0, (· + ·), (· - ·), (· * ·), (· / ·), (- ·), fun _ => [], fun _ => none⟩

/-- `way|z1-16[a=b] { ... }` -/
def rule (ds : List Declaration) : Rule := ⟨[⟨["way".toList], ⟨1, 16⟩, [⟨['a'], ['='], ['b']⟩]⟩], ds⟩

/-- `builder: barrier; color: red; texture-index: 2; texture-type: a; height: 2m; width: 2m; length: 12m; gap: 2m;` -/
def walls : List Declaration := [⟨"builder".toList, "barrier".toList⟩, ⟨"color".toList, ['r', 'e', 'd']⟩, ⟨"texture-index".toList, ['2']⟩, ⟨"texture-type".toList, ['a']⟩,
  ⟨"height".toList, ['2', 'm']⟩, ⟨"width".toList, ['2', 'm']⟩, ⟨"length".toList, ['1', '2', 'm']⟩, ⟨"gap".toList, ['2', 'm']⟩]

/-- `builder: barrier; type: pillar; color: red; texture-index: 2; texture-type: a; height: 12m; radius: 2m; step: 12m;` -/
def pillars : List Declaration := [⟨"builder".toList, "barrier".toList⟩, ⟨"type".toList, "pillar".toList⟩, ⟨"color".toList, ['r', 'e', 'd']⟩, ⟨"texture-index".toList, ['2']⟩,
  ⟨"texture-type".toList, ['a']⟩, ⟨"height".toList, ['1', '2', 'm']⟩, ⟨"radius".toList, ['2', 'm']⟩, ⟨"step".toList, ['1', '2', 'm']⟩]

/-- `builder: barrier; color: red;` -/
def nothing : List Declaration := [⟨"builder".toList, "barrier".toList⟩, ⟨"color".toList, ['r', 'e', 'd']⟩]

/-- A fence. -/
def fence : El := .way 7 [⟨0, 1⟩] [⟨0, 0⟩, ⟨0, 4⟩, ⟨3, 4⟩]

theorem back : ∀ s ∈ table, strings.getString (strings.getId s) = s := by
  show ∀ s ∈ table, table.getD (UInt32.ofNat (table.idxOf s)).toNat [] = s
  decide

theorem readable : Readable strings (· ∈ table) fence := by
  refine ⟨⟨back, ?_⟩, by simp [fence, Element.tags], ?_⟩
  · intro t ht _ _
    simp only [fence, Element.tags, List.mem_singleton] at ht
    subst ht
    show UInt32.ofNat (table.idxOf (table.getD (0 : UInt32).toNat [])) = 0 ∧ UInt32.ofNat (table.idxOf (table.getD (1 : UInt32).toNat [])) = 1
    decide
  · intro k _ a ha b hb _ _
    simp only [fence, Element.tags, List.mem_singleton] at ha hb
    rw [ha, hb]

theorem fence_decls (ds : List Declaration) : decls strings [rule ds] 1 fence = ds := by
  have h : idRules strings (1 : ℤ).toNat fence.id [rule ds] = [] := by
    simp [idRules, rule]
  have ha : Applies strings (1 : ℤ).toNat fence.tags ⟨["way".toList], ⟨1, 16⟩, [⟨['a'], ['='], ['b']⟩]⟩ := by
    refine ⟨by unfold InZoom; decide, fun c hc => ?_⟩
    rw [List.mem_singleton.1 hc]
    refine ⟨⟨0, 1⟩, by simp [fence, Element.tags], ?_, .inr (.inl ⟨rfl, ?_⟩)⟩
    · show table.getD (0 : UInt32).toNat [] = ['a']
      decide
    · show table.getD (1 : UInt32).toNat [] = ['b']
      decide
  have hk : kindName (Style.kindOfElement fence) = "way".toList := rfl
  unfold decls
  rw [h]
  simp only [declared, applied, List.flatMap_cons, List.flatMap_nil, List.append_nil]
  conv_lhs => unfold rule
  simp only [List.flatMap_cons, List.flatMap_nil, List.append_nil]
  rw [if_pos ⟨hk.symm, ha⟩]
  exact List.flatten_singleton

open BuildingSheetProof.Sample (plain)

theorem two : Amount arith strings fence.tags (some ['2']) 2 := by
  have := Amount.plain (ar := arith) (senv := strings) (tags := fence.tags) ['2'] (plain '2' [] (by decide) (by decide)) ⟨by simp, by decide, by decide⟩
  simpa [strings] using this

theorem two_metres : Amount arith strings fence.tags (some ['2', 'm']) 2 := by
  have := Amount.metres (ar := arith) (senv := strings) (tags := fence.tags) ['2']
  simpa [strings] using this

theorem twelve : Amount arith strings fence.tags (some ['1', '2', 'm']) 12 := by
  have := Amount.metres (ar := arith) (senv := strings) (tags := fence.tags) ['1', '2']
  simpa [strings] using this

theorem look_walls (paint : Paint) : LookTold arith strings paint walls fence.tags (paint ['r', 'e', 'd'] 2 ['a'] 0) :=
  ⟨_, _, _, _, .plain _ (plain 'r' ['e', 'd'] (by decide) (by decide)), two, .plain _ (plain 'a' [] (by decide) (by decide)), .nothing, rfl⟩

theorem look_pillars (paint : Paint) : LookTold arith strings paint pillars fence.tags (paint ['r', 'e', 'd'] 2 ['a'] 0) :=
  ⟨_, _, _, _, .plain _ (plain 'r' ['e', 'd'] (by decide) (by decide)), two, .plain _ (plain 'a' [] (by decide) (by decide)), .nothing, rfl⟩

theorem clear_walls (paint : Paint) (box : Bbox ℝ) : Clear arith strings paint box walls fence.tags :=
  ⟨⟨false, _, 2, 12, 2, 0, 0, 0, _⟩, look_walls paint, [], .nothing, .inr ⟨by decide, rfl, two_metres, .metres ['2'], twelve, two_metres⟩⟩

theorem clear_pillars (paint : Paint) (box : Bbox ℝ) : Clear arith strings paint box pillars fence.tags :=
  ⟨⟨true, 0, 12, 0, 0, 12, _, _, _⟩, look_pillars paint, "pillar".toList, .plain _ (plain 'p' "illar".toList (by decide) (by decide)),
    .inl ⟨rfl, rfl, twelve, twelve, _, .metres ['2'], rfl, rfl⟩⟩

theorem clear_nothing (paint : Paint) (box : Bbox ℝ) : Clear arith strings paint box nothing fence.tags :=
  ⟨⟨false, 0, 0, 0, 0, 0, 0, 0, paint ['r', 'e', 'd'] 0 [] 0⟩, ⟨_, _, _, _, .plain _ (plain 'r' ['e', 'd'] (by decide) (by decide)), .nothing, .nothing, .nothing, rfl⟩, [],
    .nothing, .inr ⟨by decide, rfl, .nothing, .nothing, .nothing, .nothing⟩⟩

theorem unique (o : Option Str) : (∀ v v', Amount arith strings fence.tags o v → Amount arith strings fence.tags o v' → v = v') ∧
    ∀ w w', Word arith strings fence.tags o w → Word arith strings fence.tags o w' → w = w' :=
  C111_unique_partial arith rfl (fun _ => ⟨rfl, rfl⟩) strings fence.tags o

theorem showable (ds : List Declaration) (hds : ds = walls ∨ ds = pillars) : Showable arith strings ds fence.tags [] := by
  have h1 : lastValue ds ([] ++ "color".toList) = some ['r', 'e', 'd'] := by rcases hds with rfl | rfl <;> rfl
  have h2 : lastValue ds ([] ++ "texture-index".toList) = some ['2'] := by rcases hds with rfl | rfl <;> rfl
  refine ⟨fun g hg => ?_, fun v hv => ⟨2, ?_, by norm_num, by norm_num⟩⟩
  · rw [h1] at hg
    rw [(unique _).2 _ _ hg (.plain _ (plain 'r' ['e', 'd'] (by decide) (by decide)))]
    exact red
  · rw [h2] at hv
    rw [(unique _).1 _ _ hv two]
    norm_num [TerrainSheetSpec.IsWhole]

theorem sensible (ds : List Declaration) (hds : ds = walls ∨ ds = pillars) (paint : Paint) (q : QuadKey) (style : El → Barrier.Style ℝ)
    (h : Told arith strings paint (Mercator.tileBox q) ds fence.tags (style fence)) : ∀ j ∈ jobs [fence], BarrierSheetSpec.Sensible (inTile (fun _ => 100) 0 q style) j := by
  intro j hj
  have hj : j = (fence, 7, [⟨0, 0⟩, ⟨0, 4⟩, ⟨3, 4⟩]) := by simpa [jobs, simple, fence] using hj
  subst hj
  obtain ⟨-, type, ht, h⟩ := h
  rcases hds with rfl | rfl
  · have h0 : type = [] := (unique _).2 _ _ ht .nothing
    rcases h with ⟨h1, -⟩ | ⟨-, h1, -, -, h2, h3⟩
    · rw [h0] at h1
      exact absurd h1 (by decide)
    · have e1 := (unique _).1 _ _ h2 twelve
      have e2 := (unique _).1 _ _ h3 two_metres
      refine ⟨fun hp => by simp only [inTile] at hp; rw [h1] at hp; exact absurd hp (by decide), fun _ => .inr ?_⟩
      simp only [inTile, e1, e2]
      refine ⟨by norm_num, by norm_num, by norm_num, ?_⟩
      rintro p hp row ⟨count, ⟨n, -, hn⟩, rfl⟩ piece hpiece
      obtain ⟨i, -, rfl⟩ := List.mem_map.1 hpiece
      have hcount : (0 : ℝ) < count := by
        have : 0 < count := by omega
        exact_mod_cast this
      apply Real.sqrt_pos.2
      simp only [AlongSpec.parts, List.tail_cons, List.zip_cons_cons, List.zip_nil_right, List.mem_cons, List.not_mem_nil, or_false] at hp
      rcases hp with rfl | rfl
      · have : (AlongSpec.share (⟨0, 0⟩ : Geo ℝ) ⟨0, 4⟩ (((i : ℝ) + 12 / (12 + 2)) / count)).lon - (AlongSpec.share (⟨0, 0⟩ : Geo ℝ) ⟨0, 4⟩ ((i : ℝ) / count)).lon = 24 / 7 / count := by
          simp only [AlongSpec.share]
          field_simp
          ring
        simp only [this]
        positivity
      · have : (AlongSpec.share (⟨0, 4⟩ : Geo ℝ) ⟨3, 4⟩ (((i : ℝ) + 12 / (12 + 2)) / count)).lat - (AlongSpec.share (⟨0, 4⟩ : Geo ℝ) ⟨3, 4⟩ ((i : ℝ) / count)).lat = 18 / 7 / count := by
          simp only [AlongSpec.share]
          field_simp
          ring
        simp only [this]
        positivity
  · have h0 : type = "pillar".toList := (unique _).2 _ _ ht (.plain _ (plain 'p' "illar".toList (by decide) (by decide)))
    rcases h with ⟨-, h1, -, h2, -⟩ | ⟨h1, -⟩
    · have e1 := (unique _).1 _ _ h2 twelve
      refine ⟨fun _ => ?_, fun hp => by simp only [inTile] at hp; rw [h1] at hp; exact absurd hp (by decide)⟩
      simp only [inTile, e1]
      norm_num
    · exact absurd h0 h1

end BarrierSheetProof.Sample
open BarrierSheetProof.Sample PaletteProof.Sample

/-- A red fence of walls or of pillars, with a texture of an atlas: one mesh is delivered for it, and it is in this color. -/
example (outside : Nat × Nat × Nat × Nat) (q : QuadKey) (hq : q.lod = 1) (ds : List Declaration) (hds : ds = walls ∨ ds = pillars) : ∃ pal fc style dss,
    Style.build BarrierSheetProof.Sample.strings [BarrierSheetProof.Sample.rule ds] = .ok fc ∧ palette PaletteProof.Sample.cast outside [atlas] q = .ok pal ∧
    deliver BarrierSheetProof.Sample.arith BarrierSheetProof.Sample.strings (paintOf pal) (fun _ => 100) 0 fc q [fence] = .ok dss ∧
    Barriers (inTile (fun _ => 100) 0 q style) (fence, 7, [⟨0, 0⟩, ⟨0, 4⟩, ⟨3, 4⟩]) dss ∧
    ∀ d ∈ dss, Colored BarrierSheetProof.Sample.arith BarrierSheetProof.Sample.strings [⟨2, 8, 8, [⟨['a'], 0, 0, 4, 4⟩]⟩] 7 ds fence.tags d.mesh := by
  open BarrierSheetProof.Sample in
  obtain ⟨fc, hok⟩ : ∃ fc, Style.build strings [rule ds] = .ok fc := by
    rcases hds with rfl | rfl <;> exact ⟨_, rfl⟩
  have hs : StyleEvalSpec.Sane arith := fun _ => ⟨rfl, rfl⟩
  have hdecls : decls strings [rule ds] q.lod fence = ds := by
    rw [hq]
    exact fence_decls ds
  obtain ⟨pal, hp, h⟩ := C114_colors_partial PaletteProof.Sample.cast PaletteProof.Sample.cast_reads outside atlas_text arith rfl hs strings hok (P := (· ∈ table))
    (by rcases hds with rfl | rfl <;> (unfold Mentions; decide)) (by decide) (fun _ => 100) le_rfl q
  obtain ⟨style, h1, h2⟩ := h [fence] (by
    intro e he
    rw [List.mem_singleton.1 he, hdecls]
    exact ⟨readable, by rcases hds with rfl | rfl; exacts [clear_walls _ _, clear_pillars _ _], BarrierSheetProof.Sample.showable ds hds⟩)
  have h1 := h1 fence List.mem_cons_self
  rw [hdecls] at h1
  obtain ⟨dss, h3, h4⟩ := h2 (sensible ds hds _ q style h1)
  have hj : jobs [fence] = [(fence, 7, [⟨0, 0⟩, ⟨0, 4⟩, ⟨3, 4⟩])] := rfl
  rw [hj] at h4
  cases h4 with
  | cons a b =>
    cases b
    refine ⟨pal, fc, style, _, hok, hp, h3, ?_⟩
    simp only [List.flatten_cons, List.flatten_nil, List.append_nil]
    simpa only [hdecls] using a

/-- A fence without lengths. -/
example (paint : Paint) (q : QuadKey) (hq : q.lod = 1) : ∃ fc, Style.build BarrierSheetProof.Sample.strings [BarrierSheetProof.Sample.rule nothing] = .ok fc ∧
    deliver BarrierSheetProof.Sample.arith BarrierSheetProof.Sample.strings paint (fun _ => 100) 0 fc q [fence] = .ub "conversion to int" := by
  open BarrierSheetProof.Sample in
  obtain ⟨fc, hok⟩ : ∃ fc, Style.build strings [rule nothing] = .ok fc := ⟨_, rfl⟩
  have hdecls : decls strings [rule nothing] q.lod fence = nothing := by
    rw [hq]
    exact fence_decls nothing
  refine ⟨fc, hok, C114_violated_no_length arith rfl (fun _ => ⟨rfl, rfl⟩) strings hok (P := (· ∈ table)) (by unfold Mentions; decide) (by decide) paint _ _ q 7 _ _ _ _ readable ?_ ?_ []⟩
  · rw [show decls strings [rule nothing] q.lod (.way 7 _ _) = _ from hdecls]
    exact clear_nothing _ _
  · rw [show decls strings [rule nothing] q.lod (.way 7 _ _) = _ from hdecls]
    exact ⟨rfl, rfl, rfl⟩

end Verif.Props
