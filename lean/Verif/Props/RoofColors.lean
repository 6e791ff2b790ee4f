import Verif.Props.RoofColorsSpec
import Verif.Props.RoofSheet
import Verif.Props.Palette

/-! # C117: colors of buildings with any roof and any walls -/
namespace Verif.Props
open Verif.Clipper (El)
open Verif.Style (Rule Declaration FilterCollection Str)
open Verif.StyleSpec Verif.GradientSpec Verif.ColorSpec Verif.SurfaceSpec Verif.AtlasSpec Verif.ShownSpec Verif.PaletteSpec Verif.LoadTileSpec Verif.RoofSheetSpec
open Verif.RoofColorsSpec
open Verif.StyleEval (Arith)
open Verif.MeshBuilder (Texture Vec2 Vec3)
open Verif.BuildingSheetSpec (Amount Word Within)
open Verif.Palette

namespace RoofColorsProof
open Verif.BuildingSpec Verif.RoofsSpec Verif.CurvedSpec PaletteProof
open Verif.Polygon (Vec)

/-- All triangles have this color. -/
def Colored (n : Int) (ts : List (Triangle ℝ)) : Prop := ∀ t ∈ ts, t.1.color = n ∧ t.2.1.color = n ∧ t.2.2.color = n

variable {look : Building.Look ℝ} {n : Int}

theorem facet_color (hl : Plainly look n) (a b c : Vec3 ℝ) (u v w : Vec2 ℝ) :
    (facet look a b c u v w).1.color = n ∧ (facet look a b c u v w).2.1.color = n ∧ (facet look a b c u v w).2.2.color = n :=
  ⟨hl.triangle _, hl.triangle _, hl.triangle _⟩

theorem whole_color (hl : Plainly look n) {us : List (Tri ℝ)} (f : Tri ℝ → Tri ℝ) : Colored n (us.map fun u => whole look (f u)) := by
  intro t ht
  obtain ⟨u, -, rfl⟩ := List.mem_map.1 ht
  exact facet_color hl _ _ _ _ _ _

theorem flatten_color {ll : List (List (Triangle ℝ))} (h : ∀ l ∈ ll, Colored n l) : Colored n ll.flatten := by
  intro t ht
  obtain ⟨l, hl, ht⟩ := List.mem_flatten.1 ht
  exact h l hl t ht

theorem append_color {a b : List (Triangle ℝ)} (ha : Colored n a) (hb : Colored n b) : Colored n (a ++ b) := by
  intro t ht
  rcases List.mem_append.1 ht with ht | ht
  exacts [ha t ht, hb t ht]

theorem rectangles_color {F : Polygon.Rect ℝ → List (Triangle ℝ) → Prop} (hF : ∀ r ts, F r ts → Colored n ts) {rings : List (List (Vec ℝ))} {ts : List (Triangle ℝ)}
    (h : InRectangles F rings ts) : Colored n ts := by
  obtain ⟨blocks, h1, rfl⟩ := h
  apply flatten_color
  induction h1 with
  | nil => intro l hl; cases hl
  | cons hx _ ih =>
    intro l hl
    rcases List.mem_cons.1 hl with rfl | hl
    · obtain ⟨r, -, hr⟩ := hx
      exact hF r _ hr
    · exact ih l hl

theorem dome_color (hl : Plainly look n) {lib : Roofs.Library ℝ} {bottom : ℝ} (r : Polygon.Rect ℝ) (ts : List (Triangle ℝ)) (h : DomeFaces lib look bottom r ts) : Colored n ts := by
  obtain ⟨us, _, -, -, -, -, -, rfl⟩ := h
  exact whole_color hl _

theorem sphere_color (hl : Plainly look n) {lib : Roofs.Library ℝ} {bottom : ℝ} (r : Polygon.Rect ℝ) (ts : List (Triangle ℝ)) (h : SphereFaces lib look bottom r ts) :
    Colored n ts := by
  obtain ⟨us, -, -, -, rfl⟩ := h
  exact whole_color hl _

theorem tower_color (hl : Plainly look n) {lib : Roofs.Library ℝ} {bottom height : ℝ} (r : Polygon.Rect ℝ) (ts : List (Triangle ℝ))
    (h : TowerFaces lib look bottom height r ts) : Colored n ts := by
  obtain ⟨_, us, -, -, -, -, -, -, -, rfl⟩ := h
  exact whole_color hl id

theorem vault_color (hl : Plainly look n) (lib : Roofs.Library ℝ) (bottom height : ℝ) (a b c d : Vec ℝ) : Colored n (vault lib look bottom height a b c d) := by
  intro t ht
  obtain ⟨j, -, ht⟩ := List.mem_flatMap.1 ht
  simp only [List.mem_cons, List.not_mem_nil, or_false] at ht
  rcases ht with rfl | rfl | rfl | rfl <;> exact facet_color hl _ _ _ _ _ _

theorem slopes_color (hl : Plainly look n) (bottom height : ℝ) (pairs : List (Vec ℝ × Vec ℝ)) : Colored n (slopes look bottom height pairs) := by
  intro t ht
  obtain ⟨j, -, ht⟩ := List.mem_flatMap.1 ht
  simp only [List.mem_cons, List.not_mem_nil, or_false] at ht
  rcases ht with rfl | rfl <;> exact facet_color hl _ _ _ _ _ _

theorem panels_color (hl : Plainly look n) (bottom height : ℝ) (lifted : Vec ℝ → ℝ) (ring : List (Vec ℝ)) (front : Nat) :
    Colored n (panels look bottom height lifted ring front) := by
  intro t ht
  obtain ⟨j, -, ht⟩ := List.mem_flatMap.1 ht
  simp only at ht
  split_ifs at ht
  · cases ht
  · rw [List.mem_singleton.1 ht]; exact facet_color hl _ _ _ _ _ _
  · rw [List.mem_singleton.1 ht]; exact facet_color hl _ _ _ _ _ _
  · simp only [List.mem_cons, List.not_mem_nil, or_false] at ht
    rcases ht with rfl | rfl <;> exact facet_color hl _ _ _ _ _ _

theorem tilted_color (hl : Plainly look n) {lifted : Vec ℝ → ℝ} {io : MeshBuilder.TriangleIo ℝ} {ts : List (Triangle ℝ)}
    (h : List.Forall₂ (fun c t => ∃ a b d : Corner ℝ, IsPoint io (fun _ q => (lifted ⟨q.x, q.y⟩, look.pointColor q, look.pointUv q)) c.1 a ∧
      IsPoint io (fun _ q => (lifted ⟨q.x, q.y⟩, look.pointColor q, look.pointUv q)) c.2.1 b ∧
      IsPoint io (fun _ q => (lifted ⟨q.x, q.y⟩, look.pointColor q, look.pointUv q)) c.2.2 d ∧ OtherSide t (a, b, d)) io.triangles ts) : Colored n ts := by
  have hp : ∀ c corner, IsPoint io (fun _ q => (lifted ⟨q.x, q.y⟩, look.pointColor q, look.pointUv q)) c corner → corner.color = n := by
    rintro c corner ⟨j, p, -, -, rfl⟩
    exact hl.point p
  generalize io.triangles = cs at h
  induction h with
  | nil => intro t ht; cases ht
  | cons hx _ ih =>
    intro t ht
    rcases List.mem_cons.1 ht with rfl | ht
    · obtain ⟨a, b, d, h1, h2, h3, h4⟩ := hx
      have ha := hp _ _ h1
      have hb := hp _ _ h2
      have hd := hp _ _ h3
      simp only [OtherSide, SameSide, List.mem_cons, List.not_mem_nil, or_false, Prod.mk.injEq] at h4
      rcases h4 with ⟨e1, e2, e3⟩ | ⟨e1, e2, e3⟩ | ⟨e1, e2, e3⟩ <;> rw [e1, e2, e3]
      exacts [⟨ha, hd, hb⟩, ⟨hb, ha, hd⟩, ⟨hd, hb, ha⟩]
    · exact ih t ht

theorem shape_roof {lib : Roofs.Library ℝ} {env : Building.Env ℝ} {part : BuildingSpec.Part ℝ} (hl : Plainly look n) {io : MeshBuilder.TriangleIo ℝ}
    {outlines holes : List (List (Vec ℝ))} {top : ℝ} {roof : List (Triangle ℝ)} (h : RoofShape lib env part look io outlines holes top roof) : Colored n roof := by
  cases h with
  | plain h => exact roof_color hl h
  | dome _ h => exact rectangles_color (dome_color hl) h
  | round _ h1 h2 =>
    by_cases hh : holes = []
    · obtain ⟨vaults, hv, rfl⟩ := h1 hh
      apply flatten_color
      clear h1 h2
      induction hv with
      | nil => intro l hl; cases hl
      | cons hx _ ih =>
        intro l hl'
        rcases List.mem_cons.1 hl' with rfl | hl'
        · obtain ⟨a, b, c, d, -, rfl⟩ := hx
          exact vault_color hl _ _ _ _ _ _ _
        · exact ih l hl'
    · exact flat_color hl (h2 hh)
  | mansard ring first rest s _ _ _ _ _ _ h =>
    obtain ⟨p, flat, -, h3, rfl⟩ := h
    exact append_color (flat_color hl h3) (slopes_color hl _ _ _)
  | mansardFlat _ _ _ _ _ _ _ h => exact flat_color hl h
  | skillion ring x f k _ _ _ _ _ _ h =>
    obtain ⟨surface, h1, rfl⟩ := h
    exact append_color (panels_color hl _ _ _ _ _) (tilted_color hl h1)
  | skillionFlat _ _ _ _ _ _ _ h => exact flat_color hl h

theorem shape_walls {lib : Roofs.Library ℝ} (hl : Plainly look n) {type : String} {bottom top : ℝ} {outlines holes : List (List (Vec ℝ))} {ts : List (Triangle ℝ)}
    (h : AnyFacade lib look type bottom top outlines holes ts) : Colored n ts := by
  rcases h with ⟨-, rfl⟩ | ⟨-, h⟩ | ⟨-, r, -, h⟩
  · intro t ht
    obtain ⟨r, -, ht⟩ := List.mem_flatMap.1 ht
    exact wall_color hl t ht
  · exact rectangles_color (tower_color hl) h
  · exact sphere_color hl r ts h

theorem shape_color {lib : Roofs.Library ℝ} {env : Building.Env ℝ} {id : UInt64} {part : BuildingSpec.Part ℝ} {faces : List (Triangle ℝ × Texture)}
    (h : PartShape lib env id part faces) {n k : Int} (hr : Plainly (part.style.roofLook id) n) (hw : Plainly (part.style.facadeLook id) k) :
    ∃ tops walls, faces = tops ++ walls ∧ Uniform n (part.style.roofLook id).texture tops ∧ Uniform k (part.style.facadeLook id).texture walls := by
  obtain ⟨start, ring, rest, p, holes, bottom, top, roof, floor, walls, -, -, -, -, -, -, -, h1, h2, h3, rfl⟩ := h
  refine ⟨_, _, rfl, ?_, ?_⟩
  · intro f hf
    obtain ⟨t, ht, rfl⟩ := List.mem_map.1 hf
    refine ⟨rfl, ?_⟩
    rcases List.mem_append.1 ht with ht | ht
    · exact shape_roof hr h1 t ht
    · split_ifs at h3
      · exact flat_color hr h3 t ht
      · rw [h3] at ht; cases ht
  · intro f hf
    obtain ⟨t, ht, rfl⟩ := List.mem_map.1 hf
    exact ⟨rfl, shape_walls hw h2 t ht⟩

variable {ar : Arith ℝ} {senv : Style.Env ℝ}

/-- A building whose looks come from a palette. -/
theorem house_colors {cast : List Char → Option ℝ} (hc : Reads cast) {outside : Nat × Nat × Nat × Nat} {xs : List Atlas.Text} {texts : List (List Char)}
    (hx : AtlasTexts xs texts) {tile : QuadKey} {pal : Palette} (hp : palette cast outside texts tile = .ok pal) {decls : El → List Declaration}
    {lib : Roofs.Library ℝ} {env : Building.Env ℝ} {e : El} (htold : ∀ x, Within x e → BuildingSheetSpec.Told ar senv (paintOf pal) (decls x) (env.style x) x)
    (hshow : ∀ x, Within x e → Word ar senv x.tags (lastValue (decls x) "building".toList) "true".toList →
      Showable ar senv (decls x) x.tags "roof-".toList ∧ Showable ar senv (decls x) x.tags "facade-".toList)
    {m : UInt64 × MeshBuilder.Mesh ℝ} (h : IsHouse lib env e m) : ShowsHouse ar senv xs decls lib env e m := by
  obtain ⟨-, faces, h1, h2, -⟩ := h
  refine ⟨faces, ?_, h2⟩
  have key : ∀ part ∈ BuildingSpec.parts env.style e, ∀ fs, PartShape lib env e.id part fs →
      ∃ x, Within x e ∧ part.style = env.style x ∧ Dressed ar senv xs e.id.toNat (decls x) x.tags fs := by
    intro part hpart fs hfs
    obtain ⟨x, hw, hst, hd⟩ := parts_within env.style e part hpart
    obtain ⟨hb, hdes⟩ := describes_of (htold x hw) hd
    obtain ⟨s1, s2⟩ := hshow x hw hb
    obtain ⟨g, i, t, sc, r1, r2, r3, -, r4⟩ := hdes.roofLook
    obtain ⟨g', i', t', sc', f1, f2, f3, -, f4⟩ := hdes.facadeLook
    obtain ⟨n, p1, d1⟩ := dress_of hc hx hp s1 e.id r1 r2 r3 r4
    obtain ⟨k, p2, d2⟩ := dress_of hc hx hp s2 e.id f1 f2 f3 f4
    rw [← hst] at p1 d1 p2 d2
    obtain ⟨tops, walls, q1, q2, q3⟩ := shape_color hfs p1 p2
    exact ⟨x, hw, hst, tops, walls, n, _, k, _, q1, q2, d1, q3, d2⟩
  clear h2
  generalize BuildingSpec.parts env.style e = ps at h1 key
  induction h1 with
  | nil => exact .nil
  | cons hf _ ih => exact .cons ⟨hf, key _ List.mem_cons_self _ hf⟩ (ih fun part hp => key part (List.mem_cons_of_mem _ hp))

end RoofColorsProof

open PaletteProof RoofColorsProof
open Verif.BuildingSpec (Fine Delivered)
open Verif.BuildingSheetSpec (Told Clear words amounts)
open Verif.BuildingSheet (deliver)

/-- C117 (partial): the builder of buildings gets some elements. Then the mesh of each building shows its parts with any roofs and any walls, and roofs, floors and walls have the colors and the textures which
the rules of the stylesheet declare for them, the texture being chosen by the id of the building. Missing: as in `C117_meshes_partial`, and colors which cannot be read. -/
theorem C117_colors_partial (cast : List Char → Option ℝ) (hc : Reads cast) (outside : Nat × Nat × Nat × Nat) {xs : List Atlas.Text} {texts : List (List Char)}
    (hx : AtlasTexts xs texts) (ar : Arith ℝ) (hz : ar.zero = 0) (hs : StyleEvalSpec.Sane ar) (senv : Style.Env ℝ) {rules : List Rule} {fc : FilterCollection}
    (hok : Style.build senv rules = .ok fc) {P : Str → Prop} (hm : Mentions rules P) (hk : ∀ k ∈ words ++ amounts, P k) {lib : Roofs.Library ℝ} (hlib : RoofsSpec.Standard lib) (base : Building.Env ℝ) (q : QuadKey)
    (calls : List El) (hr : ∀ e ∈ calls, ∀ x, Within x e → Readable senv P x ∧ Clear ar senv (decls senv rules q.lod x) x.tags)
    (hshow : ∀ e ∈ calls, ∀ x, Within x e → Word ar senv x.tags (lastValue (decls senv rules q.lod x) "building".toList) "true".toList →
      Showable ar senv (decls senv rules q.lod x) x.tags "roof-".toList ∧ Showable ar senv (decls senv rules q.lod x) x.tags "facade-".toList) :
    ∃ pal style, palette cast outside texts q = .ok pal ∧ (∀ e ∈ calls, ∀ x, Within x e → Told ar senv (paintOf pal) (decls senv rules q.lod x) (style x) x) ∧
      ((∀ e ∈ calls, Fine style e) → (∀ e ∈ calls, ∀ part ∈ BuildingSpec.parts style e, Able lib { base with style := style } part) →
        ∃ ms, deliver ar senv (paintOf pal) (Roofs.complete lib base) fc q.lod calls = .ok ms ∧
          List.Forall₂ (fun e m => IsHouse lib { base with style := style } e m ∧ ShowsHouse ar senv xs (decls senv rules q.lod) lib { base with style := style } e m)
            (calls.filter (Delivered style)) ms) := by
  obtain ⟨as, h1, -⟩ := atlases_of outside hx
  obtain ⟨pal, hp⟩ : ∃ pal, palette cast outside texts q = .ok pal := ⟨_, by rw [palette, h1]; rfl⟩
  obtain ⟨style, h2, h3⟩ := C117_meshes_partial ar hz hs senv hok hm hk (paintOf pal) hlib base q.lod calls hr
  refine ⟨pal, style, hp, h2, fun hfine hdraw => ?_⟩
  obtain ⟨ms, h4, h5⟩ := h3 hfine hdraw
  refine ⟨ms, h4, ?_⟩
  have hmem : ∀ e ∈ calls.filter (Delivered style), e ∈ calls := fun e he => (List.mem_filter.1 he).1
  generalize calls.filter (Delivered style) = shown at h5 hmem
  clear h4
  induction h5 with
  | nil => exact .nil
  | cons hb _ ih =>
    exact .cons ⟨hb, house_colors hc hx hp (h2 _ (hmem _ List.mem_cons_self)) (hshow _ (hmem _ List.mem_cons_self)) hb⟩
      (ih fun e he => hmem e (List.mem_cons_of_mem _ he))

open Verif.LoadTile Verif.QuadKeyBuilderSpec Verif.ImportSpec Verif.ImportRelationsSpec Verif.GeoStoreSpec GeoStoreProof
open Verif.OsmXmlSpec (Doc Head PrintsBody)

/-- C117 (partial): a stylesheet with the texts of its atlases and an OSM file are read, the file is imported, and a tile is loaded. Then the callback gets a mesh for each building
which is to be seen in the tile, with any roof and any walls, in the colors and textures which the stylesheet declares. Missing: what C98 and `C117_colors_partial` leave open. -/
theorem C117_colors_file_partial {K L : Type} [LinearOrder K] (outside : Nat × Nat × Nat × Nat) (T : MapCss.Tools Atlas.TextureAtlas L) (hT : T.atlas = Atlas.parse outside)
    {css g : List Char} {entries : List (MapCssSpec.Entry Atlas.TextureAtlas L)}
    (hcss : MapCssSpec.Reads T css g entries) (hg : MapCssSpec.Gap g) (senv : Style.Env ℝ) (hacc : (Style.build senv (rulesOf entries)).isOk = true)
    {P : Str → Prop} (hm : Mentions (rulesOf entries) P) (hskip : P "skip".toList) (hclip : P "clip".toList) (hkeys : ∀ k ∈ words ++ amounts, P k)
    (ar : Arith ℝ) (hz : ar.zero = 0) (hs : StyleEvalSpec.Sane ar) (cast : List Char → Option ℝ) (hc : Reads cast) {lib : Roofs.Library ℝ} (hlib : RoofsSpec.Standard lib)
    (base : Building.Env ℝ)
    (env : Import.Env) (hsort : OsmSpec.Sorts env.sort) (tokens : El → List UInt32) {m : GeoStore.Map K (MemStore.Store El)}
    {B : Stores K (MemStore.Store El)} (hB : Abs m B) (hu : Used tokens B) {k : K} {s : MemStore.Store El} (hk : B k = some s) {target : Import.Target} (ht : Sensible target)
    {h w u : List Char} {d : Doc} (hh : Head h) (hw : PrintsBody d w) (hf : ∃ v, w = '<' :: v) (hb : d.bounds ≠ none ∨ d.nodes ≠ []) (hd : ImportSpec.Sound d)
    (hr : (d.relations.map (·.id)).Nodup) :
    ∃ fc texts xs, (∃ depth, ∀ n ≥ depth, openSheet T senv n css = .ok fc) ∧ (∀ t ∈ texts, ∃ f, T.file f = some t) ∧ AtlasTexts xs texts ∧
      ∃ x, ImportRelationsSpec.Describes env.eps (fun s => senv.getId s.toList) d x ∧ (ResolveSpec.Sound (withSheet env senv fc).resolver x →
        ∃ es, List.Forall₂ (fun key e => ResolveSpec.Becomes (withSheet env senv fc).resolver x (.old key) e) (ResolveSpec.All x) es ∧ ((∀ e ∈ es, Readable senv P e) →
          ∀ order : List UInt64 → List UInt64, (∀ l, (order l).Perm l) → ∃ N, ∀ n ≥ N,
            ∃ m', Import.importXml (GeoStore.memIface tokens) { withSheet env senv fc with order := order, stack := n } m k target (h ++ (w ++ u)) = (m', .done) ∧
              ∀ q, ∃ old pal, (GeoStore.step (GeoStore.memIface tokens) m (.tile q)).2 = .elements old ∧ palette cast outside texts q = .ok pal ∧
                pal.textures = Atlas.provide outside (entries.filterMap MapCssSpec.Entry.texture?) ∧
                ∀ l, l = old ++ es.filterMap (seen env.eng (wanted senv (rulesOf entries)) target q) →
                  (∀ e ∈ l.flatMap QuadKeyBuilderSpec.parts, ∀ x, Within x e → Readable senv P x ∧ Clear ar senv (decls senv (rulesOf entries) q.lod x) x.tags ∧
                    (Word ar senv x.tags (lastValue (decls senv (rulesOf entries) q.lod x) "building".toList) "true".toList →
                      Showable ar senv (decls senv (rulesOf entries) q.lod x) x.tags "roof-".toList ∧ Showable ar senv (decls senv (rulesOf entries) q.lod x) x.tags "facade-".toList)) →
                  DistinctIds senv (rulesOf entries) q.lod l →
                  ∀ sorted order : List (List Char) → List (List Char), (∀ l, (sorted l).Perm l) → (∀ l, (order l).Perm l) →
                    ∃ t style, loadTile (GeoStore.memIface tokens) senv fc sorted order m' q = .ok t ∧
                      (∀ e ∈ buildWith senv (rulesOf entries) q.lod "building".toList l, ∀ x, Within x e →
                        Told ar senv (paintOf pal) (decls senv (rulesOf entries) q.lod x) (style x) x) ∧
                      ((∀ e ∈ buildWith senv (rulesOf entries) q.lod "building".toList l, Fine style e ∧
                          ∀ part ∈ BuildingSpec.parts style e, Able lib { base with style := style } part) →
                        ∃ ms shown, deliver ar senv (paintOf pal) (Roofs.complete lib base) fc q.lod (visited "building".toList t) = .ok ms ∧
                          shown.Perm ((buildWith senv (rulesOf entries) q.lod "building".toList l).filter (Delivered style)) ∧
                          List.Forall₂ (fun e m => IsHouse lib { base with style := style } e m ∧
                            ShowsHouse ar senv xs (decls senv (rulesOf entries) q.lod) lib { base with style := style } e m) shown ms))) := by
  obtain ⟨texts, xs, t1, t2, t3⟩ := sheet_atlases hT hcss
  obtain ⟨fc, ⟨depth, hopen⟩, x, hx, h1⟩ := C98_load_partial T hcss hg senv hacc hm hskip hclip env hsort tokens hB hu hk ht hh hw hf hb hd hr (u := u)
  have hok : Style.build senv (rulesOf entries) = .ok fc := by
    obtain ⟨depth', hdepth⟩ := C60_parse_partial T css g entries hcss hg
    obtain ⟨sheet, a1, a2⟩ := hdepth (max depth depth') (le_max_right _ _)
    have := hopen (max depth depth') (le_max_left _ _)
    rw [openSheet, a1] at this
    simp only [Outcome.bind] at this
    rwa [a2.1, LoadTileProof.toRule_rulesOf] at this
  refine ⟨fc, texts, xs, ⟨depth, hopen⟩, t1, t2, x, hx, fun hsound => ?_⟩
  obtain ⟨es, h2, h3⟩ := h1 hsound
  refine ⟨es, h2, fun hread order horder => ?_⟩
  obtain ⟨N, h4⟩ := h3 hread order horder
  refine ⟨N, fun n hn => ?_⟩
  obtain ⟨m', h5, h6⟩ := h4 n hn
  refine ⟨m', h5, fun q => ?_⟩
  obtain ⟨old, h7, h8⟩ := h6 q
  refine ⟨old, _, h7, by rw [palette, t3]; rfl, rfl, fun l hl hread' hdis sorted order' hsorted horder' => ?_⟩
  obtain ⟨t, h9, h10⟩ := h8 l hl (fun e he => (hread' e he e (.self e)).1) hdis sorted order' hsorted horder'
  have hp := (h10 "building".toList).2
  have hin : ∀ e ∈ visited "building".toList t, e ∈ l.flatMap QuadKeyBuilderSpec.parts := fun e he => List.mem_of_mem_filter (hp.mem_iff.1 he)
  obtain ⟨pal, style, hpal, h11, h12⟩ := C117_colors_partial cast hc outside t2 ar hz hs senv hok hm hkeys hlib base q (visited "building".toList t)
    (fun e he x hx => ⟨(hread' e (hin e he) x hx).1, (hread' e (hin e he) x hx).2.1⟩) (fun e he x hx => (hread' e (hin e he) x hx).2.2)
  rw [palette, t3] at hpal
  injection hpal with hpal
  subst hpal
  refine ⟨t, style, h9, fun e he => h11 e (hp.mem_iff.2 he), fun hall => ?_⟩
  obtain ⟨ms, h13, h14⟩ := h12 (fun e he => (hall e (hp.mem_iff.1 he)).1) (fun e he => (hall e (hp.mem_iff.1 he)).2)
  exact ⟨ms, _, h13, hp.filter _, h14⟩

namespace RoofColorsProof.Sample
open BuildingSheetProof.Sample PaletteProof.Sample

/-- `area|z1-16[a=b] { builder: building; building: true; height: 12m; min-height: 2m; roof-type: dome; facade-type: cylinder; roof-color: red; roof-texture-index: 2;
roof-texture-type: a; facade-color: gradient(red, blue); }` -/
def colorful : List Declaration := [⟨"builder".toList, "building".toList⟩, ⟨"building".toList, "true".toList⟩, ⟨"height".toList, ['1', '2', 'm']⟩, ⟨"min-height".toList, ['2', 'm']⟩,
  ⟨"roof-type".toList, "dome".toList⟩, ⟨"facade-type".toList, "cylinder".toList⟩, ⟨"roof-color".toList, ['r', 'e', 'd']⟩, ⟨"roof-texture-index".toList, ['2']⟩,
  ⟨"roof-texture-type".toList, ['a']⟩, ⟨"facade-color".toList, "gradient(red, blue)".toList⟩]

theorem colorful_clear : BuildingSheetSpec.Clear arith strings colorful house.tags := by
  constructor
  · intro k hk
    simp only [words, List.mem_cons, List.not_mem_nil, or_false] at hk
    rcases hk with rfl | rfl | rfl | rfl | rfl | rfl | rfl | rfl | rfl
    · exact ⟨_, .plain _ (plain 't' ['r', 'u', 'e'] (by decide) (by decide))⟩
    · exact ⟨_, .nothing⟩
    · exact ⟨_, .plain _ (plain 'd' ['o', 'm', 'e'] (by decide) (by decide))⟩
    · exact ⟨_, .nothing⟩
    · exact ⟨_, .plain _ (plain 'r' ['e', 'd'] (by decide) (by decide))⟩
    · exact ⟨_, .plain _ (plain 'a' [] (by decide) (by decide))⟩
    · exact ⟨_, .plain _ (plain 'c' ['y', 'l', 'i', 'n', 'd', 'e', 'r'] (by decide) (by decide))⟩
    · exact ⟨_, .plain _ purple_plain⟩
    · exact ⟨_, .nothing⟩
  · intro k hk
    simp only [amounts, List.mem_cons, List.not_mem_nil, or_false] at hk
    rcases hk with rfl | rfl | rfl | rfl | rfl | rfl | rfl
    · exact ⟨_, .metres ['1', '2']⟩
    · exact ⟨_, .metres ['2']⟩
    · exact ⟨_, .nothing⟩
    · exact ⟨_, two_plain⟩
    · exact ⟨_, .nothing⟩
    · exact ⟨_, .nothing⟩
    · exact ⟨_, .nothing⟩

theorem colorful_showable : Showable arith strings colorful house.tags "roof-".toList ∧ Showable arith strings colorful house.tags "facade-".toList := by
  have hun := fun o => C111_unique_partial arith rfl (fun _ => ⟨rfl, rfl⟩) strings house.tags o
  refine ⟨⟨fun g hg => ?_, fun v hv => ⟨2, ?_, by norm_num, by norm_num⟩⟩, ⟨fun g hg => ?_, fun v hv => ⟨0, ?_, by norm_num, by norm_num⟩⟩⟩
  · rw [(hun _).2 _ _ hg (.plain _ (plain 'r' ['e', 'd'] (by decide) (by decide)))]
    exact red
  · rw [(hun _).1 _ _ hv two_plain]
    norm_num [strings, TerrainSheetSpec.IsWhole]
  · rw [(hun _).2 _ _ hg (.plain _ purple_plain)]
    exact weaker purple
  · rw [(hun _).1 _ _ hv .nothing]
    norm_num [TerrainSheetSpec.IsWhole]

end RoofColorsProof.Sample

open RoofColorsProof.Sample PaletteProof.Sample in
/-- A tower with a red dome and walls of a gradient, with a texture of an atlas on the dome: one mesh is delivered, and it shows the colors. -/
example (outside : Nat × Nat × Nat × Nat) (paint : BuildingSheet.Paint) (parseDouble : String → ℝ)
    (distance : Geo ℝ → Geo ℝ → ℝ) (offset : Terrain.Path → ℝ → List Terrain.Path) (q : QuadKey) (hq : q.lod = 1) : ∃ pal fc style m lib, lib = Roofs.realLibrary parseDouble distance offset ∧
    Style.build BuildingSheetProof.Sample.strings [{ BuildingSheetProof.Sample.rule with declarations := colorful }] = .ok fc ∧
    palette PaletteProof.Sample.cast outside [atlas] q = .ok pal ∧
    deliver BuildingSheetProof.Sample.arith BuildingSheetProof.Sample.strings (paintOf pal) (Roofs.complete lib (BuildingSheetProof.Sample.ground paint)) fc q.lod [BuildingSheetProof.Sample.house] = .ok [m] ∧
    ShowsHouse BuildingSheetProof.Sample.arith BuildingSheetProof.Sample.strings [⟨2, 8, 8, [⟨['a'], 0, 0, 4, 4⟩]⟩] (fun _ => colorful) lib
      { BuildingSheetProof.Sample.ground paint with style := style } BuildingSheetProof.Sample.house m ∧
    (BuildingSpec.parts style BuildingSheetProof.Sample.house).length = 1 := by
  open BuildingSheetProof.Sample in
  obtain ⟨fc, hok⟩ : ∃ fc, Style.build strings [{ rule with declarations := colorful }] = .ok fc := ⟨_, rfl⟩
  have hw : ∀ x, Within x house → x = house := by
    intro x hx
    cases hx
    rfl
  have hs : StyleEvalSpec.Sane arith := fun _ => ⟨rfl, rfl⟩
  have hds : ∀ x, Within x house → decls strings [{ rule with declarations := colorful }] q.lod x = colorful := fun x hx => by
    rw [hw x hx, hq]; exact house_decls colorful
  obtain ⟨pal, style, hp, h1, h2⟩ := C117_colors_partial PaletteProof.Sample.cast PaletteProof.Sample.cast_reads outside atlas_text arith rfl hs strings hok (P := (· ∈ table))
    (by unfold Mentions; decide) (by decide) (C86_library parseDouble distance offset) (BuildingSheetProof.Sample.ground paint) q [house] (by
      intro e he x hx
      rw [List.mem_singleton.1 he] at hx
      rw [hds x hx, hw x hx]
      exact ⟨readable, colorful_clear⟩) (by
      intro e he x hx _
      rw [List.mem_singleton.1 he] at hx
      rw [hds x hx, hw x hx]
      exact colorful_showable)
  have ht := h1 house (by simp) house (.self _)
  rw [hds house (.self _)] at ht
  obtain ⟨b, hb1, hb2, hb3⟩ := ht
  have hun := fun o => C111_unique_partial arith rfl hs strings house.tags o
  have hb : b = "true".toList := (hun _).2 _ _ hb1 (.plain _ (plain 't' ['r', 'u', 'e'] (by decide) (by decide)))
  have hd := hb3 hb
  have hbt : (style house).building = true := hb2.2 hb
  have e1 : (style house).height = 12 := by
    have := (hun _).1 _ _ hd.height (.metres ['1', '2'])
    rw [this]; simp [strings]
  have e2 : (style house).minHeight = 2 := by
    have := (hun _).1 _ _ hd.minHeight (.metres ['2'])
    rw [this]; simp [strings]
  have e3 : (style house).roofType = "dome" := String.toList_inj.1 ((hun _).2 _ _ hd.roofType (.plain _ (plain 'd' ['o', 'm', 'e'] (by decide) (by decide))))
  have e4 : (style house).facadeType = "cylinder" :=
    String.toList_inj.1 ((hun _).2 _ _ hd.facadeType (.plain _ (plain 'c' ['y', 'l', 'i', 'n', 'd', 'e', 'r'] (by decide) (by decide))))
  have hparts : BuildingSpec.parts style house = [⟨style house, [([⟨0, 0⟩, ⟨4, 0⟩, ⟨4, 3⟩, ⟨0, 3⟩], false)]⟩] := by
    have : (style (.area 7 [⟨0, 1⟩] [⟨0, 0⟩, ⟨0, 4⟩, ⟨3, 4⟩, ⟨3, 0⟩])).building = true := hbt
    simp [house, BuildingSpec.parts, this, BuildingSpec.ground]
  have hopen : PolygonSpec.opened (1 / 1000 : ℝ) [⟨0, 0⟩, ⟨4, 0⟩, ⟨4, 3⟩, ⟨0, 3⟩] = [⟨0, 0⟩, ⟨4, 0⟩, ⟨4, 3⟩, ⟨0, 3⟩] := by
    norm_num [PolygonSpec.opened]
  have hbox : Boxed { BuildingSheetProof.Sample.ground paint with style := style } ⟨style house, [([⟨0, 0⟩, ⟨4, 0⟩, ⟨4, 3⟩, ⟨0, 3⟩], false)]⟩ := by
    constructor
    · intro r hr
      rw [List.mem_singleton.1 hr]
      show CurvedSpec.NorthEast (1000 : ℝ) (1 / 1000) (PolygonSpec.opened (1 / 1000 : ℝ) _)
      rw [hopen]
      refine ⟨⟨⟨4, 3⟩, by simp, by norm_num⟩, ⟨⟨4, 3⟩, by simp, by norm_num⟩, ?_⟩
      intro v hv
      simp only [List.mem_cons, List.not_mem_nil, or_false] at hv
      rcases hv with rfl | rfl | rfl | rfl <;> norm_num
    · intro o _ h hh
      simp [holesOf] at hh
  have hfull : full (⟨style house, [([⟨0, 0⟩, ⟨4, 0⟩, ⟨4, 3⟩, ⟨0, 3⟩], false)]⟩ : BuildingSpec.Part ℝ) = 12 := by
    simp only [full, e1]; norm_num
  obtain ⟨ms, h3, h4⟩ := h2 (by intro e he; rw [List.mem_singleton.1 he]; trivial) (by
    intro e he part hp
    rw [List.mem_singleton.1 he, hparts, List.mem_singleton] at hp
    subst hp
    refine ⟨⟨⟨0, 0⟩, ⟨_, _, rfl⟩, ?_, ?_⟩, .dome e3 (by show (1 / 1000 : ℝ) ≤ _; norm_num) hbox, .cylinder e4 (CurvedProof.circular ..) ?_ ?_ hbox⟩
    · intro r hr
      rw [List.mem_singleton.1 hr]
      show PolygonSpec.opened (1 / 1000 : ℝ) _ ≠ []
      rw [hopen]
      simp
    · intro p _
      show ∀ t ∈ [((0 : Int), (1 : Int), (2 : Int)), (2, 3, 0)], ∀ c ∈ [t.1, t.2.1, t.2.2], 0 ≤ c ∧ c < 4
      decide
    · rw [hfull, e2]; norm_num
    · rw [hfull, e2]; show (1 / 1000 : ℝ) ≤ _; norm_num)
  have hdel : Delivered style house = true := by
    have : (style (.area 7 [⟨0, 1⟩] [⟨0, 0⟩, ⟨0, 4⟩, ⟨3, 4⟩, ⟨3, 0⟩])).building = true := hbt
    simp only [house, Delivered, this, Bool.and_true, Bool.not_eq_true']
    decide
  rw [List.filter_cons_of_pos hdel, List.filter_nil] at h4
  cases h4 with
  | @cons _ m _ _ hc hl =>
    cases hl
    refine ⟨pal, fc, style, m, _, rfl, hok, hp, h3, ?_, by rw [hparts]; rfl⟩
    obtain ⟨-, faces, f1, f2⟩ := hc
    refine ⟨faces, f1.imp ?_, f2⟩
    rintro part fs ⟨a1, x, a2, a3, a4⟩
    exact ⟨a1, x, a2, a3, by rw [hds x a2] at a4; exact a4⟩

end Verif.Props
