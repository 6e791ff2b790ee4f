import Verif.Props.BuildingSheetSpec
import Verif.Props.BuildingClosed
import Verif.Props.LoadTile
import Verif.Props.StyleEval
import Verif.Props.StyleValue

/-! # C111: buildings look as the stylesheet says -/
namespace Verif.Props
open Verif.Clipper (El)
open Verif.Style (Rule Declaration Str FilterCollection)
open Verif.StyleSpec Verif.LoadTileSpec Verif.BuildingSheet Verif.BuildingSheetSpec Verif.BuildingSpec Verif.ShownSpec
open Verif.StyleEval (Arith getString)
open Verif.StyleValue (value)

namespace BuildingSheetProof

variable {ar : Arith ℝ} {senv : Style.Env ℝ} {tags : List Tag} {st : Style.Style} {key : Str}

theorem value_of (hz : ar.zero = 0) (hs : StyleEvalSpec.Sane ar) {o : Option Str} {v : ℝ} (h : Amount ar senv tags o v)
    (hf : st.declarations.find (senv.getId key) = o) : value ar senv tags st key = .ok v := by
  cases h with
  | nothing => exact (C70_absent ar senv tags st key (fun t ht => by rw [StyleValueSpec.Declares, hf] at ht; cases ht) hz 0 Bbox.empty).1
  | metres w => exact (C70_metres ar senv tags st key w hf 0).1
  | percent w => exact (C70_percent ar senv tags st key w hf 0 Bbox.empty).1
  | plain text hp hn => exact (C70_plain ar senv tags st key text hf hp hn 0 Bbox.empty).1
  | computed e val v r ht he h0 h1 hv hr => 
    unfold value StyleValue.valueRelative StyleValue.valueIn
    exact C31_numeric_partial ar hs senv tags ht val e he h0 h1 v _ hv hr st key hf _ _

theorem string_of (hs : StyleEvalSpec.Sane ar) {o : Option Str} {w : Str} (h : Word ar senv tags o w)
    (hf : st.declarations.find (senv.getId key) = o) : getString ar senv tags st key = .ok w := by
  cases h with
  | nothing => simp [getString, hf]
  | plain text hp => exact C70_text ar senv tags st key _ hf hp
  | joined e val w ws ht he h0 h1 hp hw hws => exact C31_concatenates_partial ar hs senv tags ht val e he h0 h1 hp w ws hw hws st key hf

variable {paint : Paint} {ds : List Declaration}

theorem readPart_ok (hz : ar.zero = 0) (hs : StyleEvalSpec.Sane ar) (hst : ∀ k ∈ words ++ amounts, st.declarations.find (senv.getId k) = lastValue ds k)
    (hc : Clear ar senv ds tags) (m : Bool) :
    ∃ s, readPart ar senv paint tags st m = .ok s ∧ s.building = true ∧ s.multipolygon = m ∧ Describes ar senv paint ds tags s := by
  obtain ⟨hw, ha⟩ := hc
  have W : ∀ k ∈ words, ∀ w, Word ar senv tags (lastValue ds k) w → getString ar senv tags st k = .ok w := fun k hk w h =>
    string_of hs h (hst k (List.mem_append_left _ hk))
  have A : ∀ k ∈ amounts, ∀ v, Amount ar senv tags (lastValue ds k) v → value ar senv tags st k = .ok v := fun k hk v h =>
    value_of hz hs h (hst k (List.mem_append_right _ hk))
  obtain ⟨h, h1⟩ := ha "height".toList (by decide)
  obtain ⟨mh, h2⟩ := ha "min-height".toList (by decide)
  obtain ⟨rh, h3⟩ := ha "roof-height".toList (by decide)
  obtain ⟨rt, h4⟩ := hw "roof-type".toList (by decide)
  obtain ⟨rd, h5⟩ := hw "roof-direction".toList (by decide)
  obtain ⟨ft, h6⟩ := hw "facade-type".toList (by decide)
  obtain ⟨ri, h7⟩ := ha "roof-texture-index".toList (by decide)
  obtain ⟨rs, h8⟩ := ha "roof-texture-scale".toList (by decide)
  obtain ⟨rc, h9⟩ := hw "roof-color".toList (by decide)
  obtain ⟨rk, h10⟩ := hw "roof-texture-type".toList (by decide)
  obtain ⟨fi, h11⟩ := ha "facade-texture-index".toList (by decide)
  obtain ⟨fs, h12⟩ := ha "facade-texture-scale".toList (by decide)
  obtain ⟨fcol, h13⟩ := hw "facade-color".toList (by decide)
  obtain ⟨fk, h14⟩ := hw "facade-texture-type".toList (by decide)
  have e1 : readLook ar senv paint tags st "roof-".toList = .ok (paint rc ri rk rs) := by
    unfold readLook
    rw [show "roof-".toList ++ "texture-index".toList = "roof-texture-index".toList by decide, show "roof-".toList ++ "color".toList = "roof-color".toList by decide,
      show "roof-".toList ++ "texture-type".toList = "roof-texture-type".toList by decide, show "roof-".toList ++ "texture-scale".toList = "roof-texture-scale".toList by decide,
      A _ (by decide) _ h7, W _ (by decide) _ h9, W _ (by decide) _ h10, A _ (by decide) _ h8]
    rfl
  have e2 : readLook ar senv paint tags st "facade-".toList = .ok (paint fcol fi fk fs) := by
    unfold readLook
    rw [show "facade-".toList ++ "texture-index".toList = "facade-texture-index".toList by decide, show "facade-".toList ++ "color".toList = "facade-color".toList by decide,
      show "facade-".toList ++ "texture-type".toList = "facade-texture-type".toList by decide,
      show "facade-".toList ++ "texture-scale".toList = "facade-texture-scale".toList by decide,
      A _ (by decide) _ h11, W _ (by decide) _ h13, W _ (by decide) _ h14, A _ (by decide) _ h12]
    rfl
  refine ⟨⟨true, m, h, mh, String.ofList rt, rh, String.ofList rd, String.ofList ft, paint rc ri rk rs, paint fcol fi fk fs⟩, ?_, rfl, rfl, ?_⟩
  · unfold readPart
    rw [A _ (by decide) _ h1, A _ (by decide) _ h2, e1, W _ (by decide) _ h4, A _ (by decide) _ h3, W _ (by decide) _ h5, e2, W _ (by decide) _ h6]
    rfl
  · exact ⟨h1, h2, by simpa using h4, h3, by simpa using h5, by simpa using h6, ⟨rc, ri, rk, rs, h9, h7, h10, h8, rfl⟩, ⟨fcol, fi, fk, fs, h13, h11, h14, h12, rfl⟩⟩

end BuildingSheetProof

open BuildingSheetProof

/-- C111 (partial): the style which the builder of buildings reads for an element is the one which the rules of the stylesheet describe. -/
theorem C111_style_partial (ar : Arith ℝ) (hz : ar.zero = 0) (hs : StyleEvalSpec.Sane ar) (senv : Style.Env ℝ) {rules : List Rule} {fc : FilterCollection}
    (hok : Style.build senv rules = .ok fc) {P : Str → Prop} (hm : Mentions rules P) (hk : ∀ k ∈ words ++ amounts, P k) (paint : Paint) (lod : ℤ) (e : El)
    (hr : Readable senv P e) (hc : Clear ar senv (decls senv rules lod e) e.tags) :
    ∃ s, readElement ar senv paint fc lod e = .ok s ∧ Told ar senv paint (decls senv rules lod e) s e := by
  obtain ⟨h1, -, -, -⟩ := LoadTileProof.style_of hok hm hr lod
  have hst : ∀ k ∈ words ++ amounts, (Style.forElement senv fc e lod.toNat).declarations.find (senv.getId k) = lastValue (decls senv rules lod e) k :=
    fun k hk' => h1 k (hk k hk')
  obtain ⟨b, hb⟩ := hc.1 "building".toList (by decide)
  obtain ⟨m, hmul⟩ := hc.1 "multipolygon".toList (by decide)
  have gb := string_of hs hb (hst _ (by decide))
  have gm := string_of hs hmul (hst _ (by decide))
  generalize hds : decls senv rules lod e = ds at *
  match e with
  | .node .. => exact ⟨_, rfl, trivial⟩
  | .way .. => exact ⟨_, rfl, trivial⟩
  | .area id tags cs =>
    by_cases hbt : b = "true".toList
    · obtain ⟨s, hs1, hs2, -, hs4⟩ := readPart_ok (paint := paint) hz hs hst hc false
      exact ⟨s, by simp only [readElement, gb, Outcome.bind, if_pos hbt, hs1], b, hb, by simp [hs2, hbt], fun _ => hs4⟩
    · exact ⟨noPart paint, by simp only [readElement, gb, Outcome.bind, if_neg hbt], b, hb, iff_of_false (by simp [noPart]) hbt, fun h => absurd h hbt⟩
  | .relation id tags ms =>
    by_cases hmt : m = "true".toList
    · by_cases hbt : b = "true".toList
      · obtain ⟨s, hs1, hs2, hs3, hs4⟩ := readPart_ok (paint := paint) hz hs hst hc true
        exact ⟨s, by simp only [readElement, gm, gb, Outcome.bind, if_pos hbt, if_pos hmt, hs1], m, b, hmul, hb, by simp [hs2, hs3, hbt, hmt], fun _ _ => hs4⟩
      · exact ⟨noPart paint, by simp only [readElement, gm, gb, Outcome.bind, if_pos hmt, if_neg hbt], m, b, hmul, hb, iff_of_false (by simp [noPart]) (fun h => hbt h.2), fun _ h => absurd h hbt⟩
    · exact ⟨noPart paint, by simp only [readElement, gm, Outcome.bind, if_neg hmt], m, b, hmul, hb, iff_of_false (by simp [noPart]) (fun h => hmt h.1), fun h => absurd h hmt⟩

namespace BuildingSheetProof
open Verif.MeshBuilder Verif.MeshSpec Verif.Building

variable {K : Type} [Field K] [LinearOrder K]

theorem part_drawn (env : Building.Env K) (id : UInt64) (part : BuildingSpec.Part K) (h : Drawable env part) (m : Mesh K) (done : List (Triangle K × Texture)) (hm : Built m)
    (hs : Paints m done []) : ∃ m' faces, drawPart env id m part = .ok m' ∧ Built m' ∧ Paints m' (done ++ faces) [] ∧ PartFaces env id part faces := by
  obtain ⟨start, ring, rest, hf⟩ := h.outline
  obtain ⟨p, holes, m', roof, floor, hp, ho, hi, hk, hd, hb, hsh, hr, hfl⟩ := C75_part_partial env part id m done hm hs start ring rest hf h.rings h.library h.roof h.facade
  exact ⟨m', _, hd, hb, by simpa only [List.append_assoc] using hsh, start, ring, rest, p, _, holes, _, _, roof, floor, hf, rfl, hk, hp, ho, hi, rfl, rfl, hr, hfl, rfl⟩

theorem parts_drawn (env : Building.Env K) (id : UInt64) (parts : List (BuildingSpec.Part K)) (h : ∀ part ∈ parts, Drawable env part) (m : Mesh K)
    (done : List (Triangle K × Texture)) (hm : Built m) (hs : Paints m done []) :
    ∃ m' faces, drawParts env id m parts = .ok m' ∧ Paints m' (done ++ faces.flatten) [] ∧ List.Forall₂ (PartFaces env id) parts faces := by
  induction parts generalizing m done with
  | nil => exact ⟨m, [], rfl, by simpa using hs, .nil⟩
  | cons part parts ih =>
    obtain ⟨m1, f1, h1, b1, s1, p1⟩ := part_drawn env id part (h part (List.mem_cons_self ..)) m done hm hs
    obtain ⟨m2, f2, h2, s2, p2⟩ := ih (fun p hp => h p (List.mem_cons_of_mem _ hp)) m1 _ b1 s1
    exact ⟨m2, f1 :: f2, by simp only [drawParts, h1, Outcome.bind, h2], by simpa using s2, .cons p1 p2⟩

theorem part_closed (env : Building.Env K) (id : UInt64) (part : BuildingSpec.Part K) (h : Solid env part) (faces : List (Triangle K × Texture))
    (hf : PartFaces env id part faces) : SolidsSpec.Closed (faces.map fun x => place x.1) := by
  obtain ⟨start, ring, rest, p, outlines, holes, bottom, top, roof, floor, -, -, hk, hp, ho, hi, -, -, hr, hfl, rfl⟩ := hf
  rw [if_pos h.above] at hfl
  have key := C76_faces _ (part.style.facadeLook id) _ _ bottom top _ outlines holes ((h.library p hp).2 _ _ ho hi) roof floor hr (by
    rcases h.roof with h | ⟨h, hr⟩
    · exact .inl h
    · refine .inr ⟨h, ?_⟩
      have : part.rings.filter (fun r => r.2) = [] := by
        rw [List.filter_eq_nil_iff]; intro r hr'; simp [hr r hr']
      rw [this] at hk
      simpa using hk) hfl
  simpa [Function.comp_def] using key

theorem parts_closed (env : Building.Env K) (id : UInt64) (parts : List (BuildingSpec.Part K)) (h : ∀ part ∈ parts, Solid env part)
    (faces : List (List (Triangle K × Texture))) (hf : List.Forall₂ (PartFaces env id) parts faces) : SolidsSpec.Closed (faces.flatten.map fun x => place x.1) := by
  apply SolidsProof.closed_of_esum
  intro f hf'
  induction hf with
  | nil => rfl
  | cons h1 _ ih =>
    rw [List.flatten_cons, List.map_append, SolidsProof.esum_append, ih fun p hp => h p (List.mem_cons_of_mem _ hp),
      SolidsProof.esum_of_closed _ (part_closed env id _ (h _ (List.mem_cons_self ..)) _ h1) f hf', add_zero]

theorem meshes_drawn (env : Building.Env K) (es : List (Element (Geo K))) (h : ∀ e ∈ es, ∀ part ∈ parts env.style e, Drawable env part) :
    ∃ ms, meshesOf env es = .ok ms ∧ List.Forall₂ (IsBuilding env) es ms := by
  induction es with
  | nil => exact ⟨[], rfl, .nil⟩
  | cons e es ih =>
    obtain ⟨m, faces, h1, h2, h3⟩ := parts_drawn env e.id (parts env.style e) (h e (List.mem_cons_self ..)) {} [] .empty
      ⟨[], [], [], ⟨rfl, by simp, by simp⟩, rfl, .nil, .nil⟩
    obtain ⟨ms, h4, h5⟩ := ih fun e he => h e (List.mem_cons_of_mem _ he)
    exact ⟨(e.id, m) :: ms, by simp only [meshesOf, h1, h4, Outcome.bind],
      .cons ⟨rfl, faces, h3, by simpa using h2, fun hs => parts_closed env e.id _ hs faces h3⟩ h5⟩

end BuildingSheetProof

/-- C111 (partial): the builder of buildings gets some elements. Then the callback gets a mesh for each building, in order, which shows all of its parts with the heights,
roofs, walls and looks which the rules of the stylesheet describe, and nothing else. Missing: other roofs and walls than flat and pyramidal ones and none, and texts of a
stylesheet which cannot be understood. -/
theorem C111_meshes_partial (ar : Arith ℝ) (hz : ar.zero = 0) (hs : StyleEvalSpec.Sane ar) (senv : Style.Env ℝ) {rules : List Rule} {fc : FilterCollection}
    (hok : Style.build senv rules = .ok fc) {P : Str → Prop} (hm : Mentions rules P) (hk : ∀ k ∈ words ++ amounts, P k) (paint : Paint) (base : Building.Env ℝ) (lod : ℤ)
    (calls : List El) (hr : ∀ e ∈ calls, ∀ x, Within x e → Readable senv P x ∧ Clear ar senv (decls senv rules lod x) x.tags) :
    ∃ style, (∀ e ∈ calls, ∀ x, Within x e → Told ar senv paint (decls senv rules lod x) (style x) x) ∧
      ((∀ e ∈ calls, Fine style e) → (∀ e ∈ calls, ∀ part ∈ parts style e, Drawable { base with style := style } part) →
        ∃ ms, deliver ar senv paint base fc lod calls = .ok ms ∧
          List.Forall₂ (IsBuilding { base with style := style }) (calls.filter (Delivered style)) ms) := by
  refine ⟨styleOf ar senv paint fc lod, fun e he x hx => ?_, fun hfine hdraw => ?_⟩
  · obtain ⟨s, h1, h2⟩ := C111_style_partial ar hz hs senv hok hm hk paint lod x (hr e he x hx).1 (hr e he x hx).2
    simpa only [styleOf, h1] using h2
  · unfold deliver
    rw [C74_meshes_partial { base with style := styleOf ar senv paint fc lod } calls hfine]
    exact meshes_drawn { base with style := styleOf ar senv paint fc lod } _ fun e he => hdraw e (List.mem_filter.1 he).1

open Verif.LoadTile Verif.QuadKeyBuilderSpec Verif.ImportSpec Verif.ImportRelationsSpec Verif.GeoStoreSpec GeoStoreProof
open Verif.OsmXmlSpec (Doc Head PrintsBody)

/-- C111 (partial): a stylesheet and an OSM file are read, the file is imported, and a tile is loaded. Then the callback gets a mesh for each building which is to be seen in the
tile, and it shows the building as the rules of the stylesheet describe it. Missing: what C98 and `C111_meshes_partial` leave open. -/
theorem C111_file_partial {K A L : Type} [LinearOrder K] (T : MapCss.Tools A L) {css g : List Char} {entries : List (MapCssSpec.Entry A L)}
    (hcss : MapCssSpec.Reads T css g entries) (hg : MapCssSpec.Gap g) (senv : Style.Env ℝ) (hacc : (Style.build senv (rulesOf entries)).isOk = true)
    {P : Str → Prop} (hm : Mentions (rulesOf entries) P) (hskip : P "skip".toList) (hclip : P "clip".toList) (hkeys : ∀ k ∈ words ++ amounts, P k)
    (ar : Arith ℝ) (hz : ar.zero = 0) (hs : StyleEvalSpec.Sane ar) (paint : Paint) (base : Building.Env ℝ)
    (env : Import.Env) (hsort : OsmSpec.Sorts env.sort) (tokens : El → List UInt32) {m : GeoStore.Map K (MemStore.Store El)}
    {B : Stores K (MemStore.Store El)} (hB : Abs m B) (hu : Used tokens B) {k : K} {s : MemStore.Store El} (hk : B k = some s) {target : Import.Target} (ht : Sensible target)
    {h w u : List Char} {d : Doc} (hh : Head h) (hw : PrintsBody d w) (hf : ∃ v, w = '<' :: v) (hb : d.bounds ≠ none ∨ d.nodes ≠ []) (hd : ImportSpec.Sound d)
    (hr : (d.relations.map (·.id)).Nodup) :
    ∃ fc, (∃ depth, ∀ n ≥ depth, openSheet T senv n css = .ok fc) ∧
      ∃ x, ImportRelationsSpec.Describes env.eps (fun s => senv.getId s.toList) d x ∧ (ResolveSpec.Sound (withSheet env senv fc).resolver x →
        ∃ es, List.Forall₂ (fun key e => ResolveSpec.Becomes (withSheet env senv fc).resolver x (.old key) e) (ResolveSpec.All x) es ∧ ((∀ e ∈ es, Readable senv P e) →
          ∀ order : List UInt64 → List UInt64, (∀ l, (order l).Perm l) → ∃ N, ∀ n ≥ N,
            ∃ m', Import.importXml (GeoStore.memIface tokens) { withSheet env senv fc with order := order, stack := n } m k target (h ++ (w ++ u)) = (m', .done) ∧
              ∀ q, ∃ old, (GeoStore.step (GeoStore.memIface tokens) m (.tile q)).2 = .elements old ∧
                ∀ l, l = old ++ es.filterMap (seen env.eng (wanted senv (rulesOf entries)) target q) →
                  (∀ e ∈ l.flatMap QuadKeyBuilderSpec.parts, ∀ x, Within x e → Readable senv P x ∧ Clear ar senv (decls senv (rulesOf entries) q.lod x) x.tags) →
                  DistinctIds senv (rulesOf entries) q.lod l →
                  ∀ sorted order : List (List Char) → List (List Char), (∀ l, (sorted l).Perm l) → (∀ l, (order l).Perm l) →
                    ∃ t style, loadTile (GeoStore.memIface tokens) senv fc sorted order m' q = .ok t ∧
                      (∀ e ∈ buildWith senv (rulesOf entries) q.lod "building".toList l, ∀ x, Within x e →
                        Told ar senv paint (decls senv (rulesOf entries) q.lod x) (style x) x) ∧
                      ((∀ e ∈ buildWith senv (rulesOf entries) q.lod "building".toList l, Fine style e ∧
                          ∀ part ∈ BuildingSpec.parts style e, Drawable { base with style := style } part) →
                        ∃ ms shown, deliver ar senv paint base fc q.lod (visited "building".toList t) = .ok ms ∧
                          shown.Perm ((buildWith senv (rulesOf entries) q.lod "building".toList l).filter (Delivered style)) ∧
                          List.Forall₂ (IsBuilding { base with style := style }) shown ms))) := by
  obtain ⟨fc, ⟨depth, hopen⟩, x, hx, h1⟩ := C98_load_partial T hcss hg senv hacc hm hskip hclip env hsort tokens hB hu hk ht hh hw hf hb hd hr (u := u)
  have hok : Style.build senv (rulesOf entries) = .ok fc := by
    obtain ⟨depth', hdepth⟩ := C60_parse_partial T css g entries hcss hg
    obtain ⟨sheet, a1, a2⟩ := hdepth (max depth depth') (le_max_right _ _)
    have := hopen (max depth depth') (le_max_left _ _)
    rw [openSheet, a1] at this
    simp only [Outcome.bind] at this
    rwa [a2.1, LoadTileProof.toRule_rulesOf] at this
  refine ⟨fc, ⟨depth, hopen⟩, x, hx, fun hsound => ?_⟩
  obtain ⟨es, h2, h3⟩ := h1 hsound
  refine ⟨es, h2, fun hread order horder => ?_⟩
  obtain ⟨N, h4⟩ := h3 hread order horder
  refine ⟨N, fun n hn => ?_⟩
  obtain ⟨m', h5, h6⟩ := h4 n hn
  refine ⟨m', h5, fun q => ?_⟩
  obtain ⟨old, h7, h8⟩ := h6 q
  refine ⟨old, h7, fun l hl hread' hdis sorted order' hsorted horder' => ?_⟩
  obtain ⟨t, h9, h10⟩ := h8 l hl (fun e he => (hread' e he e (.self e)).1) hdis sorted order' hsorted horder'
  have hp := (h10 "building".toList).2
  obtain ⟨style, h11, h12⟩ := C111_meshes_partial ar hz hs senv hok hm hkeys paint base q.lod (visited "building".toList t) (by
    intro e he x hx
    have := hp.mem_iff.1 he
    exact hread' e (List.mem_of_mem_filter this) x hx)
  refine ⟨t, style, h9, fun e he => h11 e (hp.mem_iff.2 he), fun hall => ?_⟩
  obtain ⟨ms, h13, h14⟩ := h12 (fun e he => (hall e (hp.mem_iff.1 he)).1) (fun e he => (hall e (hp.mem_iff.1 he)).2)
  exact ⟨ms, _, h13, hp.filter _, h14⟩

/-- C111: a declaration describes one number and one text only. -/
theorem C111_unique_partial (ar : Arith ℝ) (hz : ar.zero = 0) (hs : StyleEvalSpec.Sane ar) (senv : Style.Env ℝ) (tags : List Tag) (o : Option Str) :
    (∀ v v', Amount ar senv tags o v → Amount ar senv tags o v' → v = v') ∧ ∀ w w', Word ar senv tags o w → Word ar senv tags o w' → w = w' := by
  obtain ⟨st, hst⟩ : ∃ st : Style.Style, st.declarations.find (senv.getId []) = o := by
    cases o with
    | none => exact ⟨Style.emptyStyle, rfl⟩
    | some t => exact ⟨{ Style.emptyStyle with declarations := [(senv.getId [], t)] }, by simp [Assoc.find]⟩
  constructor
  · intro v v' h h'
    have := (value_of hz hs h hst).symm.trans (value_of hz hs h' hst)
    injection this
  · intro v v' h h'
    have := (string_of hs h hst).symm.trans (string_of hs h' hst)
    injection this

/-- C111 fails for buildings whose roof has no type: a stylesheet which does not declare `roof-type` for an area with `building: true` is accepted, but the end of the map of
roofs is read when the area is drawn (BuildingBuilder.cpp:298). -/
theorem C111_violated_no_roof (ar : Arith ℝ) (hz : ar.zero = 0) (hs : StyleEvalSpec.Sane ar) (senv : Style.Env ℝ) {rules : List Rule} {fc : FilterCollection}
    (hok : Style.build senv rules = .ok fc) {P : Str → Prop} (hm : Mentions rules P) (hk : ∀ k ∈ words ++ amounts, P k) (paint : Paint) (base : Building.Env ℝ) (lod : ℤ)
    (id : UInt64) (tags : List Tag) (start : Geo ℝ) (cs : List (Geo ℝ)) (hi : Building.hasIgnore tags = false)
    (hcs : PolygonSpec.opened base.epsilon ((start :: cs).map ground) ≠ [])
    (hr : Readable senv P (.area id tags (start :: cs))) (hc : Clear ar senv (decls senv rules lod (.area id tags (start :: cs))) tags)
    (hb : lastValue (decls senv rules lod (.area id tags (start :: cs))) "building".toList = some "true".toList)
    (hno : lastValue (decls senv rules lod (.area id tags (start :: cs))) "roof-type".toList = none) (rest : List El) :
    deliver ar senv paint base fc lod (.area id tags (start :: cs) :: rest) = .ub "end iterator" := by
  obtain ⟨s, h1, b, h2, h3, h4⟩ := C111_style_partial ar hz hs senv hok hm hk paint lod _ hr hc
  have hun := fun o => C111_unique_partial ar hz hs senv tags o
  rw [hb] at h2
  have hbt : b = "true".toList := (hun _).2 _ _ h2 (.plain _ (by
    intro blanks rest h hb hp
    cases blanks with
    | nil =>
      simp only [List.nil_append] at h
      subst h
      revert hp
      decide
    | cons c cs =>
      have h0 : c = 't' := by
        have := congrArg List.head? h
        simpa using this.symm
      subst h0
      have := hb 't' (List.mem_cons_self ..)
      revert this
      decide))
  have hd := h4 hbt
  have hroof : s.roofType = "" := by
    have := hd.roofType
    rw [hno] at this
    exact String.toList_inj.1 ((hun _).2 _ _ this .nothing)
  have hsty : styleOf ar senv paint fc lod (.area id tags (start :: cs)) = s := by
    simp only [styleOf, h1]
  have hbld := h3.2 hbt
  let env : Building.Env ℝ := { base with style := styleOf ar senv paint fc lod }
  let part : BuildingSpec.Part ℝ := ⟨s, [((start :: cs).map BuildingSpec.ground, false)]⟩
  obtain ⟨p, _, hp, -⟩ := C45_closed_partial env.epsilon env.huge env.tiny part.rings (by
    intro r hr
    rw [List.mem_singleton.1 hr]
    simp)
  have hv := BuildingProof.first_point env part p hp start (cs.map BuildingSpec.ground) [] rfl (by
    intro r hr
    rw [List.mem_singleton.1 hr]
    exact hcs)
  have hring : Polygon.addContour base.epsilon base.huge base.tiny (Building.newPolygon env) (Building.toPoints (start :: cs)) false = .ok p := by
    have h0 : Polygon.addAll env.epsilon env.huge env.tiny { rectangle := .empty env.huge env.tiny } part.rings = .ok p := hp
    simp only [part, Polygon.addAll] at h0
    cases hx : Polygon.addContour env.epsilon env.huge env.tiny { rectangle := .empty env.huge env.tiny } ((start :: cs).map BuildingSpec.ground) false with
    | ok p' =>
      rw [hx] at h0
      simp only [Outcome.bind] at h0
      cases h0
      exact hx
    | throw e => rw [hx] at h0; cases h0
    | ub e => rw [hx] at h0; cases h0
  have hnone : Building.roofOf env s.roofType = none := by
    rw [hroof]
    simp [Building.roofOf]
  have hdraw : Building.draw env s id p {} = .ub "end iterator" := by
    simp only [Building.draw, hv, Outcome.bind, Building.attachRoof, hnone]
  have htop : Building.top env {} (.area id tags (start :: cs)) = .ub "end iterator" := by
    have hstyle : env.style (.area id tags (start :: cs)) = s := hsty
    simp only [Building.top, Element.tags, hi, Building.visit, hstyle, hbld, Building.ensureContext, Building.addRing, if_true, Bool.false_eq_true, if_false]
    show (((Polygon.addContour base.epsilon base.huge base.tiny (Building.newPolygon env) (Building.toPoints (start :: cs)) false).bind fun p => _).bind _) = _
    rw [hring]
    simp only [Outcome.bind, Building.build, hdraw]
  unfold deliver
  simp only [Building.topAll]
  rw [show Building.top { base with style := styleOf ar senv paint fc lod } {} (.area id tags (start :: cs)) = _ from htop]
  rfl

namespace BuildingSheetProof.Sample

/-- The strings which have a number. -/
def table : List Str := [['a'], ['b'], "builder".toList] ++ words ++ amounts

/-- A string table which knows the numbers of the stylesheet. -/
noncomputable def strings : Style.Env ℝ := ⟨fun s => UInt32.ofNat (table.idxOf s), fun i => table.getD i.toNat [],
  fun s => if s = ['1', '2'] then 12 else if s = ['2'] then 2 else 0, fun _ _ => false, fun _ => none⟩

/-- Arithmetic without numerals in expressions. -/
noncomputable def arith : Arith ℝ := ⟨0, (· + ·), (· - ·), (· * ·), (· / ·), (- ·), fun _ => [], fun _ => none⟩

/-- `area|z1-16[a=b] { builder: building; building: true; height: 12m; min-height: 2m; roof-type: flat; facade-type: flat; }` -/
def rule : Rule := ⟨[⟨["area".toList], ⟨1, 16⟩, [⟨['a'], ['='], ['b']⟩]⟩],
  [⟨"builder".toList, "building".toList⟩, ⟨"building".toList, "true".toList⟩, ⟨"height".toList, ['1', '2', 'm']⟩, ⟨"min-height".toList, ['2', 'm']⟩,
    ⟨"roof-type".toList, "flat".toList⟩, ⟨"facade-type".toList, "flat".toList⟩]⟩

/-- The same without heights and types. -/
def bare : Rule := { rule with declarations := [⟨"builder".toList, "building".toList⟩, ⟨"building".toList, "true".toList⟩] }

/-- A house. -/
def house : El := .area 7 [⟨0, 1⟩] [⟨0, 0⟩, ⟨0, 4⟩, ⟨3, 4⟩, ⟨3, 0⟩]

theorem mentions : Mentions [rule] (· ∈ table) := by
  unfold Mentions
  decide

theorem back : ∀ s ∈ table, strings.getString (strings.getId s) = s := by
  show ∀ s ∈ table, table.getD (UInt32.ofNat (table.idxOf s)).toNat [] = s
  decide

theorem readable : Readable strings (· ∈ table) house := by
  refine ⟨⟨back, ?_⟩, by simp [house, Element.tags], ?_⟩
  · intro t ht _ _
    simp only [house, Element.tags, List.mem_singleton] at ht
    subst ht
    show UInt32.ofNat (table.idxOf (table.getD (0 : UInt32).toNat [])) = 0 ∧ UInt32.ofNat (table.idxOf (table.getD (1 : UInt32).toNat [])) = 1
    decide
  · intro k _ a ha b hb _ _
    simp only [house, Element.tags, List.mem_singleton] at ha hb
    rw [ha, hb]

theorem house_decls (ds : List Declaration) : decls strings [{ rule with declarations := ds }] 1 house = ds := by
  have h : idRules strings (1 : ℤ).toNat house.id [{ rule with declarations := ds }] = [] := by
    simp [idRules, rule]
  have ha : Applies strings (1 : ℤ).toNat house.tags ⟨["area".toList], ⟨1, 16⟩, [⟨['a'], ['='], ['b']⟩]⟩ := by
    refine ⟨by unfold InZoom; decide, fun c hc => ?_⟩
    rw [List.mem_singleton.1 hc]
    refine ⟨⟨0, 1⟩, by simp [house, Element.tags], ?_, .inr (.inl ⟨rfl, ?_⟩)⟩
    · show table.getD (0 : UInt32).toNat [] = ['a']
      decide
    · show table.getD (1 : UInt32).toNat [] = ['b']
      decide
  have hk : kindName (Style.kindOfElement house) = "area".toList := rfl
  unfold decls
  rw [h]
  simp only [declared, applied, List.flatMap_cons, List.flatMap_nil, List.append_nil]
  conv_lhs => unfold rule
  simp only [List.flatMap_cons, List.flatMap_nil, List.append_nil]
  rw [if_pos ⟨hk.symm, ha⟩]
  exact List.flatten_singleton

theorem plain (c : Char) (w : Str) (h1 : c ≠ 'e') (h2 : StyleEval.isSpace c = false) : StyleValueSpec.Plain (c :: w) := by
  intro blanks rest h hb hp
  cases blanks with
  | nil =>
    simp only [List.nil_append] at h
    subst h
    obtain ⟨t, ht⟩ := hp
    simp only [List.cons_append, List.cons.injEq] at ht
    exact h1 ht.1.symm
  | cons b bs =>
    simp only [List.cons_append, List.cons.injEq] at h
    obtain ⟨rfl, -⟩ := h
    rcases hb c (List.mem_cons_self ..) with rfl | rfl | rfl | rfl | rfl | rfl <;> revert h2 <;> decide

theorem clear : Clear arith strings rule.declarations house.tags := by
  constructor
  · intro k hk
    simp only [words, List.mem_cons, List.not_mem_nil, or_false] at hk
    rcases hk with rfl | rfl | rfl | rfl | rfl | rfl | rfl | rfl | rfl
    · exact ⟨_, .plain _ (plain 't' ['r', 'u', 'e'] (by decide) (by decide))⟩
    · exact ⟨_, .nothing⟩
    · exact ⟨_, .plain _ (plain 'f' ['l', 'a', 't'] (by decide) (by decide))⟩
    · exact ⟨_, .nothing⟩
    · exact ⟨_, .nothing⟩
    · exact ⟨_, .nothing⟩
    · exact ⟨_, .plain _ (plain 'f' ['l', 'a', 't'] (by decide) (by decide))⟩
    · exact ⟨_, .nothing⟩
    · exact ⟨_, .nothing⟩
  · intro k hk
    simp only [amounts, List.mem_cons, List.not_mem_nil, or_false] at hk
    rcases hk with rfl | rfl | rfl | rfl | rfl | rfl | rfl
    · exact ⟨_, .metres ['1', '2']⟩
    · exact ⟨_, .metres ['2']⟩
    · exact ⟨_, .nothing⟩
    · exact ⟨_, .nothing⟩
    · exact ⟨_, .nothing⟩
    · exact ⟨_, .nothing⟩
    · exact ⟨_, .nothing⟩

/-- Ground at 100 metres, and a library which returns two triangles. -/
noncomputable def ground (paint : Paint) : Building.Env ℝ := ⟨1 / 1000, 1000, 1 / 1000, fun _ => noPart paint, fun _ => 100,
  fun _ => ⟨[⟨0, 0⟩, ⟨4, 0⟩, ⟨4, 3⟩, ⟨0, 3⟩], [(0, 1, 2), (2, 3, 0)]⟩, fun _ => none, fun _ => none⟩

end BuildingSheetProof.Sample
open BuildingSheetProof.Sample

/-- A stylesheet without a type of roofs. -/
example (paint : Paint) : ∃ fc, Style.build strings [bare] = .ok fc ∧
    deliver arith strings paint (BuildingSheetProof.Sample.ground paint) fc 1 [house] = .ub "end iterator" := by
  obtain ⟨fc, hok⟩ : ∃ fc, Style.build strings [bare] = .ok fc := ⟨_, rfl⟩
  refine ⟨fc, hok, ?_⟩
  have hds : decls strings [bare] 1 house = _ := house_decls [⟨"builder".toList, "building".toList⟩, ⟨"building".toList, "true".toList⟩]
  refine C111_violated_no_roof arith rfl (fun _ => ⟨rfl, rfl⟩) strings hok (P := (· ∈ table)) ?_ (by decide) paint _ 1 7 _ ⟨0, 0⟩ _ (by decide) ?_ readable ?_ ?_ ?_ []
  · unfold Mentions
    decide
  · show PolygonSpec.opened (1 / 1000 : ℝ) _ ≠ []
    norm_num [PolygonSpec.opened, BuildingSpec.ground]
    exact List.cons_ne_nil _ _
  · rw [show decls strings [bare] 1 (.area 7 _ _) = _ from hds]
    constructor
    · intro k hk
      simp only [words, List.mem_cons, List.not_mem_nil, or_false] at hk
      rcases hk with rfl | rfl | rfl | rfl | rfl | rfl | rfl | rfl | rfl
      · exact ⟨_, .plain _ (plain 't' ['r', 'u', 'e'] (by decide) (by decide))⟩
      all_goals exact ⟨_, .nothing⟩
    · intro k hk
      simp only [amounts, List.mem_cons, List.not_mem_nil, or_false] at hk
      rcases hk with rfl | rfl | rfl | rfl | rfl | rfl | rfl
      all_goals exact ⟨_, .nothing⟩
  · rw [show decls strings [bare] 1 (.area 7 _ _) = _ from hds]
    rfl
  · rw [show decls strings [bare] 1 (.area 7 _ _) = _ from hds]
    rfl

/-- One mesh is delivered for a house, whose walls begin 2 metres above the ground and end 12 metres above it, with a roof and a floor. -/
example (paint : Paint) :
    ∃ fc m p roof floor, Style.build strings [BuildingSheetProof.Sample.rule] = .ok fc ∧ deliver arith strings paint (BuildingSheetProof.Sample.ground paint) fc 1 [house] = .ok [(7, m)] ∧
      FlatFaces (paint [] 0 [] 0 7) 112 false p roof ∧ FlatFaces (paint [] 0 [] 0 7) 102 true p floor ∧
      Paints m ((roof ++ floor).map (fun x => (x, (paint [] 0 [] 0 7).texture)) ++
        (ringWalls (paint [] 0 [] 0 7) 102 112 [⟨0, 0⟩, ⟨4, 0⟩, ⟨4, 3⟩, ⟨0, 3⟩]).map (fun x => (x, (paint [] 0 [] 0 7).texture))) [] := by
  obtain ⟨fc, hok⟩ : ∃ fc, Style.build strings [BuildingSheetProof.Sample.rule] = .ok fc := ⟨_, rfl⟩
  have hw : ∀ x, Within x house → x = house := by
    intro x hx
    cases hx
    rfl
  have hs : StyleEvalSpec.Sane arith := fun _ => ⟨rfl, rfl⟩
  obtain ⟨style, h1, h2⟩ := C111_meshes_partial arith rfl hs strings hok mentions (by decide) paint (BuildingSheetProof.Sample.ground paint) 1 [house] (by
    intro e he x hx
    rw [List.mem_singleton.1 he] at hx
    rw [hw x hx, show decls strings [BuildingSheetProof.Sample.rule] 1 house = _ from house_decls _]
    exact ⟨readable, clear⟩)
  have ht := h1 house (by simp) house (.self _)
  rw [show decls strings [BuildingSheetProof.Sample.rule] 1 house = _ from house_decls _] at ht
  obtain ⟨b, hb1, hb2, hb3⟩ := ht
  have hun := fun o => C111_unique_partial arith rfl hs strings house.tags o
  have hb : b = "true".toList := (hun _).2 _ _ hb1 (.plain _ (plain 't' ['r', 'u', 'e'] (by decide) (by decide)))
  have hd := hb3 hb
  have hbt : (style house).building = true := hb2.2 hb
  have e1 : (style house).height = 12 := by
    have := (hun _).1 _ _ hd.height (.metres ['1', '2'])
    rw [this]; simp [strings]
  have e2 : (style house).minHeight = 2 := by
    have := (hun _).1 _ _ hd.minHeight (.metres ['2'])
    rw [this]; simp [strings]
  have e3 : (style house).roofType = "flat" := String.toList_inj.1 ((hun _).2 _ _ hd.roofType (.plain _ (plain 'f' ['l', 'a', 't'] (by decide) (by decide))))
  have e4 : (style house).facadeType = "flat" := String.toList_inj.1 ((hun _).2 _ _ hd.facadeType (.plain _ (plain 'f' ['l', 'a', 't'] (by decide) (by decide))))
  have e5 : (style house).roofLook = paint [] 0 [] 0 := by
    obtain ⟨g, i, t, c, w1, w2, w3, w4, w5⟩ := hd.roofLook
    rw [w5, (hun _).2 _ _ w1 .nothing, (hun _).1 _ _ w2 .nothing, (hun _).2 _ _ w3 .nothing, (hun _).1 _ _ w4 .nothing]
  have e6 : (style house).facadeLook = paint [] 0 [] 0 := by
    obtain ⟨g, i, t, c, w1, w2, w3, w4, w5⟩ := hd.facadeLook
    rw [w5, (hun _).2 _ _ w1 .nothing, (hun _).1 _ _ w2 .nothing, (hun _).2 _ _ w3 .nothing, (hun _).1 _ _ w4 .nothing]
  have hparts : BuildingSpec.parts style house = [⟨style house, [([⟨0, 0⟩, ⟨4, 0⟩, ⟨4, 3⟩, ⟨0, 3⟩], false)]⟩] := by
    have : (style (.area 7 [⟨0, 1⟩] [⟨0, 0⟩, ⟨0, 4⟩, ⟨3, 4⟩, ⟨3, 0⟩])).building = true := hbt
    simp [house, BuildingSpec.parts, this, BuildingSpec.ground]
  have hopen : PolygonSpec.opened (1 / 1000 : ℝ) [⟨0, 0⟩, ⟨4, 0⟩, ⟨4, 3⟩, ⟨0, 3⟩] = [⟨0, 0⟩, ⟨4, 0⟩, ⟨4, 3⟩, ⟨0, 3⟩] := by
    norm_num [PolygonSpec.opened]
  obtain ⟨ms, h3, h4⟩ := h2 (by intro e he; rw [List.mem_singleton.1 he]; trivial) (by
    intro e he part hp
    rw [List.mem_singleton.1 he, hparts, List.mem_singleton] at hp
    subst hp
    refine ⟨⟨⟨0, 0⟩, _, _, rfl⟩, ?_, ?_, by rw [e3]; decide, e4⟩
    · intro r hr
      rw [List.mem_singleton.1 hr]
      show PolygonSpec.opened (1 / 1000 : ℝ) _ ≠ []
      rw [hopen]
      simp
    · intro p _
      show ∀ t ∈ [((0 : Int), (1 : Int), (2 : Int)), (2, 3, 0)], ∀ c ∈ [t.1, t.2.1, t.2.2], 0 ≤ c ∧ c < 4
      decide)
  have hdel : Delivered style house = true := by
    have : (style (.area 7 [⟨0, 1⟩] [⟨0, 0⟩, ⟨0, 4⟩, ⟨3, 4⟩, ⟨3, 0⟩])).building = true := hbt
    simp only [house, Delivered, this, Bool.and_true, Bool.not_eq_true']
    decide
  rw [List.filter_cons_of_pos hdel, List.filter_nil] at h4
  cases h4 with
  | @cons _ mm _ _ hc hl =>
    cases hl
    obtain ⟨i, m⟩ := mm
    obtain ⟨hid, faces, f1, f2, -⟩ := hc
    simp only at hid
    subst hid
    rw [hparts] at f1
    cases f1 with
    | @cons _ face _ _ f3 f4 =>
      cases f4
      obtain ⟨start, ring, rest, p, outlines, holes, bottom, top, roof, floor, g1, g2, g3, g4, g5, g6, g7, g8, g9, g10, g11⟩ := f3
      have ho : outlines = [[⟨0, 0⟩, ⟨4, 0⟩, ⟨4, 3⟩, ⟨0, 3⟩]] := by
        rw [g2]
        show [PolygonSpec.opened (1 / 1000 : ℝ) [⟨0, 0⟩, ⟨4, 0⟩, ⟨4, 3⟩, ⟨0, 3⟩]] = _
        rw [hopen]
      have hh : holes = [] := by simpa using g3
      simp only [e2] at g7
      simp only [e1] at g8
      have hbot : bottom = 102 := by rw [g7]; show (100 : ℝ) + 2 = 102; norm_num
      have htop : top = 112 := by rw [g8]; show (100 : ℝ) + _ = 112; norm_num
      simp only [e2, e5] at g9 g10
      rw [if_pos (by norm_num)] at g10
      rcases g9 with ⟨g, -⟩ | ⟨-, g⟩ | ⟨g, -⟩
      · rw [e3] at g; exact absurd g (by decide)
      · refine ⟨fc, m, _, roof, floor, hok, h3, by rw [← htop]; exact g, by rw [← hbot]; exact g10, ?_⟩
        rw [g11] at f2
        simpa [ho, hh, e5, e6, hbot, htop, show Element.id house = 7 from rfl] using f2
      · rw [e3] at g; exact absurd g (by decide)

end Verif.Props
