import Verif.Props.SceneSpec
import Verif.Props.DirectHouse
import Verif.Props.OsmWords
import Verif.Props.PlantSheet
import Verif.Props.TerrainSheet
import Verif.Props.PbfFile

/-! # C121: all what is drawn in a tile is as the stylesheet says, from any file, also after a restart -/
namespace Verif.Props
open Verif.Clipper (El)
open Verif.Style (Rule FilterCollection Str)
open Verif.StyleSpec Verif.LoadTileSpec Verif.QuadKeyBuilderSpec Verif.SceneSpec Verif.DirectLoadSpec Verif.OsmWordsSpec Verif.PaletteSpec
open Verif.BuildingSheetSpec (Within)
open Verif.Palette (palette)
open Verif.LoadTile
open Verif.Import (Env Target)
open Verif.ImportSpec (seen)
open Verif.GeoStoreSpec (Stores)
open Verif.PersistentStore (Store)
open Verif.DiskImport Verif.DiskImportSpec
open Verif.Props.GeoStoreProof (Abs)

namespace SceneProof

theorem key_building {k : Str} (h : k ∈ BuildingSheetSpec.words ++ BuildingSheetSpec.amounts) : k ∈ keys := by
  simp only [keys, List.mem_append] at h ⊢; tauto

theorem key_terrain {k : Str} (h : k ∈ TerrainSheetSpec.elementKeys) : k ∈ keys := by
  simp only [keys, List.mem_append]; tauto

theorem key_cell : "grid-cell-size".toList ∈ keys := by
  simp only [keys, List.mem_append, List.mem_singleton]; tauto

theorem key_barrier {k : Str} (h : k ∈ BarrierSheetSpec.keys) : k ∈ keys := by
  simp only [keys, List.mem_append]; tauto

theorem key_plant {k : Str} (h : k ∈ PlantSheetSpec.keys) : k ∈ keys := by
  simp only [keys, List.mem_append]; tauto

section

variable {D : Type} {senv : Style.Env D} {P : Str → Prop}

/-- Members without tags, at any depth. -/
def Bare (e : El) : Prop := ∀ x, Within x e → x.tags = []

theorem bare_readable (hb : ∀ s, P s → senv.getString (senv.getId s) = s) {e : El} (hr : Readable senv P e) (h : ∀ i t ms, e = .relation i t ms → ∀ m ∈ ms, Bare m) : AllReadable senv P e := by
  intro x hx
  cases hx with
  | self => exact hr
  | member hm hw => exact DirectLoadProof.readable_nil hb (h _ _ _ rfl _ hm x hw)

theorem bare_leaf {e : El} (hne : ∀ i t ms, e ≠ .relation i t ms) (h : e.tags = []) : Bare e := by
  intro x hx
  rw [OsmWordsProof.within_leaf hne hx, h]

theorem mapAll_mem {C C' : Type} (f : C → C') : ∀ (ms : List (Element C)) {m : Element C'}, m ∈ mapAll f ms → ∃ m' ∈ ms, m = mapCoords f m'
  | [], _, h => by cases h
  | a :: ms, m, h => by
    rw [mapAll] at h
    rcases List.mem_cons.1 h with rfl | h
    · exact ⟨a, List.mem_cons_self, rfl⟩
    · obtain ⟨m', h1, h2⟩ := mapAll_mem f ms h
      exact ⟨m', List.mem_cons_of_mem _ h1, h2⟩

theorem piece_bare {same : ℝ × ℝ → ℝ × ℝ → Bool} {f : ℝ × ℝ → Geo ℝ} {id : UInt64} {ps : List (ℝ × ℝ)} {e : Element (ℝ × ℝ)} (h : JsonSpec.Piece same id [] ps e) : Bare (mapCoords f e) := by
  cases h <;> exact bare_leaf (by intro i t ms h; simp [mapCoords] at h) rfl

theorem group_members {same : ℝ × ℝ → ℝ × ℝ → Bool} {f : ℝ × ℝ → Geo ℝ} {id : UInt64} {tags : List Tag} {rings : List (List (ℝ × ℝ))} {e : Element (ℝ × ℝ)}
    (h : JsonSpec.Group same id tags rings e) : ∀ i t ms, mapCoords f e = .relation i t ms → ∀ m ∈ ms, Bare m := by
  intro i t ms he m hm
  cases h with
  | single ps e h => cases h <;> simp [mapCoords] at he
  | several rings members h hms =>
    simp only [mapCoords] at he
    injection he with _ _ he
    subst he
    obtain ⟨m', h1, rfl⟩ := mapAll_mem f _ hm
    obtain ⟨ps, -, h2⟩ := JsonImportProof.forall₂_right hms m' h1
    exact piece_bare h2

theorem group_bare {same : ℝ × ℝ → ℝ × ℝ → Bool} {f : ℝ × ℝ → Geo ℝ} {id : UInt64} {rings : List (List (ℝ × ℝ))} {e : Element (ℝ × ℝ)}
    (h : JsonSpec.Group same id [] rings e) : Bare (mapCoords f e) := by
  have ht : (mapCoords f e).tags = [] := by
    cases h with
    | single ps e h => cases h <;> rfl
    | several => rfl
  have hm := group_members (f := f) h
  intro x hx
  generalize mapCoords f e = e' at *
  cases hx with
  | self => exact ht
  | member h1 h2 => exact hm _ _ _ rfl _ h1 x h2

theorem json_all {J : Json.Tools ℝ} (hJ : ∀ s, J.getId s = senv.getId s.toList) {cs : List (String × List (JsonSpec.Feature ℝ))} (hw : JsonWords senv P cs) {els : List El}
    (h : List.Forall₂ (JsonImportSpec.Shows J) (JsonImportSpec.features cs) els) : ∀ e ∈ els, AllReadable senv P e := by
  intro e he
  refine bare_readable hw.back (DirectLoadProof.json_readable hJ hw h e he).1 ?_
  obtain ⟨x, -, id, tags, d, -, -, h3, rfl⟩ := JsonImportProof.forall₂_right h e he
  generalize x.2.1 = geometry at h3
  cases h3 with
  | point => intro i t ms h; simp [mapCoords] at h
  | line => intro i t ms h; simp [mapCoords] at h
  | polygon _ _ h => exact group_members h
  | multiLine _ _ h => exact group_members h
  | multiPolygon polygons members h =>
    intro i t ms he m hm
    simp only [mapCoords] at he
    injection he with _ _ he
    subst he
    obtain ⟨m', h1, rfl⟩ := mapAll_mem _ _ hm
    obtain ⟨ps, -, h2⟩ := JsonImportProof.forall₂_right h m' h1
    exact group_bare h2

theorem shape_all {env : Env} (henv : env.getId = fun s => senv.getId s.toList) {fields : List (String × DirectImport.FieldType)}
    {entries : List (Option (ShapeImportSpec.Figure × List (Option String)))} (hw : ShapeWords senv P fields entries) {els : List El}
    (h : List.Forall₂ (fun (f : ShapeImportSpec.Figure × List (Option String)) e => ∃ tags, ShapeImportSpec.Tagged env.getId fields f.2 tags ∧ ShapeImportSpec.Shows env.eps tags f.1 e)
      (entries.filterMap id) els) : ∀ e ∈ els, AllReadable senv P e := by
  intro e he
  refine bare_readable hw.back (DirectLoadProof.shape_readable henv hw h e he).1 ?_
  obtain ⟨⟨f, vs⟩, -, tags, -, h3⟩ := JsonImportProof.forall₂_right h e he
  intro i t ms hrel m hm
  subst hrel
  cases f with
  | point c => cases h3
  | line cs => obtain ⟨a, z, -, -, ⟨-, h3⟩ | ⟨-, h3⟩⟩ := h3 <;> cases h3
  | polygon parts =>
    obtain ⟨ms', h3, h4⟩ := h3
    injection h3 with _ _ h3
    subst h3
    obtain ⟨p, -, ⟨c, -, rfl⟩ | ⟨-, rfl⟩⟩ := JsonImportProof.forall₂_right h4 m hm <;> exact bare_leaf (by intro i t ms h; cases h) rfl

end

end SceneProof
open SceneProof

/-- C121 (partial): when the builders of a tile got the elements for which the rules name them, then houses, ground, barriers, trees and lamps are drawn as the rules say. Missing: what
C112, C114, C115 and C117 leave open. -/
theorem C121_scene_partial (S : Studio) (hS : S.Ready) {rules : List Rule} {fc : FilterCollection} (hok : Style.build S.senv rules = .ok fc) {P : Str → Prop} (hm : Mentions rules P)
    (hback : ∀ s, P s → S.senv.getString (S.senv.getId s) = s) (hkeys : ∀ k ∈ keys, P k) {xs : List Atlas.Text} {texts : List (List Char)} (hx : AtlasTexts xs texts)
    (systems : Assoc Str LsysText.System) {q : QuadKey} {pal : Palette.Palette} (hpal : palette S.cast S.outside texts q = .ok pal) {l : List El} {t : List (QuadKeyBuilder.Event (Geo ℝ))}
    (hr : ∀ e ∈ l.flatMap parts, AllReadable S.senv P e) (ht : ∀ b, LifeCycle b t ∧ (visited b t).Perm (buildWith S.senv rules q.lod b l)) :
    Scene S rules P fc systems xs pal q l t := by
  have hin : ∀ b, ∀ e ∈ visited b t, e ∈ l.flatMap parts := fun b e he => List.mem_of_mem_filter ((ht b).2.mem_iff.1 he)
  constructor
  · intro hc
    have hp := (ht "building".toList).2
    obtain ⟨pal', style, hpal', h11, h12⟩ := C117_colors_partial S.cast hS.reads S.outside hx S.ar hS.zero hS.sane S.senv hok hm (fun k hk => hkeys k (key_building hk)) hS.standard S.houses q
      (visited "building".toList t) (fun e he x hx => ⟨hr e (hin _ e he) x hx, (hc e (hin _ e he) x hx).1⟩) (fun e he x hx => (hc e (hin _ e he) x hx).2)
    rw [hpal] at hpal'
    injection hpal' with hpal'
    subst hpal'
    refine ⟨style, fun e he => h11 e (hp.mem_iff.2 he), fun hall => ?_⟩
    obtain ⟨ms, h13, h14⟩ := h12 (fun e he => (hall e (hp.mem_iff.1 he)).1) (fun e he => (hall e (hp.mem_iff.1 he)).2)
    exact ⟨ms, _, h13, hp.filter _, h14⟩
  · intro es hes hclear
    obtain ⟨hlife, hp⟩ := ht "terrain".toList
    rw [← hes] at hp
    obtain ⟨benv, b1, b2, b3⟩ := C112_ground_partial S.ar hS.zero hS.sane S.senv hok hm hback (fun k hk => hkeys k (key_terrain hk)) (hkeys _ key_cell) S.brush hS.triangulates S.ground
      S.sortRegions S.sortLayers hS.sorts q (visited "terrain".toList t) (TerrainSheetProof.clear_perm hp.symm hclear)
    refine ⟨visited "terrain".toList t, benv, hp, ?_, TerrainSheetProof.follows_perm hp b1, b2, fun s hs' X wind hx => TerrainSheetProof.ground_perm hp (b3 s hs' X wind hx)⟩
    rw [TerrainSheetProof.calls_of hlife]
    by_cases h0 : es = []
    · rw [if_pos h0, if_pos (by subst h0; exact hp.eq_nil)]
    · rw [if_neg h0, if_neg (fun h => h0 (by rw [h] at hp; exact hp.symm.eq_nil))]
  · intro hc
    have hp := (ht "barrier".toList).2
    obtain ⟨pal', hpal', h1⟩ := C114_colors_partial S.cast hS.reads S.outside hx S.ar hS.zero hS.sane S.senv hok hm (fun k hk => hkeys k (key_barrier hk)) (S.elevation q) hS.positive.le q
    rw [hpal] at hpal'
    injection hpal' with hpal'
    subst hpal'
    obtain ⟨style, h2, h3⟩ := h1 (visited "barrier".toList t) fun e he => ⟨hr e (hin _ e he) e (.self e), hc e (hp.mem_iff.1 he)⟩
    exact ⟨style, _, hp, h2, h3⟩
  · intro kind G n rank hrank hn1 hn2 hn3 hn4 plant hclear
    have hp := (ht (PlantSheetSpec.builderName kind)).2
    obtain ⟨style, h11, h12⟩ := C115_meshes_partial S.cast hS.reads S.outside hx S.ar hS.zero hS.sane S.senv hok hm (fun k hk => hkeys k (key_plant hk)) (S.elevation q) hS.positive hS.small q n
      (by rw [hn1]; exact hpal) rank hrank hn3 hn4 kind (visited (PlantSheetSpec.builderName kind) t) plant fun e he => by
        refine ⟨?_, hclear e ?_⟩
        · obtain ⟨e', he', hw⟩ := PlantSheetProof.leavesIn_within e _ he
          exact hr e' (hin _ e' he') e hw
        · rw [PlantSheetProof.leavesIn_mem] at he ⊢
          obtain ⟨e', he', hw⟩ := he
          exact ⟨e', hp.mem_iff.1 he', hw⟩
    exact ⟨style, _, hp, h11, h12⟩

namespace SceneProof

/-- The files of a stylesheet. -/
theorem sheet_read {T : MapCss.Tools Atlas.TextureAtlas LsysText.System} {S : Studio} (hT : T.atlas = Atlas.parse S.outside) (hL : T.lsystem = LsysText.parse)
    {css g : List Char} {entries : List (MapCssSpec.Entry Atlas.TextureAtlas LsysText.System)} (hcss : MapCssSpec.Reads T css g entries) (hgap : MapCssSpec.Gap g)
    {fc : FilterCollection} (hopen : Opened T S.senv css fc) :
    ∃ systems texts xs, Sheet T S css entries fc systems texts xs ∧ Style.build S.senv (rulesOf entries) = .ok fc ∧
      TerrainSheet.readAll (Atlas.parse S.outside) texts = .ok (entries.filterMap MapCssSpec.Entry.texture?) := by
  obtain ⟨texts, xs, t1, t2, t3⟩ := PaletteProof.sheet_atlases hT hcss
  obtain ⟨depth, hdep⟩ := hopen
  obtain ⟨depth', hdepth⟩ := C60_parse_partial T css g entries hcss hgap
  obtain ⟨sheet, a1, a2⟩ := hdepth (max depth depth') (le_max_right _ _)
  have hok : Style.build S.senv (rulesOf entries) = .ok fc := by
    have := hdep (max depth depth') (le_max_left _ _)
    rw [openSheet, a1] at this
    simp only [Outcome.bind] at this
    rwa [a2.1, LoadTileProof.toRule_rulesOf] at this
  refine ⟨sheet.lsystems, texts, xs, ⟨⟨depth, hdep⟩, ⟨sheet, _, a1, rfl⟩, a2.2.2, fun name s hn => ?_, t1, t2⟩, hok, t3⟩
  rw [a2.2.2] at hn
  exact PlantSheetProof.sheet_systems hL hcss name s (PlantSheetProof.found_in name s entries hn)

/-- A tile which is loaded with elements whose strings are known is drawn. -/
theorem drawn_of_loaded {K St Q : Type} [LinearOrder K] (I : GeoStore.Iface St El Q) (S : Studio) (hS : S.Ready) {T : MapCss.Tools Atlas.TextureAtlas LsysText.System} {css : List Char}
    {entries : List (MapCssSpec.Entry Atlas.TextureAtlas LsysText.System)} {fc : FilterCollection} {systems : Assoc Str LsysText.System} {texts : List (List Char)} {xs : List Atlas.Text}
    (hs : Sheet T S css entries fc systems texts xs) (hok : Style.build S.senv (rulesOf entries) = .ok fc)
    (ht : TerrainSheet.readAll (Atlas.parse S.outside) texts = .ok (entries.filterMap MapCssSpec.Entry.texture?)) {P : Str → Prop} (hm : Mentions (rulesOf entries) P)
    (hback : ∀ s, P s → S.senv.getString (S.senv.getId s) = s) (hkeys : ∀ k ∈ keys, P k) {m : GeoStore.Map K St} {q : QuadKey} {old new : List El}
    (hr : ∀ e ∈ new.flatMap QuadKeyBuilderSpec.parts, AllReadable S.senv P e) (hl : Loaded I S.senv (rulesOf entries) fc P m q old new) :
    Drawn I S entries P fc systems texts xs m q old new := by
  have hpal : ∃ pal, palette S.cast S.outside texts q = .ok pal ∧ pal.textures = Atlas.provide S.outside (entries.filterMap MapCssSpec.Entry.texture?) := ⟨_, by rw [palette, ht]; rfl, rfl⟩
  obtain ⟨pal, p1, p2⟩ := hpal
  refine ⟨pal, p1, p2, fun ho hdis sorted order hsorted horder => ?_⟩
  obtain ⟨t, h1, h2⟩ := hl (fun e he => ho e he e (.self e)) hdis sorted order hsorted horder
  refine ⟨t, h1, C121_scene_partial S hS hok hm hback hkeys hs.atlases systems p1 ?_ h2⟩
  intro e he
  rw [List.flatMap_append] at he
  rcases List.mem_append.1 he with he | he
  · exact ho e he
  · exact hr e he

end SceneProof

section

variable {K : Type} [LinearOrder K] (S : Studio) (hS : S.Ready) (T : MapCss.Tools Atlas.TextureAtlas LsysText.System) (hT : T.atlas = Atlas.parse S.outside) (hL : T.lsystem = LsysText.parse)
  {css g : List Char} {entries : List (MapCssSpec.Entry Atlas.TextureAtlas LsysText.System)} (hcss : MapCssSpec.Reads T css g entries) (hgap : MapCssSpec.Gap g)
  (hacc : (Style.build S.senv (rulesOf entries)).isOk = true) {P : Str → Prop} (hmen : Mentions (rulesOf entries) P) (hskip : P "skip".toList) (hclip : P "clip".toList)
  (hkeys : ∀ k ∈ keys, P k) (d : Doubles) (tokens : PersistentStore.El → List UInt32) (bad : UInt32 → Prop) (env : Env)
  {garbage : QuadKey → UInt32} (hg : ∀ q, bad (garbage q)) {m : GeoStore.Map K Store} {B : Stores K Store} (hm : Abs m B) {C : K → QuadKey → List El}
  (hC : ∀ k s, B k = some s → Holds d tokens bad s (C k)) {k : K} {s : Store} (hk : B k = some s) {target : Target} (ht : ImportSpec.Sensible target)

include hS hT hL hcss hgap hacc hmen hskip hclip hkeys hg hm hC hk ht

/-- C121 (partial): a stylesheet with its files and an OSM file, in XML or in PBF, are read, the file is imported into a store on disk, the program is started again, the stores are registered
again, other tiles are searched, and a tile is loaded. Then houses, ground, barriers, trees and lamps of the tile are drawn from the elements which are to be seen there as the stylesheet says.
Missing: what C112, C114, C115, C117 and C119 leave open. -/
theorem C121_osm_restart_partial (hsort : OsmSpec.Sorts env.sort) {h w u : List Char} {doc : OsmXmlSpec.Doc} (hh : OsmXmlSpec.Head h) (hw : OsmXmlSpec.PrintsBody doc w)
    (hf : ∃ v, w = '<' :: v) (hb : doc.bounds ≠ none ∨ doc.nodes ≠ []) (hd : ImportSpec.Sound doc) (hr : (doc.relations.map (·.id)).Nodup) (hwords : OsmWords S.senv P doc) :
    ∃ fc systems texts xs, Sheet T S css entries fc systems texts xs ∧
      ∃ x, ImportRelationsSpec.Describes env.eps (fun s => S.senv.getId s.toList) doc x ∧ (ResolveSpec.Sound (withSheet env S.senv fc).resolver x →
        ∃ es, List.Forall₂ (fun key e => ResolveSpec.Becomes (withSheet env S.senv fc).resolver x (.old key) e) (ResolveSpec.All x) es ∧
          ((∀ q, ∀ e ∈ es.filterMap (seen env.eng (wanted S.senv (rulesOf entries)) target q), Storable d tokens bad e) →
          (∀ q, size d (C k q ++ es.filterMap (seen env.eng (wanted S.senv (rulesOf entries)) target q)) < 2 ^ 32) →
          ∀ order : List UInt64 → List UInt64, (∀ l, (order l).Perm l) → ∃ N, ∀ n ≥ N,
            ∃ m', Import.importXml (diskIface d tokens garbage) { withSheet env S.senv fc with order := order, stack := n } m k target (h ++ (w ++ u)) = (m', .done) ∧
              (∀ (U : PbfFile.Tools) (cs : List PbfFileSpec.Content) (bytes : List UInt8), PbfFileSpec.FileOf U cs bytes → PbfFileSpec.Holds doc cs →
                PbfFile.importPbf (diskIface d tokens garbage) U { withSheet env S.senv fc with order := order, stack := n } m k target bytes = (m', .done)) ∧
              ∀ q, ∃ old, (GeoStore.step (diskIface d tokens garbage) m (.tile q)).2 = .elements old ∧
                ∀ stores, stores.Perm (disks m') → ∀ garbage' : QuadKey → UInt32, (∀ q, bad (garbage' q)) → ∀ qs : List QuadKey,
                  Drawn (diskIface d tokens garbage') S entries P fc systems texts xs
                    (GeoStore.run (diskIface d tokens garbage') GeoStore.init (registrations stores ++ qs.map .tile)).1 q old
                    (es.filterMap (seen env.eng (wanted S.senv (rulesOf entries)) target q)))) := by
  obtain ⟨fc, hopen, x, h2, h3⟩ := C119_restart_partial T hcss hgap S.senv hacc hmen hskip hclip d tokens bad env hsort hg hm hC hk ht (u := u) hh hw hf hb hd hr hwords
  obtain ⟨systems, texts, xs, hsheet, hok, htex⟩ := sheet_read hT hL hcss hgap hopen
  refine ⟨fc, systems, texts, xs, hsheet, x, h2, fun hsound => ?_⟩
  obtain ⟨es, h4, h5, h6⟩ := h3 hsound
  refine ⟨es, h4, fun hst hz order hord => ?_⟩
  obtain ⟨N, hN⟩ := h6 hst hz order hord
  refine ⟨N, fun n hn => ?_⟩
  obtain ⟨m', h7, h8⟩ := hN n hn
  refine ⟨m', h7, fun U cs bytes hfile hholds => by rw [C103_same_partial _ U _ m k target hfile hholds hh hw hf hb (u := u), h7], fun q => ?_⟩
  obtain ⟨old, h9, h10⟩ := h8 q
  exact ⟨old, h9, fun stores hs garbage' hg' qs => drawn_of_loaded _ S hS hsheet hok htex hmen hwords.back hkeys (h5 q) (h10 stores hs garbage' hg' qs)⟩

/-- C121 (partial): the same for a GeoJSON file. Missing: what C112, C114, C115, C117 and C118 leave open. -/
theorem C121_json_restart_partial (J : Json.Tools ℝ) (hJ : ∀ s, J.getId s = S.senv.getId s.toList) (hid : ∀ k, J.getId k = J.getId "id" → k = "id") (hsort : OsmSpec.Sorts J.sort)
    {t : Json.Tree} {cs : List (String × List (JsonSpec.Feature ℝ))} (hd : JsonSpec.IsDocument J.toDouble t cs) (hp : JsonImportSpec.Proper J.toId cs) (hw : JsonWords S.senv P cs) :
    ∃ fc systems texts xs els, Sheet T S css entries fc systems texts xs ∧ List.Forall₂ (JsonImportSpec.Shows J) (JsonImportSpec.features cs) els ∧
      ((∀ q, ∀ e ∈ els.filterMap (seen env.eng (wanted S.senv (rulesOf entries)) target q), Storable d tokens bad e) →
        (∀ q, size d (C k q ++ els.filterMap (seen env.eng (wanted S.senv (rulesOf entries)) target q)) < 2 ^ 32) →
        ∃ m', DirectImport.importJson (diskIface d tokens garbage) J (withSheet env S.senv fc) m k target (some t) = (m', .done) ∧
          ∀ q, ∃ old, (GeoStore.step (diskIface d tokens garbage) m (.tile q)).2 = .elements old ∧
            ∀ stores, stores.Perm (disks m') → ∀ garbage' : QuadKey → UInt32, (∀ q, bad (garbage' q)) → ∀ qs : List QuadKey,
              Drawn (diskIface d tokens garbage') S entries P fc systems texts xs
                (GeoStore.run (diskIface d tokens garbage') GeoStore.init (registrations stores ++ qs.map .tile)).1 q old
                (els.filterMap (seen env.eng (wanted S.senv (rulesOf entries)) target q))) := by
  obtain ⟨fc, els, hopen, h1, h2⟩ := C118_json_restart_partial T hcss hgap S.senv hacc hmen hskip hclip env J hJ hid hsort d tokens bad hg hm hC hk ht hd hp hw
  obtain ⟨systems, texts, xs, hsheet, hok, htex⟩ := sheet_read hT hL hcss hgap hopen
  refine ⟨fc, systems, texts, xs, els, hsheet, h1, fun hst hz => ?_⟩
  obtain ⟨m', h3, h4⟩ := h2 hst hz
  refine ⟨m', h3, fun q => ?_⟩
  obtain ⟨old, h5, h6⟩ := h4 q
  exact ⟨old, h5, fun stores hs garbage' hg' qs => drawn_of_loaded _ S hS hsheet hok htex hmen hw.back hkeys
    (OsmWordsProof.parts_readable hw.back (json_all hJ hw h1)) (h6 stores hs garbage' hg' qs)⟩

/-- C121 (partial): the same for a shape file. Missing: what C112, C114, C115, C117 and C118 leave open. -/
theorem C121_shape_restart_partial (hsort : OsmSpec.Sorts env.sort) (beyond : Nat) {files : DirectImport.Files} {fields : List (String × DirectImport.FieldType)}
    {figures : List (Option (ShapeImportSpec.Figure × List (Option String)))}
    (hf : ShapeImportSpec.Begins files fields figures []) (he : ShapeImportSpec.OnEarth figures) (hw : ShapeWords S.senv P fields figures) :
    ∃ fc systems texts xs els, Sheet T S css entries fc systems texts xs ∧
      List.Forall₂ (fun f e => ∃ tags, ShapeImportSpec.Tagged (fun s => S.senv.getId s.toList) fields f.2 tags ∧ ShapeImportSpec.Shows env.eps tags f.1 e) (figures.filterMap id) els ∧
      ((∀ q, ∀ e ∈ els.filterMap (seen env.eng (wanted S.senv (rulesOf entries)) target q), Storable d tokens bad e) →
        (∀ q, size d (C k q ++ els.filterMap (seen env.eng (wanted S.senv (rulesOf entries)) target q)) < 2 ^ 32) →
        ∃ m', DirectImport.importShape (diskIface d tokens garbage) (withSheet env S.senv fc) (some beyond) m k target files = (m', .done) ∧
          ∀ q, ∃ old, (GeoStore.step (diskIface d tokens garbage) m (.tile q)).2 = .elements old ∧
            ∀ stores, stores.Perm (disks m') → ∀ garbage' : QuadKey → UInt32, (∀ q, bad (garbage' q)) → ∀ qs : List QuadKey,
              Drawn (diskIface d tokens garbage') S entries P fc systems texts xs
                (GeoStore.run (diskIface d tokens garbage') GeoStore.init (registrations stores ++ qs.map .tile)).1 q old
                (els.filterMap (seen env.eng (wanted S.senv (rulesOf entries)) target q))) := by
  obtain ⟨fc, els, hopen, h1, h2⟩ := C118_shape_restart_partial T hcss hgap S.senv hacc hmen hskip hclip env hsort beyond d tokens bad hg hm hC hk ht hf he hw
  obtain ⟨systems, texts, xs, hsheet, hok, htex⟩ := sheet_read hT hL hcss hgap hopen
  refine ⟨fc, systems, texts, xs, els, hsheet, h1, fun hst hz => ?_⟩
  obtain ⟨m', h3, h4⟩ := h2 hst hz
  refine ⟨m', h3, fun q => ?_⟩
  obtain ⟨old, h5, h6⟩ := h4 q
  exact ⟨old, h5, fun stores hs garbage' hg' qs => drawn_of_loaded _ S hS hsheet hok htex hmen hw.back hkeys
    (OsmWordsProof.parts_readable hw.back (shape_all (env := withSheet env S.senv fc) rfl hw h1)) (h6 stores hs garbage' hg' qs)⟩

end

namespace SceneProof.Sample
open PlantSheetProof.Sample (rule lamps street arith lamp nursery post good growable rank rank_inj picks)
open BuildingSheetProof.Sample (plain)
open PlantSheetSpec (Spaced)
open BuildingSheetSpec (Amount)

/-- The strings which have a number. -/
def table : List Str := [['a'], ['b'], "builder".toList] ++ keys

/-- A string table which knows the numbers of the stylesheet. -/
noncomputable def strings : Style.Env ℝ := ⟨fun s => UInt32.ofNat (table.idxOf s), fun i => table.getD i.toNat [],
  fun s => if s = ['1', '2'] then 12 else if s = ['2'] then 2 else 0, fun _ _ => false, fun _ => none⟩

theorem back : ∀ s ∈ table, strings.getString (strings.getId s) = s := by
  show ∀ s ∈ table, table.getD (UInt32.ofNat (table.idxOf s)).toNat [] = s
  decide +kernel

theorem readable : Readable strings (· ∈ table) street := by
  refine ⟨⟨back, ?_⟩, by simp [street, Element.tags], ?_⟩
  · intro t ht _ _
    simp only [street, Element.tags, List.mem_singleton] at ht
    subst ht
    show UInt32.ofNat (table.idxOf (table.getD (0 : UInt32).toNat [])) = 0 ∧ UInt32.ofNat (table.idxOf (table.getD (1 : UInt32).toNat [])) = 1
    decide +kernel
  · intro k _ a ha b hb _ _
    simp only [street, Element.tags, List.mem_singleton] at ha hb
    rw [ha, hb]

theorem street_decls (ds : List Style.Declaration) : decls strings [rule ds] 1 street = ds := by
  have h : idRules strings (1 : ℤ).toNat street.id [rule ds] = [] := by
    simp [idRules, rule]
  have ha : Applies strings (1 : ℤ).toNat street.tags ⟨["way".toList], ⟨1, 16⟩, [⟨['a'], ['='], ['b']⟩]⟩ := by
    refine ⟨by unfold InZoom; decide, fun c hc => ?_⟩
    rw [List.mem_singleton.1 hc]
    refine ⟨⟨0, 1⟩, by simp [street, Element.tags], ?_, .inr (.inl ⟨rfl, ?_⟩)⟩
    · show table.getD (0 : UInt32).toNat [] = ['a']
      decide +kernel
    · show table.getD (1 : UInt32).toNat [] = ['b']
      decide +kernel
  have hk : kindName (Style.kindOfElement street) = "way".toList := rfl
  unfold decls
  rw [h]
  simp only [declared, applied, List.flatMap_cons, List.flatMap_nil, List.append_nil]
  conv_lhs => unfold rule
  simp only [List.flatMap_cons, List.flatMap_nil, List.append_nil]
  rw [if_pos ⟨hk.symm, ha⟩]
  exact List.flatten_singleton

theorem two : Amount arith strings street.tags (some ['2', 'm']) 2 := by
  have := Amount.metres (ar := arith) (senv := strings) (tags := street.tags) ['2']
  simpa [strings] using this

theorem twelve : Amount arith strings street.tags (some ['1', '2', 'm']) 12 := by
  have := Amount.metres (ar := arith) (senv := strings) (tags := street.tags) ['1', '2']
  simpa [strings] using this

theorem clear (p : Palette.Palette) (box : Bbox ℝ) : PlantSheetSpec.Clear arith strings (nursery p) box lamps .lamp street post := by
  refine ⟨⟨⟨"lamp".toList, .plain _ (plain 'l' "amp".toList (by decide) (by decide)), rfl⟩, two, by simp [post], good p,
    .plain _ (plain 'b' "lack,yellow".toList (by decide) (by decide)), ⟨[], by simp, .plain _ (plain '2' [',', '2'] (by decide) (by decide))⟩,
    ⟨[], by simp, .plain _ (plain 'a' [',', 'a'] (by decide) (by decide))⟩, ⟨[], by simp, .plain _ (plain '2' [',', '2'] (by decide) (by decide))⟩⟩,
    growable, fun _ => ⟨⟨12, _, fun _ _ => .ub ""⟩, twelve, .metres ['2']⟩⟩

theorem sensible (q : QuadKey) (style : Along.PlantStyle ℝ) (h : Spaced arith strings (Mercator.tileBox q) lamps street.tags .lamp style) :
    PlantSheetSpec.Sensible (PlantSheet.worldOf (fun _ => 100) (1 / 2 ^ 52) q) .lamp style street := by
  have e1 : style.step = 12 := (C111_unique_partial arith rfl (fun _ => ⟨rfl, rfl⟩) strings street.tags _).1 _ _ h.1 twelve
  refine ⟨by simp, by rw [e1]; norm_num, fun _ _ p hp _ => ?_⟩
  simp only [AlongSpec.parts, List.tail_cons, List.zip_cons_cons, List.zip_nil_right, List.mem_cons, List.not_mem_nil, or_false] at hp
  show (1 : ℝ) / 2 ^ 52 < _
  rcases hp with rfl | rfl
  · rw [Real.lt_sqrt (by norm_num)]
    norm_num
  · rw [Real.lt_sqrt (by norm_num)]
    norm_num

/-- The libraries: real numbers, and a triangle library which finds no triangles. -/
noncomputable def studio (outside : Nat × Nat × Nat × Nat) (parseDouble : String → ℝ) (distance : Geo ℝ → Geo ℝ → ℝ) (offset : Terrain.Path → ℝ → List Terrain.Path) (houses : Building.Env ℝ)
    (look : Str → ℝ → ℝ → Str → ℝ → Building.Look ℝ) (ground : Terrain.Env ℝ) (sortRegions : List (Terrain.Region ℝ) → List (Terrain.Region ℝ))
    (sortLayers : List (Terrain.Layer ℝ) → List (Terrain.Layer ℝ)) : Studio :=
  ⟨strings, arith, PaletteProof.Sample.cast, outside, Roofs.realLibrary parseDouble distance offset, houses, ⟨look, fun _ _ _ => 0, fun _ _ => ⟨[], []⟩⟩, ground, sortRegions, sortLayers,
    fun _ _ => 100, 1 / 2 ^ 52⟩

/-- The calls of the builder of lamps. -/
def calls : List (QuadKeyBuilder.Event (Geo ℝ)) := [.prepare "lamp".toList, .visit "lamp".toList street, .complete "lamp".toList]

theorem build_street (b : List Char) : buildWith strings [rule lamps] 1 b [street] = if b = "lamp".toList then [street] else [] := by
  have hp : ([street] : List El).flatMap QuadKeyBuilderSpec.parts = [street] := rfl
  unfold buildWith
  rw [hp, List.filter_cons, street_decls]
  have h : (⟨"builder".toList, b⟩ : Style.Declaration) ∈ lamps ↔ b = "lamp".toList := by
    simp [lamps]
  by_cases hb : b = "lamp".toList
  · rw [if_pos hb, if_pos (by simpa using h.2 hb)]
    rfl
  · rw [if_neg hb, if_neg (by simpa using fun h' => hb (h.1 h'))]
    rfl

end SceneProof.Sample

open SceneProof.Sample PlantSheetSpec in
open PlantSheetProof.Sample (rule lamps street nursery post rank rank_inj picks) in
/-- A tile with a street with lamps: all hypotheses of `C121_scene_partial` are met, and the scene has one mesh with copies of the lamp. -/
example (outside : Nat × Nat × Nat × Nat) (parseDouble : String → ℝ) (distance : Geo ℝ → Geo ℝ → ℝ) (offset : Terrain.Path → ℝ → List Terrain.Path) (houses : Building.Env ℝ)
    (look : Str → ℝ → ℝ → Str → ℝ → Building.Look ℝ) (ground : Terrain.Env ℝ) (sortRegions : List (Terrain.Region ℝ) → List (Terrain.Region ℝ))
    (sortLayers : List (Terrain.Layer ℝ) → List (Terrain.Layer ℝ)) (hsort : TerrainSpec.Sorts sortRegions sortLayers) (q : QuadKey) (hq : q.lod = 1) :
    ∃ (S : Studio) (fc : FilterCollection) (pal : Palette.Palette) (style : Along.PlantStyle ℝ) (out : List (Along.Delivered ℝ)), S = studio outside parseDouble distance offset houses look ground sortRegions sortLayers ∧ S.Ready ∧
      Style.build S.senv [rule lamps] = .ok fc ∧ palette S.cast S.outside [PaletteProof.Sample.atlas] q = .ok pal ∧
      PlantSheet.deliver S.ar S.senv (nursery pal) (S.elevation q) S.epsilon fc q .lamp (visited "lamp".toList calls) = .ok out ∧
      Grown [⟨2, 8, 8, [⟨['a'], 0, 0, 4, 4⟩]⟩] S.epsilon (PlantSheet.worldOf (S.elevation q) S.epsilon q) .lamp post style street out := by
  obtain ⟨fc, hok⟩ : ∃ fc, Style.build SceneProof.Sample.strings [rule lamps] = .ok fc := ⟨_, rfl⟩
  obtain ⟨as, h1, -⟩ := PaletteProof.atlases_of outside PaletteProof.Sample.atlas_text
  obtain ⟨pal, hp⟩ : ∃ pal, palette PaletteProof.Sample.cast outside [PaletteProof.Sample.atlas] q = .ok pal := ⟨_, by rw [palette, h1]; rfl⟩
  have hS : (studio outside parseDouble distance offset houses look ground sortRegions sortLayers).Ready :=
    ⟨rfl, fun _ => ⟨rfl, rfl⟩, PaletteProof.Sample.cast_reads, C86_library parseDouble distance offset, by intro _ _ t ht; simp [studio] at ht, hsort, by norm_num [studio],
      by norm_num [studio]⟩
  have hb : ∀ b, buildWith SceneProof.Sample.strings [rule lamps] q.lod b [street] = if b = "lamp".toList then [street] else [] := by rw [hq]; exact build_street
  have hdecls : decls SceneProof.Sample.strings [rule lamps] q.lod street = lamps := by
    rw [hq]
    exact SceneProof.Sample.street_decls lamps
  have hscene := C121_scene_partial (studio outside parseDouble distance offset houses look ground sortRegions sortLayers) hS (rules := [rule lamps]) hok (P := (· ∈ SceneProof.Sample.table))
    (by unfold Mentions; decide +kernel) SceneProof.Sample.back (by unfold SceneProof.Sample.table; intro k hk; exact List.mem_append_right _ hk) PaletteProof.Sample.atlas_text
    [("lamp".toList, PlantSheetProof.Sample.lamp)] (q := q) hp (l := [street]) (t := calls) (by
      intro e he x hx
      have : e = street := by simpa [street, QuadKeyBuilderSpec.parts] using he
      subst this
      cases hx
      exact SceneProof.Sample.readable) (by
      intro b
      show _ ∧ List.Perm _ (buildWith SceneProof.Sample.strings [rule lamps] q.lod b [street])
      rw [hb]
      by_cases h : b = "lamp".toList
      · subst h
        exact ⟨.inr ⟨[street], by simp, rfl⟩, .refl _⟩
      · rw [if_neg h]
        have h' : ¬ "lamp".toList = b := fun e => h e.symm
        generalize hn : "lamp".toList = n at h'
        exact ⟨.inl (by simp only [callsOf, calls, hn]; simp [target, h']), by simp only [visited, calls, hn]; simp [h']⟩)
  have hl : buildWith SceneProof.Sample.strings [rule lamps] q.lod (builderName .lamp) [street] = [street] := hb _
  obtain ⟨style, shown, h2, h3, h4⟩ := hscene.plants .lamp Unit (nursery pal) rank rank_inj rfl rfl rfl (picks pal) (fun _ => post) (by
    intro e he
    change e ∈ AlongSpec.leavesIn (buildWith SceneProof.Sample.strings [rule lamps] q.lod (builderName .lamp) [street]) at he
    rw [hl] at he
    have : e = street := List.mem_singleton.1 he
    subst this
    show PlantSheetSpec.Clear _ _ _ _ (decls SceneProof.Sample.strings [rule lamps] q.lod street) _ _ _
    rw [hdecls]
    exact SceneProof.Sample.clear pal _)
  change shown.Perm (buildWith SceneProof.Sample.strings [rule lamps] q.lod (builderName .lamp) [street]) at h2
  rw [hl] at h2
  have hs : shown = [street] := List.perm_singleton.1 h2
  subst hs
  have hll : AlongSpec.leavesIn [street] = [street] := rfl
  rw [hll] at h3 h4
  have h5 := h3 street List.mem_cons_self ⟨_, _, _, rfl⟩
  change Spaced PlantSheetProof.Sample.arith SceneProof.Sample.strings (Mercator.tileBox q) (decls SceneProof.Sample.strings [rule lamps] q.lod street) street.tags .lamp (style street) at h5
  rw [hdecls] at h5
  obtain ⟨dss, h6, h7⟩ := h4 (by
    intro e he
    rw [List.mem_singleton.1 he]
    exact SceneProof.Sample.sensible q _ h5)
  cases h7 with
  | cons a b =>
    cases b
    refine ⟨_, fc, pal, style street, _, rfl, hS, hok, hp, h6, ?_⟩
    simpa using a

end Verif.Props
