import Verif.Props.DirectLoad
import Verif.Props.RoofColors

/-! # C118: buildings of GeoJSON files, from a store on disk -/
namespace Verif.Props
open Verif.Clipper (El)
open Verif.Style (Rule Declaration FilterCollection Str)
open Verif.StyleSpec Verif.GradientSpec Verif.AtlasSpec Verif.PaletteSpec Verif.LoadTileSpec Verif.RoofSheetSpec Verif.RoofColorsSpec Verif.DirectLoadSpec
open Verif.StyleEval (Arith)
open Verif.BuildingSheetSpec (Word Within Told Clear words amounts)
open Verif.BuildingSpec (Fine Delivered)
open Verif.BuildingSheet (deliver)
open Verif.Palette Verif.LoadTile
open Verif.QuadKeyBuilderSpec (visited)
open Verif.Import (Env Target)
open Verif.ImportSpec (Sensible seen)
open Verif.GeoStoreSpec (Stores)
open Verif.PersistentStore (Store)
open Verif.DiskImport Verif.DiskImportSpec
open Verif.DirectImport (importJson)
open Verif.Props.GeoStoreProof (Abs)

namespace DirectHouseProof

/-- The buildings among the elements with which a tile is loaded. -/
theorem houses_of_loaded {K S Q : Type} [LinearOrder K] (I : GeoStore.Iface S El Q) (senv : Style.Env ℝ) {rules : List Rule} {fc : FilterCollection} (hok : Style.build senv rules = .ok fc)
    {P : Str → Prop} (hm : Mentions rules P) (hkeys : ∀ k ∈ words ++ amounts, P k) (ar : Arith ℝ) (hz : ar.zero = 0) (hs : StyleEvalSpec.Sane ar)
    (cast : List Char → Option ℝ) (hc : Reads cast) (outside : Nat × Nat × Nat × Nat) {xs : List Atlas.Text} {texts : List (List Char)} (hx : AtlasTexts xs texts)
    {lib : Roofs.Library ℝ} (hlib : RoofsSpec.Standard lib) (base : Building.Env ℝ) {m : GeoStore.Map K S} {q : QuadKey} {old new : List El} (hl : Loaded I senv rules fc P m q old new)
    (hr : ∀ e ∈ (old ++ new).flatMap QuadKeyBuilderSpec.parts, ∀ x, Within x e → Readable senv P x ∧ Clear ar senv (decls senv rules q.lod x) x.tags ∧
      (Word ar senv x.tags (lastValue (decls senv rules q.lod x) "building".toList) "true".toList →
        Showable ar senv (decls senv rules q.lod x) x.tags "roof-".toList ∧ Showable ar senv (decls senv rules q.lod x) x.tags "facade-".toList))
    (hdis : DistinctIds senv rules q.lod (old ++ new)) {sorted order : List (List Char) → List (List Char)} (hsorted : ∀ l, (sorted l).Perm l) (horder : ∀ l, (order l).Perm l) :
    ∃ pal t style, palette cast outside texts q = .ok pal ∧ loadTile I senv fc sorted order m q = .ok t ∧
      (∀ e ∈ buildWith senv rules q.lod "building".toList (old ++ new), ∀ x, Within x e → Told ar senv (paintOf pal) (decls senv rules q.lod x) (style x) x) ∧
      ((∀ e ∈ buildWith senv rules q.lod "building".toList (old ++ new), Fine style e ∧ ∀ part ∈ BuildingSpec.parts style e, Able lib { base with style := style } part) →
        ∃ ms shown, deliver ar senv (paintOf pal) (Roofs.complete lib base) fc q.lod (visited "building".toList t) = .ok ms ∧
          shown.Perm ((buildWith senv rules q.lod "building".toList (old ++ new)).filter (Delivered style)) ∧
          List.Forall₂ (fun e m => IsHouse lib { base with style := style } e m ∧ ShowsHouse ar senv xs (decls senv rules q.lod) lib { base with style := style } e m) shown ms) := by
  obtain ⟨t, h9, h10⟩ := hl (fun e he => (hr e (by rw [List.flatMap_append]; exact List.mem_append_left _ he) e (.self e)).1) hdis sorted order hsorted horder
  have hp := (h10 "building".toList).2
  have hin : ∀ e ∈ visited "building".toList t, e ∈ (old ++ new).flatMap QuadKeyBuilderSpec.parts := fun e he => List.mem_of_mem_filter (hp.mem_iff.1 he)
  obtain ⟨pal, style, hpal, h11, h12⟩ := C117_colors_partial cast hc outside hx ar hz hs senv hok hm hkeys hlib base q (visited "building".toList t)
    (fun e he x hx => ⟨(hr e (hin e he) x hx).1, (hr e (hin e he) x hx).2.1⟩) (fun e he x hx => (hr e (hin e he) x hx).2.2)
  refine ⟨pal, t, style, hpal, h9, fun e he => h11 e (hp.mem_iff.2 he), fun hall => ?_⟩
  obtain ⟨ms, h13, h14⟩ := h12 (fun e he => (hall e (hp.mem_iff.1 he)).1) (fun e he => (hall e (hp.mem_iff.1 he)).2)
  exact ⟨ms, _, h13, hp.filter _, h14⟩

end DirectHouseProof

/-- C118 (partial): a stylesheet with the texts of its atlases and a GeoJSON file are read, the file is imported into a store on disk, the program is started again, and a tile is loaded.
Then the callback gets a mesh for each building which is to be seen in the tile, with any roof and any walls, in the colors and textures which the stylesheet declares. Missing: what
`C118_json_restart_partial` and `C117_colors_partial` leave open. -/
theorem C118_json_houses_partial {K L : Type} [LinearOrder K] (outside : Nat × Nat × Nat × Nat) (T : MapCss.Tools Atlas.TextureAtlas L) (hT : T.atlas = Atlas.parse outside)
    {css g : List Char} {entries : List (MapCssSpec.Entry Atlas.TextureAtlas L)}
    (hcss : MapCssSpec.Reads T css g entries) (hgap : MapCssSpec.Gap g) (senv : Style.Env ℝ) (hacc : (Style.build senv (rulesOf entries)).isOk = true)
    {P : Str → Prop} (hmen : Mentions (rulesOf entries) P) (hskip : P "skip".toList) (hclip : P "clip".toList) (hkeys : ∀ k ∈ words ++ amounts, P k)
    (ar : Arith ℝ) (hz : ar.zero = 0) (hs : StyleEvalSpec.Sane ar) (cast : List Char → Option ℝ) (hc : Reads cast) {lib : Roofs.Library ℝ} (hlib : RoofsSpec.Standard lib)
    (base : Building.Env ℝ) (env : Env) (J : Json.Tools ℝ) (hJ : ∀ s, J.getId s = senv.getId s.toList) (hid : ∀ k, J.getId k = J.getId "id" → k = "id") (hsort : OsmSpec.Sorts J.sort)
    (d : Doubles) (tokens : PersistentStore.El → List UInt32) (bad : UInt32 → Prop) {garbage : QuadKey → UInt32} (hg : ∀ q, bad (garbage q)) {m : GeoStore.Map K Store} {B : Stores K Store}
    (hm : Abs m B) {C : K → QuadKey → List El} (hC : ∀ k s, B k = some s → Holds d tokens bad s (C k)) {k : K} {s : Store} (hk : B k = some s) {target : Target} (ht : Sensible target)
    {t : Json.Tree} {cs : List (String × List (JsonSpec.Feature ℝ))} (hd : JsonSpec.IsDocument J.toDouble t cs) (hp : JsonImportSpec.Proper J.toId cs) (hw : JsonWords senv P cs) :
    ∃ fc texts xs els, Opened T senv css fc ∧ (∀ t ∈ texts, ∃ f, T.file f = some t) ∧ AtlasTexts xs texts ∧ List.Forall₂ (JsonImportSpec.Shows J) (JsonImportSpec.features cs) els ∧
      ((∀ q, ∀ e ∈ els.filterMap (seen env.eng (wanted senv (rulesOf entries)) target q), Storable d tokens bad e) →
        (∀ q, size d (C k q ++ els.filterMap (seen env.eng (wanted senv (rulesOf entries)) target q)) < 2 ^ 32) →
        ∃ m', importJson (diskIface d tokens garbage) J (withSheet env senv fc) m k target (some t) = (m', .done) ∧
          ∀ q, ∃ old pal, (GeoStore.step (diskIface d tokens garbage) m (.tile q)).2 = .elements old ∧ palette cast outside texts q = .ok pal ∧
            pal.textures = Atlas.provide outside (entries.filterMap MapCssSpec.Entry.texture?) ∧
            ∀ l, l = old ++ els.filterMap (seen env.eng (wanted senv (rulesOf entries)) target q) →
              (∀ e ∈ l.flatMap QuadKeyBuilderSpec.parts, ∀ x, Within x e → Readable senv P x ∧ Clear ar senv (decls senv (rulesOf entries) q.lod x) x.tags ∧
                (Word ar senv x.tags (lastValue (decls senv (rulesOf entries) q.lod x) "building".toList) "true".toList →
                  Showable ar senv (decls senv (rulesOf entries) q.lod x) x.tags "roof-".toList ∧ Showable ar senv (decls senv (rulesOf entries) q.lod x) x.tags "facade-".toList)) →
              DistinctIds senv (rulesOf entries) q.lod l →
              ∀ stores, stores.Perm (disks m') → ∀ garbage' : QuadKey → UInt32, (∀ q, bad (garbage' q)) → ∀ qs : List QuadKey,
              ∀ sorted order : List (List Char) → List (List Char), (∀ l, (sorted l).Perm l) → (∀ l, (order l).Perm l) →
                ∃ t style, loadTile (diskIface d tokens garbage') senv fc sorted order
                    (GeoStore.run (diskIface d tokens garbage') GeoStore.init (registrations stores ++ qs.map .tile)).1 q = .ok t ∧
                  (∀ e ∈ buildWith senv (rulesOf entries) q.lod "building".toList l, ∀ x, Within x e →
                    Told ar senv (paintOf pal) (decls senv (rulesOf entries) q.lod x) (style x) x) ∧
                  ((∀ e ∈ buildWith senv (rulesOf entries) q.lod "building".toList l, Fine style e ∧
                      ∀ part ∈ BuildingSpec.parts style e, Able lib { base with style := style } part) →
                    ∃ ms shown, deliver ar senv (paintOf pal) (Roofs.complete lib base) fc q.lod (visited "building".toList t) = .ok ms ∧
                      shown.Perm ((buildWith senv (rulesOf entries) q.lod "building".toList l).filter (Delivered style)) ∧
                      List.Forall₂ (fun e m => IsHouse lib { base with style := style } e m ∧
                        ShowsHouse ar senv xs (decls senv (rulesOf entries) q.lod) lib { base with style := style } e m) shown ms)) := by
  obtain ⟨texts, xs, t1, t2, t3⟩ := PaletteProof.sheet_atlases hT hcss
  obtain ⟨fc, els, hopen, h1, h2⟩ := C118_json_restart_partial T hcss hgap senv hacc hmen hskip hclip env J hJ hid hsort d tokens bad hg hm hC hk ht hd hp hw
  have hok : Style.build senv (rulesOf entries) = .ok fc := by
    obtain ⟨depth, hdep⟩ := hopen
    obtain ⟨fc', ⟨depth', hdep'⟩, hok⟩ := DirectLoadProof.sheet_opened T hcss hgap hacc
    have e1 := hdep (max depth depth') (le_max_left _ _)
    rw [hdep' (max depth depth') (le_max_right _ _)] at e1
    rw [hok, e1]
  refine ⟨fc, texts, xs, els, hopen, t1, t2, h1, fun hst hsz => ?_⟩
  obtain ⟨m', h3, h4⟩ := h2 hst hsz
  refine ⟨m', h3, fun q => ?_⟩
  obtain ⟨old, h5, h6⟩ := h4 q
  refine ⟨old, _, h5, by rw [palette, t3]; rfl, rfl, fun l hl hr hdis stores hst' garbage' hg' qs sorted order hsorted horder => ?_⟩
  subst hl
  obtain ⟨pal, t, style, hpal, h7, h8, h9⟩ := DirectHouseProof.houses_of_loaded _ senv hok hmen hkeys ar hz hs cast hc outside t2 hlib base (h6 stores hst' garbage' hg' qs) hr hdis hsorted horder
  rw [palette, t3] at hpal
  injection hpal with hpal
  subst hpal
  exact ⟨t, style, h7, h8, h9⟩

end Verif.Props
