import Verif.Props.OsmIdsSpec
import Verif.Props.Scene

/-! # C122: OSM files whose ids are all different are drawn without a condition on ids -/
namespace Verif.Props
open Verif.Clipper (El)
open Verif.Style (Rule FilterCollection Str)
open Verif.StyleSpec Verif.LoadTileSpec Verif.QuadKeyBuilderSpec Verif.SceneSpec Verif.DirectLoadSpec Verif.OsmWordsSpec Verif.OsmIdsSpec
open Verif.LoadTile
open Verif.Import (Env Target)
open Verif.ImportSpec (seen)
open Verif.OsmXmlSpec (Doc)
open Verif.ImportRelationsSpec (Describes)
open Verif.ResolveSpec (Becomes)
open Verif.GeoStoreSpec (Stores)
open Verif.PersistentStore (Store)
open Verif.DiskImport Verif.DiskImportSpec
open Verif.Props.GeoStoreProof (Abs)

namespace OsmIdsProof

/-- What is seen of an element has its id, or consists of pieces without id. -/
def Cut (e e' : El) : Prop := (e'.id = e.id ∧ ∀ i ms, e' ≠ .relation i [] ms) ∨ ∃ ps, e' = .relation e.id [] ps ∧ ∀ p ∈ ps, p.id = 0

theorem clipElement_cut {eng : Clipper.Engine} {b : Bbox ℝ} {closed : Bool} {make : UInt64 → List Tag → List (Geo ℝ) → El}
    (hmake : ∀ i t cs, (make i t cs).id = i ∧ ∀ j u ms, make i t cs ≠ .relation j u ms) {i : UInt64} {t : List Tag} {cs : List (Geo ℝ)} {e' : El}
    (h : Clipper.clipElement eng b closed make i t cs = some e') : Cut (make i t cs) e' := by
  unfold Clipper.clipElement at h
  split at h
  · injection h with h
    subst h
    exact .inl ⟨rfl, fun _ _ => (hmake _ _ _).2 _ _ _⟩
  · cases h
  · split at h
    · cases h
    · injection h with h
      subst h
      exact .inl ⟨by rw [(hmake _ _ _).1, (hmake _ _ _).1], fun _ _ => (hmake _ _ _).2 _ _ _⟩
    · injection h with h
      subst h
      refine .inr ⟨_, by rw [(hmake _ _ _).1], fun p hp => ?_⟩
      obtain ⟨c, -, rfl⟩ := List.mem_map.1 hp
      exact (hmake _ _ _).1

theorem withTags_ne {t : List Tag} (ht : t ≠ []) (e : El) : ∀ i ms, Clipper.withTags t e ≠ .relation i [] ms := by
  intro i ms h
  cases e <;> simp only [Clipper.withTags, reduceCtorEq, Element.relation.injEq] at h
  exact ht h.2.1

theorem withTags_id (t : List Tag) (i : UInt64) (e : El) : (Clipper.withTags t (e.withId i)).id = i := by cases e <;> rfl

theorem seen_cut {eng : Clipper.Engine} {style : El → ℤ → ElementStore.StyleInfo} {target : Target} {q : QuadKey} {e e' : El} (ht : ∀ i t ms, e = .relation i t ms → t ≠ [])
    (h : seen eng style target q e = some e') : Cut e e' := by
  have self : ∀ x : El, (∀ i t ms, x = .relation i t ms → t ≠ []) → Cut x x := fun x hx => .inl ⟨rfl, fun i ms he => hx _ _ _ he rfl⟩
  unfold seen at h
  split at h
  · split at h
    · cases e with
      | node i t c =>
        simp only [Clipper.clip] at h
        split at h
        · injection h with h
          subst h
          exact self _ ht
        · cases h
      | way i t cs => exact clipElement_cut (make := .way) (fun _ _ _ => ⟨rfl, fun _ _ _ h => by cases h⟩) h
      | area i t cs => exact clipElement_cut (make := .area) (fun _ _ _ => ⟨rfl, fun _ _ _ h => by cases h⟩) h
      | relation i t ms =>
        simp only [Clipper.clip] at h
        have ht' := ht i t ms rfl
        generalize Clipper.clipMembers eng (Mercator.tileBox q) ms = l at h
        unfold Clipper.collapse at h
        split at h
        · cases h
        · injection h with h
          subst h
          exact .inl ⟨withTags_id _ _ _, withTags_ne ht' _⟩
        · injection h with h
          subst h
          exact .inl ⟨rfl, fun j ks he => by injection he with _ he _; exact ht' he⟩
    · injection h with h
      subst h
      exact self _ ht
  · cases h

theorem parts_one {e : El} (h : ∀ i ms, e ≠ .relation i [] ms) : parts e = [e] := by
  unfold parts
  split
  · exact absurd rfl (h _ _)
  · rfl

theorem clipped_cons {e : El} (h : ∀ i ms, e ≠ .relation i [] ms) (l : List El) : clippedIds (e :: l) = clippedIds l := by
  cases e with
  | relation i t ms =>
    cases t with
    | nil => exact absurd rfl (h _ _)
    | cons => rfl
  | _ => rfl

theorem clipped_append (l l' : List El) : clippedIds (l ++ l') = clippedIds l ++ clippedIds l' := by
  induction l with
  | nil => rfl
  | cons e l ih =>
    by_cases h : ∀ i ms, e ≠ .relation i [] ms
    · rw [List.cons_append, clipped_cons h, clipped_cons h, ih]
    · push_neg at h
      obtain ⟨i, ms, rfl⟩ := h
      simp only [List.cons_append, clippedIds, ih]

/-- The ids of what is seen of elements with different ids. -/
theorem cut_ids (f : El → Option El) : ∀ es : List El, (es.map (·.id)).Nodup → 0 ∉ es.map (·.id) → (∀ e ∈ es, ∀ e', f e = some e' → Cut e e') →
    (∀ p ∈ (es.filterMap f).flatMap parts, p.id = 0 ∨ (p.id ∈ es.map (·.id) ∧ p.id ∉ clippedIds (es.filterMap f))) ∧ (∀ i ∈ clippedIds (es.filterMap f), i ∈ es.map (·.id)) ∧
      ((es.filterMap f).flatMap parts).Pairwise fun a b => (a.id ≠ 0 ∨ b.id ≠ 0) → a.id ≠ b.id
  | [], _, _, _ => ⟨by simp, by simp [clippedIds], by simp⟩
  | e :: es, hn, h0, hc => by
    simp only [List.map_cons, List.nodup_cons, List.mem_cons, not_or] at hn h0
    obtain ⟨i1, i2, i3⟩ := cut_ids f es hn.2 h0.2 (fun x hx => hc x (List.mem_cons_of_mem _ hx))
    cases hf : f e with
    | none =>
      rw [List.filterMap_cons_none hf]
      exact ⟨fun p hp => (i1 p hp).imp id fun h => ⟨List.mem_cons_of_mem _ h.1, h.2⟩, fun i hi => List.mem_cons_of_mem _ (i2 i hi), i3⟩
    | some e' =>
      rw [List.filterMap_cons_some hf]
      rcases hc e List.mem_cons_self e' hf with ⟨c1, c2⟩ | ⟨ps, rfl, c2⟩
      · rw [List.flatMap_cons, parts_one c2, clipped_cons c2, List.singleton_append]
        refine ⟨fun p hp => ?_, fun i hi => List.mem_cons_of_mem _ (i2 i hi), List.pairwise_cons.2 ⟨fun p hp _ he => ?_, i3⟩⟩
        · rcases List.mem_cons.1 hp with rfl | hp
          · right
            rw [c1]
            exact ⟨List.mem_cons_self, fun hi => hn.1 (i2 _ hi)⟩
          · exact (i1 p hp).imp id fun h => ⟨List.mem_cons_of_mem _ h.1, h.2⟩
        · rw [c1] at he
          rcases i1 p hp with hz | ⟨hz, -⟩
          · exact h0.1 (by rw [he, hz])
          · exact hn.1 (by rw [he]; exact hz)
      · have hp : parts (.relation e.id [] ps : El) = ps := rfl
        have hcl : clippedIds ((.relation e.id [] ps : El) :: es.filterMap f) = e.id :: clippedIds (es.filterMap f) := rfl
        rw [List.flatMap_cons, hp, hcl]
        refine ⟨fun p hp => ?_, fun i hi => ?_, List.pairwise_append.2 ⟨?_, i3, fun a ha b hb h he => ?_⟩⟩
        · rcases List.mem_append.1 hp with hp | hp
          · exact .inl (c2 p hp)
          · refine (i1 p hp).imp id fun h => ⟨List.mem_cons_of_mem _ h.1, fun hm => ?_⟩
            rcases List.mem_cons.1 hm with hm | hm
            · exact hn.1 (by rw [← hm]; exact h.1)
            · exact h.2 hm
        · rcases List.mem_cons.1 hi with rfl | hi
          · exact List.mem_cons_self
          · exact List.mem_cons_of_mem _ (i2 i hi)
        · refine List.Pairwise.imp_of_mem (R := fun _ _ => True) (fun ha hb _ h => ?_) (List.pairwise_of_forall fun _ _ => trivial)
          rcases h with h | h
          · exact absurd (c2 _ ha) h
          · exact absurd (c2 _ hb) h
        · have ha0 := c2 a ha
          rcases h with h | h
          · exact h ha0
          · exact h (by rw [← he, ha0])

/-- The ids of the resolved elements are those of the file. -/
theorem becomes_ids {eps : ℝ} {getId : String → UInt32} {d : Doc} {x : Resolve.Data ℝ} (h : Describes eps getId d x) {renv : Resolve.Env ℝ} {es : List El}
    (he : List.Forall₂ (fun key e => Becomes renv x (.old key) e) (ResolveSpec.All x) es) : (es.map (·.id)).Perm (ids d) := by
  have h1 : ∀ {keys : List Resolve.Key} {es : List El}, List.Forall₂ (fun key e => Becomes renv x (.old key) e) keys es → es.map (·.id) = keys.map Resolve.Key.id := by
    intro keys es he
    induction he with
    | nil => rfl
    | cons hb _ ih =>
      rw [List.map_cons, List.map_cons, ih]
      congr 1
      cases hb <;> rfl
  obtain ⟨els, e1, e2⟩ := h.elements
  obtain ⟨rs, r1, r2⟩ := h.relations
  have h2 : els.map (·.id) = (d.nodes.map (·.id) ++ d.ways.map (·.id)).map UInt64.ofNat := by
    have : ∀ {is : List ImportSpec.Item} {els : List El}, List.Forall₂ (ImportSpec.Shows eps getId d) is els →
        els.map (·.id) = is.map (fun | .node n => UInt64.ofNat n.id | .way w => UInt64.ofNat w.id) := by
      intro is els hf
      induction hf with
      | nil => rfl
      | @cons i e _ _ hs _ ih =>
        rw [List.map_cons, List.map_cons, ih]
        congr 1
        cases i with
        | node n => obtain ⟨tags, -, rfl⟩ := hs; rfl
        | way w => obtain ⟨tags, cs, -, -, ⟨-, rfl⟩ | ⟨-, ps, rfl, -⟩⟩ := hs <;> rfl
    rw [this e1]
    simp [ImportSpec.items, Function.comp_def]
  have h3 : rs.map (·.1) = (d.relations.map (·.id)).map UInt64.ofNat := by
    clear r2 e1 h2
    generalize d.relations = l at r1
    induction r1 with
    | nil => rfl
    | cons hr _ ih => rw [List.map_cons, ih, hr.1]; rfl
  rw [h1 he]
  have h4 : (ResolveSpec.All x).map Resolve.Key.id = x.relations.map (·.1) ++ (ImportRelationsSpec.plain x).map (·.id) := by
    simp [ResolveSpec.All, ImportRelationsSpec.plain, Resolve.Key.id, Element.id, Function.comp_def]
  rw [h4]
  have h5 : ids d = (d.nodes.map (·.id) ++ d.ways.map (·.id)).map UInt64.ofNat ++ (d.relations.map (·.id)).map UInt64.ofNat := by
    rw [ids, List.map_append (l₂ := d.relations.map _)]
  rw [h5, ← h2, ← h3]
  exact (List.perm_append_comm.trans (((e2.map (·.id)).symm).append ((r2.map (·.1)).symm)))

/-- Relations keep their tags. -/
theorem becomes_tagged {eps : ℝ} {getId : String → UInt32} {d : Doc} (ho : OwnIds d) {x : Resolve.Data ℝ} (h : Describes eps getId d x) {renv : Resolve.Env ℝ} {k : Resolve.Key} {e : El}
    (he : Becomes renv x (.old k) e) : ∀ i t ms, e = .relation i t ms → t ≠ [] := by
  intro i t ms hrel
  subst hrel
  cases he with
  | @relation i own ms' tags refs es hfind ht hc hes =>
    obtain ⟨rs, r1, r2⟩ := h.relations
    have hmem := r2.symm.subset (Assoc.mem_of_find _ _ _ hfind)
    obtain ⟨r, hr, -, htag, -⟩ := JsonImportProof.forall₂_right r1 _ hmem
    have hown : own ≠ [] := by
      intro h0
      have := htag.1.length_eq
      simp only [h0, List.length_nil, List.length_map] at this
      exact ho.tagged r hr (List.length_eq_zero_iff.1 this.symm)
    intro h0
    have htags : tags = [] := (List.append_eq_nil_iff.1 h0).1
    rcases ht with ⟨-, rfl⟩ | ⟨-, -, -, hk, -⟩
    · exact hown htags
    · obtain ⟨t, ht⟩ := List.exists_mem_of_ne_nil own hown
      obtain ⟨u, hu, -⟩ := hk t ht
      rw [htags] at hu
      cases hu

end OsmIdsProof
open OsmIdsProof

/-- C122 (partial): if all ids of an OSM file are different and its relations have tags, then among all what is seen in a tile no id is there twice, if this was so before and the ids of the
file are new. Elements which come from relations or are cut are included. -/
theorem C122_ids_partial {D : Type} (senv : Style.Env D) (rules : List Rule) {eps : ℝ} {getId : String → UInt32} {doc : Doc} (ho : OwnIds doc) {x : Resolve.Data ℝ} (h : Describes eps getId doc x)
    {renv : Resolve.Env ℝ} {es : List El} (he : List.Forall₂ (fun key e => Becomes renv x (.old key) e) (ResolveSpec.All x) es) (eng : Clipper.Engine)
    (style : El → ℤ → ElementStore.StyleInfo) (target : Target) (q : QuadKey) {old : List El} (hold : DistinctIds senv rules q.lod old) (hf : Foreign old doc) :
    DistinctIds senv rules q.lod (old ++ es.filterMap (seen eng style target q)) := by
  have hids := becomes_ids h he
  obtain ⟨i1, i2, i3⟩ := cut_ids (seen eng style target q) es (hids.nodup_iff.2 ho.once) (fun h0 => ho.positive (hids.mem_iff.1 h0)) (fun e hm e' hs => by
    obtain ⟨k, -, hb⟩ := JsonImportProof.forall₂_right he e hm
    exact seen_cut (becomes_tagged ho h hb) hs)
  constructor
  · rw [List.flatMap_append, List.pairwise_append]
    refine ⟨hold.1, i3.imp fun h _ _ => h, fun a ha b hb _ _ hz hab => ?_⟩
    rcases i1 b hb with h0 | ⟨h1, -⟩
    · rcases hz with hz | hz
      · exact hz (by rw [hab, h0])
      · exact hz h0
    · exact hf.1 a ha (by rw [hab]; exact hids.mem_iff.1 h1)
  · intro e hm hd hz
    rw [List.flatMap_append, List.mem_append] at hm
    rw [clipped_append, List.mem_append, not_or]
    rcases hm with hm | hm
    · exact ⟨hold.2 e hm hd hz, fun hi => hf.1 e hm (hids.mem_iff.1 (i2 _ hi))⟩
    · rcases i1 e hm with h0 | ⟨h1, h2⟩
      · exact absurd h0 hz
      · exact ⟨fun hi => hf.2 _ hi (hids.mem_iff.1 h1), h2⟩

/-- C122 (partial): `C121_osm_restart_partial` for an OSM file, in XML or PBF, in which all ids are different, without a condition on the elements which come from the file. In particular with
empty stores all what is drawn follows from stylesheet and file alone. Missing: what C121 leaves open but the condition on ids. -/
theorem C122_osm_partial {K : Type} [LinearOrder K] (S : Studio) (hS : S.Ready) (T : MapCss.Tools Atlas.TextureAtlas LsysText.System) (hT : T.atlas = Atlas.parse S.outside)
    (hL : T.lsystem = LsysText.parse) {css g : List Char} {entries : List (MapCssSpec.Entry Atlas.TextureAtlas LsysText.System)} (hcss : MapCssSpec.Reads T css g entries)
    (hgap : MapCssSpec.Gap g) (hacc : (Style.build S.senv (rulesOf entries)).isOk = true) {P : Str → Prop} (hmen : Mentions (rulesOf entries) P) (hskip : P "skip".toList)
    (hclip : P "clip".toList) (hkeys : ∀ k ∈ keys, P k) (d : Doubles) (tokens : PersistentStore.El → List UInt32) (bad : UInt32 → Prop) (env : Env)
    {garbage : QuadKey → UInt32} (hg : ∀ q, bad (garbage q)) {m : GeoStore.Map K Store} {B : Stores K Store} (hm : Abs m B) {C : K → QuadKey → List El}
    (hC : ∀ k s, B k = some s → Holds d tokens bad s (C k)) {k : K} {s : Store} (hk : B k = some s) {target : Target} (ht : ImportSpec.Sensible target)
    (hsort : OsmSpec.Sorts env.sort) {h w u : List Char} {doc : Doc} (hh : OsmXmlSpec.Head h) (hw : OsmXmlSpec.PrintsBody doc w)
    (hf : ∃ v, w = '<' :: v) (hb : doc.bounds ≠ none ∨ doc.nodes ≠ []) (hd : ImportSpec.Sound doc) (hwords : OsmWords S.senv P doc) (hids : OwnIds doc) :
    ∃ fc systems texts xs, Sheet T S css entries fc systems texts xs ∧
      ∃ x, Describes env.eps (fun s => S.senv.getId s.toList) doc x ∧ (ResolveSpec.Sound (withSheet env S.senv fc).resolver x →
        ∃ es, List.Forall₂ (fun key e => Becomes (withSheet env S.senv fc).resolver x (.old key) e) (ResolveSpec.All x) es ∧
          ((∀ q, ∀ e ∈ es.filterMap (seen env.eng (wanted S.senv (rulesOf entries)) target q), Storable d tokens bad e) →
          (∀ q, size d (C k q ++ es.filterMap (seen env.eng (wanted S.senv (rulesOf entries)) target q)) < 2 ^ 32) →
          ∀ order : List UInt64 → List UInt64, (∀ l, (order l).Perm l) → ∃ N, ∀ n ≥ N,
            ∃ m', Import.importXml (diskIface d tokens garbage) { withSheet env S.senv fc with order := order, stack := n } m k target (h ++ (w ++ u)) = (m', .done) ∧
              (∀ (U : PbfFile.Tools) (cs : List PbfFileSpec.Content) (bytes : List UInt8), PbfFileSpec.FileOf U cs bytes → PbfFileSpec.Holds doc cs →
                PbfFile.importPbf (diskIface d tokens garbage) U { withSheet env S.senv fc with order := order, stack := n } m k target bytes = (m', .done)) ∧
              ∀ q, ∃ old pal, (GeoStore.step (diskIface d tokens garbage) m (.tile q)).2 = .elements old ∧ Palette.palette S.cast S.outside texts q = .ok pal ∧
                pal.textures = Atlas.provide S.outside (entries.filterMap MapCssSpec.Entry.texture?) ∧
                ((∀ e ∈ old.flatMap parts, AllReadable S.senv P e) → DistinctIds S.senv (rulesOf entries) q.lod old → Foreign old doc →
                  ∀ stores, stores.Perm (disks m') → ∀ garbage' : QuadKey → UInt32, (∀ q, bad (garbage' q)) → ∀ qs : List QuadKey,
                  ∀ sorted order : List (List Char) → List (List Char), (∀ l, (sorted l).Perm l) → (∀ l, (order l).Perm l) →
                    ∃ t, loadTile (diskIface d tokens garbage') S.senv fc sorted order
                        (GeoStore.run (diskIface d tokens garbage') GeoStore.init (registrations stores ++ qs.map .tile)).1 q = .ok t ∧
                      Scene S (rulesOf entries) P fc systems xs pal q (old ++ es.filterMap (seen env.eng (wanted S.senv (rulesOf entries)) target q)) t))) := by
  have hr : (doc.relations.map (·.id)).Nodup := by
    have := hids.once
    rw [ids] at this
    exact (List.nodup_append.1 this.of_map).2.1
  obtain ⟨fc, systems, texts, xs, h1, x, h2, h3⟩ := C121_osm_restart_partial S hS T hT hL hcss hgap hacc hmen hskip hclip hkeys d tokens bad env hg hm hC hk ht hsort (u := u) hh hw hf hb hd hr hwords
  refine ⟨fc, systems, texts, xs, h1, x, h2, fun hsound => ?_⟩
  obtain ⟨es, h4, h5⟩ := h3 hsound
  refine ⟨es, h4, fun hst hz order hord => ?_⟩
  obtain ⟨N, hN⟩ := h5 hst hz order hord
  refine ⟨N, fun n hn => ?_⟩
  obtain ⟨m', h6, h7, h8⟩ := hN n hn
  refine ⟨m', h6, h7, fun q => ?_⟩
  obtain ⟨old, h9, h10⟩ := h8 q
  obtain ⟨pal, p1, p2, -⟩ := h10 _ (.refl _) garbage hg []
  refine ⟨old, pal, h9, p1, p2, fun hread hdis hfor stores hs garbage' hg' qs sorted order hsorted horder => ?_⟩
  obtain ⟨pal', p1', -, h11⟩ := h10 stores hs garbage' hg' qs
  rw [p1] at p1'
  injection p1' with p1'
  subst p1'
  exact h11 hread (C122_ids_partial S.senv _ hids h2 h4 env.eng _ target q hdis hfor) sorted order hsorted horder

/-- A file with a node and a relation of a building, whose ids are different. -/
example : OwnIds ImportRelationsProof.sample where
  once := by decide
  positive := by decide
  tagged := by decide

/-- Empty stores meet the conditions on what was there before. -/
example {D : Type} (senv : Style.Env D) (rules : List Rule) (lod : ℤ) (doc : Doc) : DistinctIds senv rules lod [] ∧ Foreign [] doc :=
  ⟨⟨by simp, by simp⟩, by simp, by simp [clippedIds]⟩

end Verif.Props
