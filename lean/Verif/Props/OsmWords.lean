import Verif.Props.OsmWordsSpec
import Verif.Props.DirectHouse

/-! # C119: OSM files are built as the stylesheet says, told from what is written in the files alone -/
namespace Verif.Props
open Verif.Clipper (El)
open Verif.Style (Rule Str FilterCollection)
open Verif.StyleSpec Verif.LoadTile Verif.LoadTileSpec Verif.QuadKeyBuilderSpec Verif.DirectLoadSpec Verif.OsmWordsSpec
open Verif.BuildingSheetSpec (Within)
open Verif.ImportSpec (Used Sensible Sound seen items Tagged)
open Verif.ImportRelationsSpec
open Verif.OsmXmlSpec (Doc Head PrintsBody)
open Verif.GeoStoreSpec (Stores)
open Verif.PersistentStore (Store)
open Verif.DiskImport Verif.DiskImportSpec
open Verif.ResolveSpec (Becomes marks)
open Verif.Props.GeoStoreProof (Abs)

namespace OsmWordsProof

variable {D : Type} {senv : Style.Env D} {P : Str → Prop}

/-- A tag of strings which the table gives back, other than a mark. -/
def Plain (senv : Style.Env D) (t : Tag) : Prop :=
  ∃ key value : Str, t = ⟨senv.getId key, senv.getId value⟩ ∧ senv.getString (senv.getId key) = key ∧ senv.getString (senv.getId value) = value ∧ senv.getId key ≠ 0xFFFFFFFF

/-- Such tags, sorted, each key once. -/
structure Good (senv : Style.Env D) (tags : List Tag) : Prop where
  plain : ∀ t ∈ tags, Plain senv t
  sorted : tags.Pairwise fun a b => a.key ≤ b.key
  once : ∀ a ∈ tags, ∀ b ∈ tags, a.key = b.key → a = b

theorem good_tagged {d : Doc} (hw : OsmWords senv P d) {raw : List OsmXml.Tag} (hraw : raw ∈ written d) {tags : List Tag} (h : Tagged (fun s => senv.getId s.toList) raw tags) :
    Good senv tags := by
  have hmem : ∀ t ∈ tags, ∃ r ∈ raw, t = ⟨senv.getId r.key, senv.getId r.value⟩ := by
    intro t ht
    obtain ⟨r, hr, e⟩ := List.mem_map.1 (h.1.mem_iff.1 ht)
    exact ⟨r, hr, by rw [← e]; simp⟩
  refine ⟨fun t ht => ?_, h.2, fun a ha b hb e => ?_⟩
  · obtain ⟨r, hr, rfl⟩ := hmem t ht
    obtain ⟨h1, h2, h3⟩ := hw.strings raw hraw r hr
    exact ⟨_, _, rfl, h1, h2, h3⟩
  · obtain ⟨r, hr, rfl⟩ := hmem a ha
    obtain ⟨u, hu, rfl⟩ := hmem b hb
    simp only at e
    have hk : r.key = u.key := by rw [← (hw.strings raw hraw r hr).1, e, (hw.strings raw hraw u hu).1]
    have : r = u := List.inj_on_of_nodup_map (hw.once raw hraw) hr hu hk
    rw [this]

/-- Marks behind such tags can be read. -/
theorem good_marked (hb : ∀ s, P s → senv.getString (senv.getId s) = s) (hm : senv.getString 0xFFFFFFFF = []) {tags : List Tag} (h : Good senv tags) (n : Nat) {e : El}
    (he : e.tags = tags ++ List.replicate n ⟨0xFFFFFFFF, 0⟩) : Readable senv P e := by
  unfold Readable
  rw [he]
  refine ⟨⟨hb, fun t ht hne _ => ?_⟩, ?_, fun k _ a ha b hb' e1 e2 => ?_⟩
  · rcases List.mem_append.1 ht with ht | ht
    · obtain ⟨key, value, rfl, h1, h2, -⟩ := h.plain t ht
      simp only
      rw [h1, h2]
      exact ⟨rfl, rfl⟩
    · rw [(List.mem_replicate.1 ht).2] at hne
      exact absurd hm hne
  · refine List.pairwise_append.2 ⟨h.sorted, List.pairwise_replicate.2 (.inr (UInt32.le_refl _)), fun a _ b hb => ?_⟩
    rw [(List.mem_replicate.1 hb).2]
    show a.key ≤ 0xFFFFFFFF
    rw [UInt32.le_iff_toNat_le]
    have := a.key.toNat_lt
    have e : (0xFFFFFFFF : UInt32).toNat = 4294967295 := rfl
    omega
  · have hplain : ∀ t ∈ tags, t.key ≠ 0xFFFFFFFF := by
      intro t ht
      obtain ⟨key, value, rfl, -, -, h3⟩ := h.plain t ht
      exact h3
    rcases List.mem_append.1 ha with ha | ha <;> rcases List.mem_append.1 hb' with hb' | hb'
    · exact h.once a ha b hb' (e1.trans e2.symm)
    · rw [(List.mem_replicate.1 hb').2] at e2
      exact absurd (e1.trans e2.symm) (hplain a ha)
    · rw [(List.mem_replicate.1 ha).2] at e1
      exact absurd (e2.trans e1.symm) (hplain b hb')
    · rw [(List.mem_replicate.1 ha).2, (List.mem_replicate.1 hb').2]

/-! ## What becomes of the elements of a file -/

theorem shown_good {eps : ℝ} {d : Doc} (hw : OsmWords senv P d) {x : Resolve.Data ℝ} (h : Describes eps (fun s => senv.getId s.toList) d x) {e : El} (he : e ∈ plain x) : Good senv e.tags := by
  obtain ⟨⟨els, h1, h2⟩, -⟩ := h
  obtain ⟨i, hi, hs⟩ := JsonImportProof.forall₂_right h1 e (h2.mem_iff.2 he)
  have hin : ∀ n ∈ d.nodes, n.tags ∈ written d := fun n hn => List.mem_append_left _ (List.mem_append_left _ (List.mem_map.2 ⟨n, hn, rfl⟩))
  have hiw : ∀ n ∈ d.ways, n.tags ∈ written d := fun n hn => List.mem_append_left _ (List.mem_append_right _ (List.mem_map.2 ⟨n, hn, rfl⟩))
  unfold items at hi
  rcases List.mem_append.1 hi with hi | hi
  · obtain ⟨n, hn, rfl⟩ := List.mem_map.1 hi
    obtain ⟨tags, ht, rfl⟩ := hs
    exact good_tagged hw (hin n hn) ht
  · obtain ⟨w, hn, rfl⟩ := List.mem_map.1 hi
    obtain ⟨tags, cs, ht, -, ⟨-, rfl⟩ | ⟨-, ps, rfl, -⟩⟩ := hs
    · exact good_tagged hw (hiw w hn) ht
    · exact good_tagged hw (hiw w hn) ht

theorem relation_good {eps : ℝ} {d : Doc} (hw : OsmWords senv P d) {x : Resolve.Data ℝ} (h : Describes eps (fun s => senv.getId s.toList) d x) {i : UInt64} {own : List Tag}
    {ms : List Resolve.Member} (hf : x.relations.find i = some (own, ms)) : Good senv own := by
  obtain ⟨-, rs, h1, h2⟩ := h
  obtain ⟨r, hr, hs⟩ := JsonImportProof.forall₂_right h1 (i, own, ms) (h2.mem_iff.2 (Assoc.mem_of_find _ _ _ hf))
  exact good_tagged hw (List.mem_append_right _ (List.mem_map.2 ⟨r, hr, rfl⟩)) hs.2.1

theorem area_good {eps : ℝ} {d : Doc} (hw : OsmWords senv P d) {x : Resolve.Data ℝ} (h : Describes eps (fun s => senv.getId s.toList) d x) (i : UInt64) : ∀ t ∈ x.tags (.area i), Plain senv t := by
  intro t ht
  simp only [Resolve.Data.tags] at ht
  cases hf : x.ctx.areaMap.find i with
  | none => rw [hf] at ht; simp at ht
  | some a =>
    rw [hf] at ht
    refine (shown_good hw h (e := .area i a.tags a.coordinates) ?_).plain t ht
    simp only [plain, List.mem_append, List.mem_map]
    exact .inr ⟨(i, a), Assoc.mem_of_find _ _ _ hf, rfl⟩

/-- What is handed on for the elements of a file, and all its members, can be read. -/
theorem becomes_readable {eps : ℝ} {d : Doc} (hw : OsmWords senv P d) {x : Resolve.Data ℝ} (h : Describes eps (fun s => senv.getId s.toList) d x) {renv : Resolve.Env ℝ} {r : Resolve.Ref ℝ} {e : El}
    (hb : Becomes renv x r e) : AllReadable senv P e := by
  have leaf : ∀ {e : El}, (∀ i t ms, e ≠ .relation i t ms) → Readable senv P e → AllReadable senv P e := by
    intro e hne hr y hy
    cases hy with
    | self => exact hr
    | member => exact absurd rfl (hne _ _ _)
  refine Becomes.rec (motive_1 := fun _ e _ => AllReadable senv P e) (motive_2 := fun _ es _ => ∀ e ∈ es, AllReadable senv P e) ?_ ?_ ?_ ?_ ?_ ?_ ?_ hb
  · intro i n hf
    refine leaf (by intros; simp) (good_marked hw.back hw.mark (shown_good hw h (e := .node i n.tags n.coordinate) ?_) _ rfl)
    simp only [plain, List.mem_append, List.mem_map]
    exact .inl (.inl ⟨(i, n), Assoc.mem_of_find _ _ _ hf, rfl⟩)
  · intro i n hf
    refine leaf (by intros; simp) (good_marked hw.back hw.mark (shown_good hw h (e := .way i n.tags n.coordinates) ?_) _ rfl)
    simp only [plain, List.mem_append, List.mem_map]
    exact .inl (.inr ⟨(i, n), Assoc.mem_of_find _ _ _ hf, rfl⟩)
  · intro i n hf
    refine leaf (by intros; simp) (good_marked hw.back hw.mark (shown_good hw h (e := .area i n.tags n.coordinates) ?_) _ rfl)
    simp only [plain, List.mem_append, List.mem_map]
    exact .inr ⟨(i, n), Assoc.mem_of_find _ _ _ hf, rfl⟩
  · intro i own ms tags refs es hf ht _ _ ih y hy
    have hgood : Good senv tags := by
      have hown := relation_good hw h hf
      rcases ht with ⟨-, rfl⟩ | ⟨-, h1, h2, -, -⟩
      · exact hown
      · refine ⟨fun t ht => ?_, h1.imp UInt32.le_of_lt, fun a ha b hb e => ?_⟩
        · rcases h2 t ht with ht | ⟨j, -, ht⟩
          · exact hown.plain t ht
          · exact area_good hw h j t ht
        · by_contra hne
          have hsym : (tags.map Tag.key).Nodup := List.pairwise_map.2 (h1.imp fun h e => by rw [e] at h; exact UInt32.lt_irrefl _ h)
          exact hne (List.inj_on_of_nodup_map hsym ha hb e)
    cases hy with
    | self => exact good_marked hw.back hw.mark hgood _ rfl
    | member hm hy => exact ih _ hm y hy
  · intro a i _
    exact leaf (by intros; simp) (DirectLoadProof.readable_nil hw.back rfl)
  · intro e he; cases he
  · intro r e rs es _ _ ih1 ih2 y hy
    rcases List.mem_cons.1 hy with rfl | hy
    exacts [ih1, ih2 y hy]

/-! ## What is seen of them -/

theorem within_leaf {x e : El} (hne : ∀ i t ms, e ≠ .relation i t ms) (h : Within x e) : x = e := by
  cases h with
  | self => rfl
  | member => exact absurd rfl (hne _ _ _)

theorem clipElement_readable (hb : ∀ s, P s → senv.getString (senv.getId s) = s) {eng : Clipper.Engine} {b : Bbox ℝ} {closed : Bool} {make : UInt64 → List Tag → List (Geo ℝ) → El}
    (hmake : ∀ i t cs, (make i t cs).tags = t ∧ ∀ j u ms, make i t cs ≠ .relation j u ms) {i : UInt64} {t : List Tag} {cs : List (Geo ℝ)} (hr : Readable senv P (make i t cs)) {e : El}
    (h : Clipper.clipElement eng b closed make i t cs = some e) : AllReadable senv P e := by
  have hr' : ∀ j ds, Readable senv P (make j t ds) := fun j ds => DirectLoadProof.readable_tags hr (by rw [(hmake j t ds).1, (hmake i t cs).1])
  unfold Clipper.clipElement at h
  split at h
  · cases h
    intro x hx
    rw [within_leaf (hmake _ _ _).2 hx]
    exact hr
  · cases h
  · split at h
    · cases h
    · cases h
      intro x hx
      rw [within_leaf (hmake _ _ _).2 hx]
      exact hr' _ _
    · cases h
      intro x hx
      cases hx with
      | self => exact DirectLoadProof.readable_nil hb rfl
      | member hm hx =>
        obtain ⟨c, -, rfl⟩ := List.mem_map.1 hm
        rw [within_leaf (hmake _ _ _).2 hx]
        exact hr' _ _

theorem withTags_readable {e : El} (h : AllReadable senv P e) {t : List Tag} {i : UInt64} (ht : ∀ e : El, e.tags = t → Readable senv P e) : AllReadable senv P (Clipper.withTags t (e.withId i)) := by
  intro x hx
  cases e with
  | relation j u ms =>
    cases hx with
    | self => exact ht _ rfl
    | member hm hx => exact h x (.member hm hx)
  | node => rw [within_leaf (by intros; simp [Clipper.withTags, Element.withId]) hx]; exact ht _ rfl
  | way => rw [within_leaf (by intros; simp [Clipper.withTags, Element.withId]) hx]; exact ht _ rfl
  | area => rw [within_leaf (by intros; simp [Clipper.withTags, Element.withId]) hx]; exact ht _ rfl

mutual
theorem clip_readable (hb : ∀ s, P s → senv.getString (senv.getId s) = s) (eng : Clipper.Engine) (b : Bbox ℝ) : ∀ (e : El), AllReadable senv P e → ∀ e', Clipper.clip eng b e = some e' →
    AllReadable senv P e'
  | .node i t c, hr, e', h => by
    unfold Clipper.clip at h
    split at h
    · cases h; exact hr
    · cases h
  | .way i t cs, hr, e', h => clipElement_readable hb (make := .way) (fun _ _ _ => ⟨rfl, by intros; simp⟩) (hr _ (.self _)) (by unfold Clipper.clip at h; exact h)
  | .area i t cs, hr, e', h => clipElement_readable hb (make := .area) (fun _ _ _ => ⟨rfl, by intros; simp⟩) (hr _ (.self _)) (by unfold Clipper.clip at h; exact h)
  | .relation i t ms, hr, e', h => by
    have hm := clipMembers_readable hb eng b ms fun m hm x hx => hr x (.member hm hx)
    have ht : ∀ e : El, e.tags = t → Readable senv P e := fun e he => DirectLoadProof.readable_tags (hr _ (.self _)) he
    unfold Clipper.clip Clipper.collapse at h
    split at h
    · cases h
    · rename_i m hms
      cases h
      exact withTags_readable (hm m (by rw [hms]; exact List.mem_singleton_self _)) ht
    · cases h
      intro x hx
      cases hx with
      | self => exact ht _ rfl
      | member hm' hx => exact hm _ hm' x hx

theorem clipMembers_readable (hb : ∀ s, P s → senv.getString (senv.getId s) = s) (eng : Clipper.Engine) (b : Bbox ℝ) : ∀ (ms : List El), (∀ m ∈ ms, AllReadable senv P m) →
    ∀ m ∈ Clipper.clipMembers eng b ms, AllReadable senv P m
  | [], _, m, hm => by unfold Clipper.clipMembers at hm; cases hm
  | m :: ms, hr, x, hx => by
    have hi := clipMembers_readable hb eng b ms fun m hm => hr m (List.mem_cons_of_mem _ hm)
    unfold Clipper.clipMembers at hx
    split at hx
    · exact hi x hx
    · rename_i m' hm'
      rcases List.mem_cons.1 hx with rfl | hx
      · exact clip_readable hb eng b m (hr m List.mem_cons_self) _ hm'
      · exact hi x hx
end

theorem seen_readable (hb : ∀ s, P s → senv.getString (senv.getId s) = s) {eng : Clipper.Engine} {style : El → ℤ → ElementStore.StyleInfo} {target : Import.Target} {q : QuadKey} {e e' : El}
    (hr : AllReadable senv P e) (h : seen eng style target q e = some e') : AllReadable senv P e' := by
  unfold ImportSpec.seen at h
  split at h
  · split at h
    · exact clip_readable hb _ _ e hr e' h
    · cases h; exact hr
  · cases h

theorem parts_within {e x : El} (h : x ∈ parts e) : Within x e := by
  cases e with
  | relation i t ms =>
    cases t with
    | nil => exact .member h (.self _)
    | cons => rw [List.mem_singleton.1 h]; exact .self _
  | node => rw [List.mem_singleton.1 h]; exact .self _
  | way => rw [List.mem_singleton.1 h]; exact .self _
  | area => rw [List.mem_singleton.1 h]; exact .self _

theorem within_trans {x y e : El} (h1 : Within x y) (h2 : Within y e) : Within x e := by
  induction h2 with
  | self => exact h1
  | member hm _ ih => exact .member hm ih

/-- Everything within the parts of what is seen. -/
theorem parts_readable (hb : ∀ s, P s → senv.getString (senv.getId s) = s) {eng : Clipper.Engine} {style : El → ℤ → ElementStore.StyleInfo} {target : Import.Target} {q : QuadKey} {es : List El}
    (hr : ∀ e ∈ es, AllReadable senv P e) : ∀ e ∈ (es.filterMap (seen eng style target q)).flatMap parts, AllReadable senv P e := by
  intro e he x hx
  obtain ⟨e', he', hp⟩ := List.mem_flatMap.1 he
  obtain ⟨e0, he0, hs⟩ := List.mem_filterMap.1 he'
  exact seen_readable hb (hr e0 he0) hs x (within_trans hx (parts_within hp))

theorem all_readable {eps : ℝ} {d : Doc} (hw : OsmWords senv P d) {x : Resolve.Data ℝ} (h : Describes eps (fun s => senv.getId s.toList) d x) {renv : Resolve.Env ℝ} {keys : List Resolve.Key}
    {es : List El} (he : List.Forall₂ (fun key e => Becomes renv x (.old key) e) keys es) : ∀ e ∈ es, AllReadable senv P e := by
  intro e hm
  obtain ⟨k, -, hb⟩ := JsonImportProof.forall₂_right he e hm
  exact becomes_readable hw h hb

theorem split_readable {old new : List El} (ho : ∀ e ∈ old.flatMap parts, Readable senv P e) (hn : ∀ e ∈ new.flatMap parts, AllReadable senv P e) :
    ∀ e ∈ (old ++ new).flatMap parts, Readable senv P e := by
  intro e he
  rw [List.flatMap_append, List.mem_append] at he
  rcases he with he | he
  exacts [ho e he, hn e he e (.self e)]

end OsmWordsProof
open OsmWordsProof

section
variable {K : Type} [LinearOrder K]

/-- C119 (partial): a stylesheet and an OSM file are read, and the file is imported. If the string table gives back the strings of both and nothing in the file has a key twice, then
when a tile is loaded, every builder gets exactly the elements of the stores and of the file which are to be seen in the tile and for which the rules name this builder; parts of buildings,
relations and what is cut are included. Nothing is asked of the elements which come from the file. Missing: what C97 leaves open, and ids which are there twice. -/
theorem C119_load_partial {A L D : Type} (T : MapCss.Tools A L) {css g : List Char} {entries : List (MapCssSpec.Entry A L)}
    (hcss : MapCssSpec.Reads T css g entries) (hgap : MapCssSpec.Gap g) (senv : Style.Env D) (hacc : (Style.build senv (rulesOf entries)).isOk = true)
    {P : Str → Prop} (hmen : Mentions (rulesOf entries) P) (hskip : P "skip".toList) (hclip : P "clip".toList)
    (env : Import.Env) (hsort : OsmSpec.Sorts env.sort) (tokens : El → List UInt32) {m : GeoStore.Map K (MemStore.Store El)}
    {B : Stores K (MemStore.Store El)} (hB : Abs m B) (hu : Used tokens B) {k : K} {s : MemStore.Store El} (hk : B k = some s) {target : Import.Target} (ht : Sensible target)
    {h w u : List Char} {doc : Doc} (hh : Head h) (hw : PrintsBody doc w) (hf : ∃ v, w = '<' :: v) (hb : doc.bounds ≠ none ∨ doc.nodes ≠ []) (hd : Sound doc)
    (hr : (doc.relations.map (·.id)).Nodup) (hwords : OsmWords senv P doc) :
    ∃ fc, Opened T senv css fc ∧
      ∃ x, Describes env.eps (fun s => senv.getId s.toList) doc x ∧ (ResolveSpec.Sound (withSheet env senv fc).resolver x →
        ∃ es, List.Forall₂ (fun key e => Becomes (withSheet env senv fc).resolver x (.old key) e) (ResolveSpec.All x) es ∧
          ∀ order : List UInt64 → List UInt64, (∀ l, (order l).Perm l) → ∃ N, ∀ n ≥ N,
            ∃ m', Import.importXml (GeoStore.memIface tokens) { withSheet env senv fc with order := order, stack := n } m k target (h ++ (w ++ u)) = (m', .done) ∧
              ∀ q, ∃ old, (GeoStore.step (GeoStore.memIface tokens) m (.tile q)).2 = .elements old ∧
                Loaded (GeoStore.memIface tokens) senv (rulesOf entries) fc P m' q old (es.filterMap (seen env.eng (wanted senv (rulesOf entries)) target q))) := by
  obtain ⟨fc, h1, x, h2, h3⟩ := C98_load_partial T hcss hgap senv hacc hmen hskip hclip env hsort tokens hB hu hk ht (u := u) hh hw hf hb hd hr
  refine ⟨fc, h1, x, h2, fun hsound => ?_⟩
  obtain ⟨es, h4, h5⟩ := h3 hsound
  have hall := all_readable hwords h2 h4
  refine ⟨es, h4, fun order hord => ?_⟩
  obtain ⟨N, hN⟩ := h5 (fun e he => hall e he e (.self e)) order hord
  refine ⟨N, fun n hn => ?_⟩
  obtain ⟨m', h6, h7⟩ := hN n hn
  refine ⟨m', h6, fun q => ?_⟩
  obtain ⟨old, h8, h9⟩ := h7 q
  exact ⟨old, h8, fun ho hdis => h9 _ rfl (split_readable ho (parts_readable hwords.back hall)) hdis⟩

/-- C119 (partial): the same from stores on disk when the program is started again. What is seen of the file has to be small enough to be stored. Missing: what C100 leaves open, and ids which
are there twice. -/
theorem C119_restart_partial {A' L D : Type} (T : MapCss.Tools A' L) {css g : List Char} {entries : List (MapCssSpec.Entry A' L)}
    (hcss : MapCssSpec.Reads T css g entries) (hgap : MapCssSpec.Gap g) (senv : Style.Env D) (hacc : (Style.build senv (rulesOf entries)).isOk = true)
    {P : Str → Prop} (hmen : Mentions (rulesOf entries) P) (hskip : P "skip".toList) (hclip : P "clip".toList)
    (d : Doubles) (tokens : PersistentStore.El → List UInt32) (bad : UInt32 → Prop) (env : Import.Env) (hsort : OsmSpec.Sorts env.sort)
    {garbage : QuadKey → UInt32} (hg : ∀ q, bad (garbage q)) {m : GeoStore.Map K Store} {A : Stores K Store} (hm : Abs m A) {C : K → QuadKey → List El}
    (hC : ∀ k s, A k = some s → Holds d tokens bad s (C k)) {k : K} {s : Store} (hk : A k = some s) {target : Import.Target} (ht : Sensible target)
    {h w u : List Char} {doc : Doc} (hh : Head h) (hw : PrintsBody doc w) (hf : ∃ v, w = '<' :: v) (hb : doc.bounds ≠ none ∨ doc.nodes ≠ []) (hd : Sound doc)
    (hr : (doc.relations.map (·.id)).Nodup) (hwords : OsmWords senv P doc) :
    ∃ fc, Opened T senv css fc ∧
      ∃ x, Describes env.eps (fun s => senv.getId s.toList) doc x ∧ (ResolveSpec.Sound (withSheet env senv fc).resolver x →
        ∃ es, List.Forall₂ (fun key e => Becomes (withSheet env senv fc).resolver x (.old key) e) (ResolveSpec.All x) es ∧
          (∀ q, ∀ e ∈ (es.filterMap (seen env.eng (wanted senv (rulesOf entries)) target q)).flatMap parts, AllReadable senv P e) ∧
          ((∀ q, ∀ e ∈ es.filterMap (seen env.eng (wanted senv (rulesOf entries)) target q), Storable d tokens bad e) →
          (∀ q, size d (C k q ++ es.filterMap (seen env.eng (wanted senv (rulesOf entries)) target q)) < 2 ^ 32) →
          ∀ order : List UInt64 → List UInt64, (∀ l, (order l).Perm l) → ∃ N, ∀ n ≥ N,
            ∃ m', Import.importXml (diskIface d tokens garbage) { withSheet env senv fc with order := order, stack := n } m k target (h ++ (w ++ u)) = (m', .done) ∧
              ∀ q, ∃ old, (GeoStore.step (diskIface d tokens garbage) m (.tile q)).2 = .elements old ∧
                ∀ stores, stores.Perm (disks m') → ∀ garbage' : QuadKey → UInt32, (∀ q, bad (garbage' q)) → ∀ qs : List QuadKey,
                  Loaded (diskIface d tokens garbage') senv (rulesOf entries) fc P (GeoStore.run (diskIface d tokens garbage') GeoStore.init (registrations stores ++ qs.map .tile)).1 q old
                    (es.filterMap (seen env.eng (wanted senv (rulesOf entries)) target q)))) := by
  obtain ⟨fc, h1, x, h2, h3⟩ := C100_load_partial T hcss hgap senv hacc hmen hskip hclip d tokens bad env hsort hg hm hC hk ht (u := u) hh hw hf hb hd hr
  refine ⟨fc, h1, x, h2, fun hsound => ?_⟩
  obtain ⟨es, h4, h5⟩ := h3 hsound
  have hall := all_readable hwords h2 h4
  refine ⟨es, h4, fun q => parts_readable hwords.back hall, fun hst hz order hord => ?_⟩
  obtain ⟨N, hN⟩ := h5 (fun e he => hall e he e (.self e)) hst hz order hord
  refine ⟨N, fun n hn => ?_⟩
  obtain ⟨m', h6, h7⟩ := hN n hn
  refine ⟨m', h6, fun q => ?_⟩
  obtain ⟨old, h8, h9⟩ := h7 q
  exact ⟨old, h8, fun stores hs garbage' hg' qs ho hdis => h9 _ rfl (split_readable ho (parts_readable hwords.back hall)) hdis stores hs garbage' hg' qs⟩

end

open Verif.GradientSpec Verif.AtlasSpec Verif.PaletteSpec Verif.RoofSheetSpec Verif.RoofColorsSpec Verif.Palette in
open Verif.StyleEval (Arith) in
open Verif.BuildingSheetSpec (Word Told Clear words amounts) in
open Verif.BuildingSpec (Fine Delivered) in
open Verif.BuildingSheet (deliver) in
/-- C119 (partial): the buildings of an OSM file, from a store on disk. A stylesheet with the texts of its atlases and an OSM file are read, the file is imported into a store on disk, the program is
started again, and a tile is loaded. Then the callback gets a mesh for each building which is to be seen in the tile, with any roof and any walls, in the colors and textures which the stylesheet
declares. Missing: what `C119_restart_partial` and `C117_colors_partial` leave open. -/
theorem C119_houses_partial {K L : Type} [LinearOrder K] (outside : Nat × Nat × Nat × Nat) (T : MapCss.Tools Atlas.TextureAtlas L) (hT : T.atlas = Atlas.parse outside)
    {css g : List Char} {entries : List (MapCssSpec.Entry Atlas.TextureAtlas L)}
    (hcss : MapCssSpec.Reads T css g entries) (hgap : MapCssSpec.Gap g) (senv : Style.Env ℝ) (hacc : (Style.build senv (rulesOf entries)).isOk = true)
    {P : Str → Prop} (hmen : Mentions (rulesOf entries) P) (hskip : P "skip".toList) (hclip : P "clip".toList) (hkeys : ∀ k ∈ words ++ amounts, P k)
    (ar : Arith ℝ) (hz : ar.zero = 0) (hs : StyleEvalSpec.Sane ar) (cast : List Char → Option ℝ) (hc : GradientSpec.Reads cast) {lib : Roofs.Library ℝ} (hlib : RoofsSpec.Standard lib)
    (base : Building.Env ℝ) (d : Doubles) (tokens : PersistentStore.El → List UInt32) (bad : UInt32 → Prop) (env : Import.Env) (hsort : OsmSpec.Sorts env.sort)
    {garbage : QuadKey → UInt32} (hg : ∀ q, bad (garbage q)) {m : GeoStore.Map K Store} {A : Stores K Store} (hm : Abs m A) {C : K → QuadKey → List El}
    (hC : ∀ k s, A k = some s → Holds d tokens bad s (C k)) {k : K} {s : Store} (hk : A k = some s) {target : Import.Target} (ht : Sensible target)
    {h w u : List Char} {doc : Doc} (hh : Head h) (hw : PrintsBody doc w) (hf : ∃ v, w = '<' :: v) (hb : doc.bounds ≠ none ∨ doc.nodes ≠ []) (hd : Sound doc)
    (hr : (doc.relations.map (·.id)).Nodup) (hwords : OsmWords senv P doc) :
    ∃ fc texts xs, Opened T senv css fc ∧ (∀ t ∈ texts, ∃ f, T.file f = some t) ∧ AtlasTexts xs texts ∧
      ∃ x, Describes env.eps (fun s => senv.getId s.toList) doc x ∧ (ResolveSpec.Sound (withSheet env senv fc).resolver x →
        ∃ es, List.Forall₂ (fun key e => Becomes (withSheet env senv fc).resolver x (.old key) e) (ResolveSpec.All x) es ∧
          ((∀ q, ∀ e ∈ es.filterMap (seen env.eng (wanted senv (rulesOf entries)) target q), Storable d tokens bad e) →
          (∀ q, size d (C k q ++ es.filterMap (seen env.eng (wanted senv (rulesOf entries)) target q)) < 2 ^ 32) →
          ∀ order : List UInt64 → List UInt64, (∀ l, (order l).Perm l) → ∃ N, ∀ n ≥ N,
            ∃ m', Import.importXml (diskIface d tokens garbage) { withSheet env senv fc with order := order, stack := n } m k target (h ++ (w ++ u)) = (m', .done) ∧
              ∀ q, ∃ old pal, (GeoStore.step (diskIface d tokens garbage) m (.tile q)).2 = .elements old ∧ palette cast outside texts q = .ok pal ∧
                pal.textures = Atlas.provide outside (entries.filterMap MapCssSpec.Entry.texture?) ∧
                ∀ l, l = old ++ es.filterMap (seen env.eng (wanted senv (rulesOf entries)) target q) →
                  (∀ e ∈ old.flatMap parts, AllReadable senv P e) → DistinctIds senv (rulesOf entries) q.lod l →
                  (∀ e ∈ l.flatMap parts, ∀ x, Within x e → Clear ar senv (decls senv (rulesOf entries) q.lod x) x.tags ∧
                    (Word ar senv x.tags (lastValue (decls senv (rulesOf entries) q.lod x) "building".toList) "true".toList →
                      Showable ar senv (decls senv (rulesOf entries) q.lod x) x.tags "roof-".toList ∧ Showable ar senv (decls senv (rulesOf entries) q.lod x) x.tags "facade-".toList)) →
                  ∀ stores, stores.Perm (disks m') → ∀ garbage' : QuadKey → UInt32, (∀ q, bad (garbage' q)) → ∀ qs : List QuadKey,
                  ∀ sorted order : List (List Char) → List (List Char), (∀ l, (sorted l).Perm l) → (∀ l, (order l).Perm l) →
                    ∃ t style, loadTile (diskIface d tokens garbage') senv fc sorted order
                        (GeoStore.run (diskIface d tokens garbage') GeoStore.init (registrations stores ++ qs.map .tile)).1 q = .ok t ∧
                      (∀ e ∈ buildWith senv (rulesOf entries) q.lod "building".toList l, ∀ x, Within x e →
                        Told ar senv (paintOf pal) (decls senv (rulesOf entries) q.lod x) (style x) x) ∧
                      ((∀ e ∈ buildWith senv (rulesOf entries) q.lod "building".toList l, Fine style e ∧
                          ∀ part ∈ BuildingSpec.parts style e, Able lib { base with style := style } part) →
                        ∃ ms shown, deliver ar senv (paintOf pal) (Roofs.complete lib base) fc q.lod (visited "building".toList t) = .ok ms ∧
                          shown.Perm ((buildWith senv (rulesOf entries) q.lod "building".toList l).filter (Delivered style)) ∧
                          List.Forall₂ (fun e m => IsHouse lib { base with style := style } e m ∧
                            ShowsHouse ar senv xs (decls senv (rulesOf entries) q.lod) lib { base with style := style } e m) shown ms))) := by
  obtain ⟨texts, xs, t1, t2, t3⟩ := PaletteProof.sheet_atlases hT hcss
  obtain ⟨fc, hopen, x, h2, h3⟩ := C119_restart_partial T hcss hgap senv hacc hmen hskip hclip d tokens bad env hsort hg hm hC hk ht (u := u) hh hw hf hb hd hr hwords
  have hok : Style.build senv (rulesOf entries) = .ok fc := by
    obtain ⟨depth, hdep⟩ := hopen
    obtain ⟨fc', ⟨depth', hdep'⟩, hok⟩ := DirectLoadProof.sheet_opened T hcss hgap hacc
    have e1 := hdep (max depth depth') (le_max_left _ _)
    rw [hdep' (max depth depth') (le_max_right _ _)] at e1
    rw [hok, e1]
  refine ⟨fc, texts, xs, hopen, t1, t2, x, h2, fun hsound => ?_⟩
  obtain ⟨es, h4, h5, h6⟩ := h3 hsound
  refine ⟨es, h4, fun hst hsz order hord => ?_⟩
  obtain ⟨N, hN⟩ := h6 hst hsz order hord
  refine ⟨N, fun n hn => ?_⟩
  obtain ⟨m', h7, h8⟩ := hN n hn
  refine ⟨m', h7, fun q => ?_⟩
  obtain ⟨old, h9, h10⟩ := h8 q
  refine ⟨old, _, h9, by rw [palette, t3]; rfl, rfl, fun l hl ho hdis hclear stores hst' garbage' hg' qs sorted order' hsorted horder => ?_⟩
  subst hl
  obtain ⟨pal, t, style, hpal, h11, h12, h13⟩ := DirectHouseProof.houses_of_loaded _ senv hok hmen hkeys ar hz hs cast hc outside t2 hlib base (h10 stores hst' garbage' hg' qs)
    (fun e he y hy => ⟨by
      rw [List.flatMap_append, List.mem_append] at he
      rcases he with he | he
      exacts [ho e he y hy, h5 q e he y hy], hclear e he y hy⟩) hdis hsorted horder
  rw [palette, t3] at hpal
  injection hpal with hpal
  subst hpal
  exact ⟨t, style, h11, h12, h13⟩

open LoadTileProof LoadTileProof.Sample

namespace OsmWordsProof

theorem doc_words : OsmWords strings (· ∈ table) doc where
  back := Sample.back
  mark := by decide
  strings := by decide
  once := by decide

end OsmWordsProof

/-- A file with a relation of a building: the hypothesis on the strings is met although the part gets the mark. -/
example : OsmWords strings (· ∈ table) ImportRelationsProof.sample where
  back := Sample.back
  mark := by decide
  strings := by decide
  once := by decide

/-- A stylesheet with one rule and a file with one node: `C119_load_partial` tells that the builder `c` gets the node; nothing is asked of the elements. -/
example (tokens : El → List UInt32) (env : Import.Env) (hsort : OsmSpec.Sorts env.sort) (hord : ∀ l, (env.order l).Perm l) :
    ∃ fc depth m stack, openSheet MapCssExample.tools strings depth css = .ok fc ∧
      Import.importXml (GeoStore.memIface tokens) { withSheet env strings fc with stack := stack } (GeoStore.step (GeoStore.memIface tokens) GeoStore.init (.register 5 MemStore.init)).1 5
        (.range ⟨1, 1⟩) (OsmXmlProof.start ++ (OsmXmlProof.nodeWith ['b'] ++ "</osm>".toList)) = (m, .done) ∧
      ∃ t, loadTile (GeoStore.memIface tokens) strings fc id id m ⟨1, 1, 1⟩ = .ok t ∧ visited ['c'] t = [node] := by
  let A : Stores Nat (MemStore.Store El) := fun k => if k = 5 then some MemStore.init else none
  have hA : Abs (GeoStore.step (GeoStore.memIface tokens) GeoStore.init (.register 5 MemStore.init)).1 A := by
    refine ⟨by simp [GeoStore.step, GeoStore.init, GeoStore.emplace], ?_⟩
    intro k p
    simp only [GeoStore.step, GeoStore.init, GeoStore.emplace, List.mem_singleton, Prod.mk.injEq, A]
    constructor
    · rintro ⟨rfl, rfl⟩; exact ⟨_, rfl, by simp⟩
    · rintro ⟨s, rfl, h⟩
      split at h
      · exact ⟨by assumption, by rw [h]⟩
      · cases h
  have hu : Used tokens A := by
    intro k s h
    simp only [A] at h
    split at h
    · exact ⟨[], (Option.some.inj h).symm⟩
    · cases h
  obtain ⟨fc, ⟨depth, h1⟩, x, hx, h2⟩ := C119_load_partial MapCssExample.tools reads .nil strings accepted mentions (by decide) (by decide) env hsort tokens hA hu (k := 5)
    (s := MemStore.init) (by simp [A]) (target := .range ⟨1, 1⟩) ⟨by decide, by decide⟩ (h := OsmXmlProof.start) (u := []) (OsmXmlProof.start_head (p := []) (.inl rfl) OsmXmlProof.clean_nil)
    prints ⟨_, rfl⟩ (.inr (by simp [doc])) ⟨by simp [doc], by simp [doc], by intro w hw; simp [doc] at hw, by
      intro n hn
      simp only [doc, List.mem_singleton] at hn
      subst hn
      norm_num [BboxSpec.OnGlobe, ImportSpec.place]⟩ (by simp [doc]) doc_words
  have hdes := described hx
  obtain ⟨es, h3, h4⟩ := h2 (sound rfl hdes)
  have hes := becomes hdes h3
  subst hes
  obtain ⟨N, h5⟩ := h4 env.order hord
  obtain ⟨m', h6, h7⟩ := h5 N le_rfl
  obtain ⟨old, h8, h9⟩ := h7 ⟨1, 1, 1⟩
  have hold : old = [] := by
    have : (GeoStore.step (GeoStore.memIface tokens) (GeoStore.step (GeoStore.memIface tokens) GeoStore.init (.register 5 MemStore.init)).1 (.tile ⟨1, 1, 1⟩)).2 = .elements [] := rfl
    rw [this] at h8
    cases h8
    rfl
  subst hold
  have hw : wanted strings (rulesOf (A := Unit) (L := Unit) [.rule Sample.rule]) node 1 = ⟨false, false, false⟩ := by
    unfold wanted
    rw [node_decls]
    decide
  have hs : ([node] : List El).filterMap (seen env.eng (wanted strings (rulesOf (A := Unit) (L := Unit) [.rule Sample.rule])) (.range ⟨1, 1⟩) ⟨1, 1, 1⟩) = [node] := by
    simp [node_seen env.eng hw]
  rw [hs] at h9
  obtain ⟨t, h10, h11⟩ := h9 (by intro e he; simp at he) ⟨by simp [parts, node], by
      intro e he
      have : e = node := by simpa [parts, node] using he
      rw [this]
      simp [node, clippedIds]⟩ id id (fun _ => .refl _) (fun _ => .refl _)
  refine ⟨fc, depth, m', N, h1 depth le_rfl, by simpa [withSheet] using h6, t, h10, ?_⟩
  have h12 := (h11 ['c']).2
  have : buildWith strings (rulesOf (A := Unit) (L := Unit) [.rule Sample.rule]) 1 ['c'] [node] = [node] := by
    have hp : ([node] : List El).flatMap parts = [node] := rfl
    unfold buildWith
    rw [hp, List.filter_cons, if_pos]
    · rfl
    · rw [node_decls]
      decide
  simp only [List.nil_append] at h12
  rw [this] at h12
  exact List.perm_singleton.1 h12


end Verif.Props
