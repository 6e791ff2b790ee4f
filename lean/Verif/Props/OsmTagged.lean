import Verif.Props.OsmIds

/-! # C122 continued: only things with tags need ids of their own, if the rules of the stylesheet ask for tags -/
namespace Verif.Props
open Verif.Clipper (El)
open Verif.Style (Rule FilterCollection Str)
open Verif.StyleSpec Verif.LoadTileSpec Verif.QuadKeyBuilderSpec Verif.SceneSpec Verif.DirectLoadSpec Verif.OsmWordsSpec Verif.OsmIdsSpec
open Verif.LoadTile
open Verif.Import (Env Target)
open Verif.ImportSpec (seen)
open Verif.OsmXmlSpec (Doc)
open Verif.ImportRelationsSpec (Describes)
open Verif.ResolveSpec (Becomes)
open Verif.GeoStoreSpec (Stores)
open Verif.PersistentStore (Store)
open Verif.DiskImport Verif.DiskImportSpec
open Verif.Props.GeoStoreProof (Abs)

namespace OsmTaggedProof
open OsmIdsProof

/-- The element has a tag whose key has a string. -/
def Visible {D : Type} (senv : Style.Env D) (e : El) : Prop := ∃ t ∈ e.tags, senv.getString t.key ≠ []

theorem kind_ne_canvas (e : El) : kindName (Style.kindOfElement e) ≠ "canvas".toList := by
  have : ∀ k : Style.Kind, k ≠ .canvas → kindName k ≠ "canvas".toList := by
    intro k hk
    cases k
    case canvas => exact absurd rfl hk
    all_goals decide +kernel
  exact this _ (by cases e <;> simp [Style.kindOfElement])

/-- Rules which ask for tags say nothing about elements without. -/
theorem visible_of_decls {D : Type} {senv : Style.Env D} {rules : List Rule} (hc : Choosy rules) {lod : ℤ} {e : El} (h : decls senv rules lod e ≠ []) : Visible senv e := by
  have h1 : idRules senv lod.toNat e.id rules = [] := by
    simp only [idRules, List.flatMap_eq_nil_iff]
    intro r hr s hs n hn
    rw [if_neg]
    exact fun h => (hc r hr s hs n hn).1 h.1
  rw [decls, h1] at h
  simp only [declared, applied] at h
  obtain ⟨d, hd⟩ := List.exists_mem_of_ne_nil _ h
  simp only [List.mem_flatten, List.mem_flatMap] at hd
  obtain ⟨l, ⟨r, hr, s, hs, n, hn, hl⟩, -⟩ := hd
  split at hl
  · rename_i ha
    rcases (hc r hr s hs n hn).2 with h2 | ⟨c, hcs, hk⟩
    · exact absurd (ha.1.symm.trans h2) (kind_ne_canvas e)
    · obtain ⟨t, ht, h3, -⟩ := ha.2.2 c hcs
      exact ⟨t, ht, by rw [h3]; exact hk⟩
  · cases hl

theorem visible_of_seen {D : Type} {senv : Style.Env D} {rules : List Rule} (hc : Choosy rules) {eng : Clipper.Engine} {target : Target} {q : QuadKey} {e e' : El}
    (h : seen eng (wanted senv rules) target q e = some e') : Visible senv e := by
  unfold seen at h
  split at h
  · rename_i hs
    refine visible_of_decls hc (lod := q.lod) (fun h0 => ?_)
    have := hs.2.1.1
    simp [wanted, h0] at this
  · cases h

theorem marks_hidden {D : Type} {senv : Style.Env D} (hm : senv.getString 0xFFFFFFFF = []) {getId : String → UInt32} {x : Resolve.Data ℝ} {k : Resolve.Key} {own : List Tag} {t : Tag}
    (ht : t ∈ own ++ ResolveSpec.marks getId x k) (hv : senv.getString t.key ≠ []) : t ∈ own := by
  rcases List.mem_append.1 ht with h | h
  · exact h
  · rw [ResolveSpec.marks] at h
    rw [List.eq_of_mem_replicate h] at hv
    exact absurd hm hv

/-- An element which rules can see has tags in the file. -/
theorem becomes_visible {D : Type} {senv : Style.Env D} (hm : senv.getString 0xFFFFFFFF = []) {renv : Resolve.Env ℝ} {x : Resolve.Data ℝ} {k : Resolve.Key} {e : El}
    (hb : Becomes renv x (.old k) e) : e.id = k.id ∧ (Visible senv e → x.tags k ≠ []) := by
  cases hb with
  | node h =>
    refine ⟨rfl, fun ⟨t, ht, hv⟩ => ?_⟩
    simp only [Resolve.Data.tags, h, Option.map_some, Option.getD_some]
    exact List.ne_nil_of_mem (marks_hidden hm ht hv)
  | way h =>
    refine ⟨rfl, fun ⟨t, ht, hv⟩ => ?_⟩
    simp only [Resolve.Data.tags, h, Option.map_some, Option.getD_some]
    exact List.ne_nil_of_mem (marks_hidden hm ht hv)
  | area h =>
    refine ⟨rfl, fun ⟨t, ht, hv⟩ => ?_⟩
    simp only [Resolve.Data.tags, h, Option.map_some, Option.getD_some]
    exact List.ne_nil_of_mem (marks_hidden hm ht hv)
  | relation h htag =>
    refine ⟨rfl, fun ⟨t, ht, hv⟩ => ?_⟩
    simp only [Resolve.Data.tags, h, Option.map_some, Option.getD_some]
    rcases htag with ⟨-, rfl⟩ | ⟨hk, -⟩
    · exact List.ne_nil_of_mem (marks_hidden hm ht hv)
    · exact List.ne_nil_of_mem hk.1

/-- The id of an element with whether it has tags. -/
def pair (x : Resolve.Data ℝ) (k : Resolve.Key) : UInt64 × Bool := (k.id, !(x.tags k).isEmpty)

theorem tagged_empty {getId : String → UInt32} {raw : List OsmXml.Tag} {tags : List Tag} (h : ImportSpec.Tagged getId raw tags) : tags.isEmpty = raw.isEmpty := by
  have := h.1.length_eq
  rw [List.length_map] at this
  cases tags <;> cases raw <;> simp_all

theorem pairs_doc {eps : ℝ} {getId : String → UInt32} {d : Doc} {x : Resolve.Data ℝ} (h : Describes eps getId d x) {renv : Resolve.Env ℝ} (hs : ResolveSpec.Sound renv x) :
    ((((ResolveSpec.All x).map (pair x)).filter (·.2)).map (·.1)).Perm (taggedIds d) := by
  obtain ⟨els, e1, e2⟩ := h.elements
  obtain ⟨rs, r1, r2⟩ := h.relations
  have hall : (ResolveSpec.All x).map (pair x) = x.relations.map (fun r => (r.1, !r.2.1.isEmpty)) ++ (ImportRelationsSpec.plain x).map (fun e => (e.id, !e.tags.isEmpty)) := by
    simp only [ResolveSpec.All, ImportRelationsSpec.plain, List.map_append, List.map_map, List.append_assoc]
    refine congrArg₂ _ ?_ (congrArg₂ _ ?_ (congrArg₂ _ ?_ ?_)) <;> refine List.map_congr_left fun r hr => ?_
    · simp only [Function.comp_apply, pair, Resolve.Key.id, Resolve.Data.tags, Assoc.find_of_mem _ _ _ hs.relations hr, Option.map_some, Option.getD_some]
    · simp only [Function.comp_apply, pair, Resolve.Key.id, Resolve.Data.tags, Assoc.find_of_mem _ _ _ hs.nodes hr, Option.map_some, Option.getD_some, Element.id, Element.tags]
    · simp only [Function.comp_apply, pair, Resolve.Key.id, Resolve.Data.tags, Assoc.find_of_mem _ _ _ hs.ways hr, Option.map_some, Option.getD_some, Element.id, Element.tags]
    · simp only [Function.comp_apply, pair, Resolve.Key.id, Resolve.Data.tags, Assoc.find_of_mem _ _ _ hs.areas hr, Option.map_some, Option.getD_some, Element.id, Element.tags]
  have h2 : els.map (fun e => (e.id, !e.tags.isEmpty)) = d.nodes.map (fun n => (UInt64.ofNat n.id, !n.tags.isEmpty)) ++ d.ways.map (fun w => (UInt64.ofNat w.id, !w.tags.isEmpty)) := by
    have : ∀ {is : List ImportSpec.Item} {els : List El}, List.Forall₂ (ImportSpec.Shows eps getId d) is els →
        els.map (fun e => (e.id, !e.tags.isEmpty)) = is.map (fun | .node n => (UInt64.ofNat n.id, !n.tags.isEmpty) | .way w => (UInt64.ofNat w.id, !w.tags.isEmpty)) := by
      intro is els hf
      induction hf with
      | nil => rfl
      | @cons i e _ _ hs _ ih =>
        rw [List.map_cons, List.map_cons, ih]
        congr 1
        cases i with
        | node n =>
          obtain ⟨tags, ht, rfl⟩ := hs
          simp only [Element.id, Element.tags, tagged_empty ht]
        | way w =>
          obtain ⟨tags, cs, ht, -, ⟨-, rfl⟩ | ⟨-, ps, rfl, -⟩⟩ := hs <;> simp only [Element.id, Element.tags, tagged_empty ht]
    rw [this e1]
    simp [ImportSpec.items, Function.comp_def]
  have h3 : rs.map (fun r => (r.1, !r.2.1.isEmpty)) = d.relations.map (fun r => (UInt64.ofNat r.id, !r.tags.isEmpty)) := by
    clear r2 e1 h2
    generalize d.relations = l at r1
    induction r1 with
    | nil => rfl
    | cons hr _ ih => rw [List.map_cons, ih, hr.1, tagged_empty hr.2.1]; rfl
  have h4 : ((ResolveSpec.All x).map (pair x)).Perm (d.nodes.map (fun n => (UInt64.ofNat n.id, !n.tags.isEmpty)) ++ d.ways.map (fun w => (UInt64.ofNat w.id, !w.tags.isEmpty)) ++
      d.relations.map (fun r => (UInt64.ofNat r.id, !r.tags.isEmpty))) := by
    rw [hall, ← h2, ← h3]
    exact List.perm_append_comm.trans (((e2.map _).symm).append ((r2.map _).symm))
  refine ((h4.filter _).map _).trans (List.Perm.of_eq ?_)
  simp only [List.filter_append, List.filter_map, List.map_append, List.map_map, taggedIds]
  rfl

open Classical in
/-- The ids of the elements which rules can see are ids of things with tags. -/
theorem visible_ids {D : Type} {senv : Style.Env D} (hm : senv.getString 0xFFFFFFFF = []) {renv : Resolve.Env ℝ} {x : Resolve.Data ℝ} :
    ∀ {keys : List Resolve.Key} {es : List El}, List.Forall₂ (fun key e => Becomes renv x (.old key) e) keys es →
      ((es.filter fun e => Visible senv e).map (·.id)).Sublist (((keys.map (pair x)).filter (·.2)).map (·.1))
  | _, _, .nil => .slnil
  | _, _, .cons (a := k) (b := e) hb h => by
    have ih := visible_ids hm h
    obtain ⟨h1, h2⟩ := becomes_visible hm hb
    rw [List.map_cons]
    by_cases hv : Visible senv e
    · rw [List.filter_cons_of_pos (by simpa using hv), List.filter_cons_of_pos (by simp [pair, h2 hv]), List.map_cons, List.map_cons, h1]
      exact ih.cons_cons _
    · rw [List.filter_cons_of_neg (by simpa using hv), List.filter_cons]
      split
      · exact ih.cons _
      · exact ih

end OsmTaggedProof
open OsmIdsProof OsmTaggedProof

/-- C122 (partial): if the rules of the stylesheet ask for tags, then it is enough that ids of things with tags are different; nodes without tags, and relations without, may have any ids. -/
theorem C122_tagged_ids_partial {D : Type} (senv : Style.Env D) (hmark : senv.getString 0xFFFFFFFF = []) (rules : List Rule) (hc : Choosy rules) {eps : ℝ} {getId : String → UInt32} {doc : Doc}
    (ho : OwnTaggedIds doc) {x : Resolve.Data ℝ} (h : Describes eps getId doc x) {renv : Resolve.Env ℝ} (hs : ResolveSpec.Sound renv x) {es : List El}
    (he : List.Forall₂ (fun key e => Becomes renv x (.old key) e) (ResolveSpec.All x) es) (eng : Clipper.Engine) (target : Target) (q : QuadKey) {old : List El}
    (hold : DistinctIds senv rules q.lod old) (hf : ForeignTagged old doc) : DistinctIds senv rules q.lod (old ++ es.filterMap (seen eng (wanted senv rules) target q)) := by
  classical
  have hsub := visible_ids hmark he
  have hperm := pairs_doc h hs
  have hids : ∀ i ∈ (es.filter fun e => Visible senv e).map (·.id), i ∈ taggedIds doc := fun i hi => hperm.subset (hsub.subset hi)
  have hfil : es.filterMap (seen eng (wanted senv rules) target q) = (es.filter fun e => Visible senv e).filterMap (seen eng (wanted senv rules) target q) := by
    rw [List.filterMap_filter]
    refine List.filterMap_congr fun e _ => ?_
    by_cases hv : Visible senv e
    · simp [hv]
    · simp only [hv, decide_false, Bool.false_eq_true, if_false]
      cases hsn : seen eng (wanted senv rules) target q e with
      | none => rfl
      | some e' => exact absurd (visible_of_seen hc hsn) hv
  rw [hfil]
  obtain ⟨i1, i2, i3⟩ := cut_ids (seen eng (wanted senv rules) target q) (es.filter fun e => Visible senv e) ((hperm.nodup_iff.2 ho.once).sublist hsub) (fun h0 => ho.positive (hids _ h0))
    (fun e hm e' hsn => seen_cut (by
      rintro i t ms rfl rfl
      have := (List.mem_filter.1 hm).2
      simp [Visible, Element.tags] at this) hsn)
  constructor
  · rw [List.flatMap_append, List.pairwise_append]
    refine ⟨hold.1, i3.imp fun h _ _ => h, fun a ha b hb _ _ hz hab => ?_⟩
    rcases i1 b hb with h0 | ⟨h1, -⟩
    · rcases hz with hz | hz
      · exact hz (by rw [hab, h0])
      · exact hz h0
    · exact hf.1 a ha (by rw [hab]; exact hids _ h1)
  · intro e hm hd hz
    rw [List.flatMap_append, List.mem_append] at hm
    rw [clipped_append, List.mem_append, not_or]
    rcases hm with hm | hm
    · exact ⟨hold.2 e hm hd hz, fun hi => hf.1 e hm (hids _ (i2 _ hi))⟩
    · rcases i1 e hm with h0 | ⟨h1, h2⟩
      · exact absurd h0 hz
      · exact ⟨fun hi => hf.2 _ hi (hids _ h1), h2⟩

/-- C122 (partial): `C122_osm_partial` for stylesheets whose rules ask for tags, where only things with tags, and relations among each other, need different ids. Missing: what C121 leaves open
but the condition on ids. -/
theorem C122_tagged_osm_partial {K : Type} [LinearOrder K] (S : Studio) (hS : S.Ready) (T : MapCss.Tools Atlas.TextureAtlas LsysText.System) (hT : T.atlas = Atlas.parse S.outside)
    (hL : T.lsystem = LsysText.parse) {css g : List Char} {entries : List (MapCssSpec.Entry Atlas.TextureAtlas LsysText.System)} (hcss : MapCssSpec.Reads T css g entries)
    (hgap : MapCssSpec.Gap g) (hacc : (Style.build S.senv (rulesOf entries)).isOk = true) {P : Str → Prop} (hmen : Mentions (rulesOf entries) P) (hskip : P "skip".toList)
    (hclip : P "clip".toList) (hkeys : ∀ k ∈ keys, P k) (hchoosy : Choosy (rulesOf entries)) (d : Doubles) (tokens : PersistentStore.El → List UInt32) (bad : UInt32 → Prop) (env : Env)
    {garbage : QuadKey → UInt32} (hg : ∀ q, bad (garbage q)) {m : GeoStore.Map K Store} {B : Stores K Store} (hm : Abs m B) {C : K → QuadKey → List El}
    (hC : ∀ k s, B k = some s → Holds d tokens bad s (C k)) {k : K} {s : Store} (hk : B k = some s) {target : Target} (ht : ImportSpec.Sensible target)
    (hsort : OsmSpec.Sorts env.sort) {h w u : List Char} {doc : Doc} (hh : OsmXmlSpec.Head h) (hw : OsmXmlSpec.PrintsBody doc w)
    (hf : ∃ v, w = '<' :: v) (hb : doc.bounds ≠ none ∨ doc.nodes ≠ []) (hd : ImportSpec.Sound doc) (hr : (doc.relations.map (·.id)).Nodup) (hwords : OsmWords S.senv P doc)
    (hids : OwnTaggedIds doc) :
    ∃ fc systems texts xs, Sheet T S css entries fc systems texts xs ∧
      ∃ x, Describes env.eps (fun s => S.senv.getId s.toList) doc x ∧ (ResolveSpec.Sound (withSheet env S.senv fc).resolver x →
        ∃ es, List.Forall₂ (fun key e => Becomes (withSheet env S.senv fc).resolver x (.old key) e) (ResolveSpec.All x) es ∧
          ((∀ q, ∀ e ∈ es.filterMap (seen env.eng (wanted S.senv (rulesOf entries)) target q), Storable d tokens bad e) →
          (∀ q, size d (C k q ++ es.filterMap (seen env.eng (wanted S.senv (rulesOf entries)) target q)) < 2 ^ 32) →
          ∀ order : List UInt64 → List UInt64, (∀ l, (order l).Perm l) → ∃ N, ∀ n ≥ N,
            ∃ m', Import.importXml (diskIface d tokens garbage) { withSheet env S.senv fc with order := order, stack := n } m k target (h ++ (w ++ u)) = (m', .done) ∧
              (∀ (U : PbfFile.Tools) (cs : List PbfFileSpec.Content) (bytes : List UInt8), PbfFileSpec.FileOf U cs bytes → PbfFileSpec.Holds doc cs →
                PbfFile.importPbf (diskIface d tokens garbage) U { withSheet env S.senv fc with order := order, stack := n } m k target bytes = (m', .done)) ∧
              ∀ q, ∃ old pal, (GeoStore.step (diskIface d tokens garbage) m (.tile q)).2 = .elements old ∧ Palette.palette S.cast S.outside texts q = .ok pal ∧
                pal.textures = Atlas.provide S.outside (entries.filterMap MapCssSpec.Entry.texture?) ∧
                ((∀ e ∈ old.flatMap parts, AllReadable S.senv P e) → DistinctIds S.senv (rulesOf entries) q.lod old → ForeignTagged old doc →
                  ∀ stores, stores.Perm (disks m') → ∀ garbage' : QuadKey → UInt32, (∀ q, bad (garbage' q)) → ∀ qs : List QuadKey,
                  ∀ sorted order : List (List Char) → List (List Char), (∀ l, (sorted l).Perm l) → (∀ l, (order l).Perm l) →
                    ∃ t, loadTile (diskIface d tokens garbage') S.senv fc sorted order
                        (GeoStore.run (diskIface d tokens garbage') GeoStore.init (registrations stores ++ qs.map .tile)).1 q = .ok t ∧
                      Scene S (rulesOf entries) P fc systems xs pal q (old ++ es.filterMap (seen env.eng (wanted S.senv (rulesOf entries)) target q)) t))) := by
  obtain ⟨fc, systems, texts, xs, h1, x, h2, h3⟩ := C121_osm_restart_partial S hS T hT hL hcss hgap hacc hmen hskip hclip hkeys d tokens bad env hg hm hC hk ht hsort (u := u) hh hw hf hb hd hr hwords
  refine ⟨fc, systems, texts, xs, h1, x, h2, fun hsound => ?_⟩
  obtain ⟨es, h4, h5⟩ := h3 hsound
  refine ⟨es, h4, fun hst hz order hord => ?_⟩
  obtain ⟨N, hN⟩ := h5 hst hz order hord
  refine ⟨N, fun n hn => ?_⟩
  obtain ⟨m', h6, h7, h8⟩ := hN n hn
  refine ⟨m', h6, h7, fun q => ?_⟩
  obtain ⟨old, h9, h10⟩ := h8 q
  obtain ⟨pal, p1, p2, -⟩ := h10 _ (.refl _) garbage hg []
  refine ⟨old, pal, h9, p1, p2, fun hread hdis hfor stores hs garbage' hg' qs sorted order hsorted horder => ?_⟩
  obtain ⟨pal', p1', -, h11⟩ := h10 stores hs garbage' hg' qs
  rw [p1] at p1'
  injection p1' with p1'
  subst p1'
  exact h11 hread (C122_tagged_ids_partial S.senv hwords.mark _ hchoosy hids h2 hsound h4 env.eng target q hdis hfor) sorted order hsorted horder

/-- A file in which a way has the id of one of its nodes, which has no tags: its ids are not all different, but those of things with tags are. -/
example : let d : Doc := ⟨none, [⟨1, 0, 0, []⟩, ⟨2, 1, 1, []⟩], [⟨1, [1, 2], [⟨"highway".toList, "path".toList⟩]⟩], []⟩
    OwnTaggedIds d ∧ ¬ OwnIds d :=
  ⟨⟨by decide, by decide⟩, fun h => absurd h.once (by decide)⟩

/-- Rules as they are written in the stylesheets of the repository, `way|z12[highway],canvas|z12 { width: 1; }`. -/
example : Choosy [⟨[⟨["way".toList], ⟨12, 12⟩, [⟨"highway".toList, [], []⟩]⟩, ⟨["canvas".toList], ⟨12, 12⟩, []⟩], [⟨"width".toList, "1".toList⟩]⟩] := by
  intro r hr s hs n hn
  simp only [List.mem_singleton] at hr
  subst hr
  simp only [List.mem_cons, List.not_mem_nil, or_false] at hs
  rcases hs with rfl | rfl <;> simp only [List.mem_singleton] at hn <;> subst hn
  · exact ⟨by decide, .inr ⟨_, List.mem_singleton.2 rfl, by decide⟩⟩
  · exact ⟨by decide, .inl rfl⟩

end Verif.Props
