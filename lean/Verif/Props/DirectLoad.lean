import Verif.Props.DirectLoadSpec
import Verif.Props.DiskImport
import Verif.Props.ShapeImport

/-! # C118: GeoJSON and shape files are built as the stylesheet says, also after a restart -/
namespace Verif.Props
open Verif.Clipper (El)
open Verif.Style (Rule Str FilterCollection)
open Verif.StyleSpec Verif.LoadTile Verif.LoadTileSpec Verif.QuadKeyBuilderSpec Verif.DirectLoadSpec
open Verif.DirectImport
open Verif.Import (Env Target)
open Verif.ImportSpec (Used Sensible seen)
open Verif.GeoStoreSpec (Stores update)
open Verif.GeoStore (memIface)
open Verif.BboxSpec
open Verif.PersistentStore (Store)
open Verif.DiskImport Verif.DiskImportSpec
open Verif.Props.ImportProof
open Verif.Props.GeoStoreProof (Abs)

namespace DirectLoadProof
open DirectProof DiskImportProof

variable {D : Type} {senv : Style.Env D}

theorem sheet_opened {A L : Type} (T : MapCss.Tools A L) {css g : List Char} {entries : List (MapCssSpec.Entry A L)}
    (hcss : MapCssSpec.Reads T css g entries) (hgap : MapCssSpec.Gap g) (hacc : (Style.build senv (rulesOf entries)).isOk = true) :
    ∃ fc, Opened T senv css fc ∧ Style.build senv (rulesOf entries) = .ok fc := by
  obtain ⟨fc, hok⟩ : ∃ fc, Style.build senv (rulesOf entries) = .ok fc := by
    cases hx : Style.build senv (rulesOf entries) with
    | ok fc => exact ⟨fc, rfl⟩
    | throw e => rw [hx] at hacc; cases hacc
    | ub e => rw [hx] at hacc; cases hacc
  obtain ⟨depth, hdepth⟩ := C60_parse_partial T css g entries hcss hgap
  refine ⟨fc, ⟨depth, fun n hn => ?_⟩, hok⟩
  obtain ⟨sheet, h1, h2⟩ := hdepth n hn
  rw [openSheet, h1]
  simp only [Outcome.bind]
  rw [h2.1, LoadTileProof.toRule_rulesOf, hok]

/-! ## Tags of what is seen -/

/-- Members without tags, and without members. -/
def Bare : El → Prop
  | .relation _ _ _ => False
  | e => e.tags = []

/-- A relation has only bare members. -/
def Flat : El → Prop
  | .relation _ _ ms => ∀ m ∈ ms, Bare m
  | _ => True

theorem pieces_tags {eng : Clipper.Engine} {b : Bbox ℝ} {closed : Bool} {make : UInt64 → List Tag → List (Geo ℝ) → El}
    (hmake : ∀ i t cs, (make i t cs).tags = t ∧ parts (make i t cs) = [make i t cs]) {i : UInt64} {t : List Tag} {cs : List (Geo ℝ)} {e : El}
    (h : Clipper.clipElement eng b closed make i t cs = some e) : ∀ x ∈ parts e, x.tags = t := by
  unfold Clipper.clipElement at h
  split at h
  · cases h
    intro x hx
    rw [(hmake _ _ _).2, List.mem_singleton] at hx
    rw [hx, (hmake _ _ _).1]
  · cases h
  · split at h
    · cases h
    · cases h
      intro x hx
      rw [(hmake _ _ _).2, List.mem_singleton] at hx
      rw [hx, (hmake _ _ _).1]
    · cases h
      intro x hx
      obtain ⟨c, -, rfl⟩ := List.mem_map.1 hx
      exact (hmake _ _ _).1

theorem plain_tags {eng : Clipper.Engine} {b : Bbox ℝ} {e e' : El} (h : Clipper.clip eng b e = some e') (hr : ∀ i t ms, e ≠ .relation i t ms) : ∀ x ∈ parts e', x.tags = e.tags := by
  cases e with
  | node i t c =>
    unfold Clipper.clip at h
    split at h
    · cases h
      intro x hx
      rw [List.mem_singleton.1 hx]
    · cases h
  | way i t cs => exact pieces_tags (fun _ _ _ => ⟨rfl, rfl⟩) (by unfold Clipper.clip at h; exact h)
  | area i t cs => exact pieces_tags (fun _ _ _ => ⟨rfl, rfl⟩) (by unfold Clipper.clip at h; exact h)
  | relation i t ms => exact absurd rfl (hr i t ms)

theorem withTags_tags (t : List Tag) (e : El) : (Clipper.withTags t e).tags = t := by cases e <;> rfl

theorem tagged_parts {e : El} (h : e.tags ≠ []) : parts e = [e] := by
  cases e with
  | relation i t ms =>
    cases t with
    | nil => exact absurd rfl h
    | cons => rfl
  | _ => rfl

theorem collapse_parts {i : UInt64} {t : List Tag} (ht : t ≠ []) {ms : List El} {e : El} (h : Clipper.collapse i t ms = some e) : ∀ x ∈ parts e, x.tags = t := by
  have key : e.tags = t := by
    unfold Clipper.collapse at h
    split at h
    · cases h
    · cases h; exact withTags_tags _ _
    · cases h; rfl
  intro x hx
  rw [tagged_parts (by rw [key]; exact ht), List.mem_singleton] at hx
  rw [hx, key]

theorem bare_members {eng : Clipper.Engine} {b : Bbox ℝ} {ms : List El} (h : ∀ m ∈ ms, Bare m) :
    ∀ m ∈ Clipper.clipMembers eng b ms, m.tags = [] ∧ ∀ x ∈ parts m, x.tags = [] := by
  induction ms with
  | nil => intro m hm; unfold Clipper.clipMembers at hm; cases hm
  | cons m ms ih =>
    intro x hx
    unfold Clipper.clipMembers at hx
    have hi := ih fun m hm => h m (List.mem_cons_of_mem _ hm)
    have hb := h m List.mem_cons_self
    have hbt : m.tags = [] ∧ ∀ i t ns, m ≠ .relation i t ns := by
      cases m <;> first | exact ⟨hb, by intros; simp⟩ | cases hb
    split at hx
    · exact hi x hx
    · rename_i m' hm'
      rcases List.mem_cons.1 hx with rfl | hx
      · have hp := plain_tags hm' hbt.2
        rw [hbt.1] at hp
        refine ⟨?_, hp⟩
        by_contra hne
        exact hne (hp x (by rw [tagged_parts hne]; exact List.mem_singleton_self _))
      · exact hi x hx

theorem seen_tags {eng : Clipper.Engine} {style : El → ℤ → ElementStore.StyleInfo} {target : Target} {q : QuadKey} {e e' : El} (h : seen eng style target q e = some e')
    (hf : e.tags ≠ [] ∨ Flat e) : ∀ x ∈ parts e', x.tags = e.tags ∨ x.tags = [] := by
  unfold ImportSpec.seen at h
  split at h
  · split at h
    · cases e with
      | relation i t ms =>
        by_cases ht : t = []
        · subst ht
          rcases hf with hf | hf
          · exact absurd rfl hf
          have hm := bare_members (eng := eng) (b := Mercator.tileBox q) hf
          unfold Clipper.clip Clipper.collapse at h
          split at h
          · cases h
          · rename_i m hms
            cases h
            intro x hx
            right
            rw [hms] at hm
            obtain ⟨h1, h2⟩ := hm m (List.mem_singleton_self _)
            cases m with
            | relation j t ns =>
              simp only [Element.tags] at h1
              subst h1
              exact h2 x hx
            | node => rw [List.mem_singleton.1 hx]; rfl
            | way => rw [List.mem_singleton.1 hx]; rfl
            | area => rw [List.mem_singleton.1 hx]; rfl
          · cases h
            intro x hx
            exact .inr (hm x hx).1
        · intro x hx
          unfold Clipper.clip at h
          exact .inl (collapse_parts ht h x hx)
      | node => exact fun x hx => .inl (plain_tags h (by intros; simp) x hx)
      | way => exact fun x hx => .inl (plain_tags h (by intros; simp) x hx)
      | area => exact fun x hx => .inl (plain_tags h (by intros; simp) x hx)
    · cases h
      intro x hx
      by_cases ht : e.tags = []
      · rcases hf with hf | hf
        · exact absurd ht hf
        cases e with
        | relation i t ms =>
          simp only [Element.tags] at ht
          subst ht
          have := hf x hx
          cases x <;> first | exact .inr this | cases this
        | _ => exact .inl (by rw [List.mem_singleton.1 hx])
      · rw [tagged_parts ht, List.mem_singleton] at hx
        exact .inl (by rw [hx])
  · cases h

theorem readable_tags {P : Str → Prop} {e e' : El} (h : Readable senv P e) (ht : e'.tags = e.tags) : Readable senv P e' := by
  unfold Readable at h ⊢
  rwa [ht]

theorem readable_nil {P : Str → Prop} (hb : ∀ s, P s → senv.getString (senv.getId s) = s) {e : El} (h : e.tags = []) : Readable senv P e := by
  unfold Readable
  rw [h]
  exact ⟨⟨hb, by simp⟩, by simp, by simp⟩

theorem seen_readable {P : Str → Prop} (hb : ∀ s, P s → senv.getString (senv.getId s) = s) {eng : Clipper.Engine} {style : El → ℤ → ElementStore.StyleInfo} {target : Target} {q : QuadKey}
    {els : List El} (hr : ∀ e ∈ els, Readable senv P e ∧ (e.tags ≠ [] ∨ Flat e)) : ∀ x ∈ (els.filterMap (seen eng style target q)).flatMap parts, Readable senv P x := by
  intro x hx
  obtain ⟨e', he', hx⟩ := List.mem_flatMap.1 hx
  obtain ⟨e, he, hs⟩ := List.mem_filterMap.1 he'
  obtain ⟨h1, h2⟩ := hr e he
  rcases seen_tags hs h2 x hx with h | h
  · exact readable_tags h1 h
  · exact readable_nil hb h

/-! ## Importing -/

variable {K : Type} [LinearOrder K] {d : Doubles} {ptokens : PersistentStore.El → List UInt32} {bad : UInt32 → Prop}

/-- What was handed on is stored on disk, however the parser ends. -/
theorem told_disk (env : Env) {garbage : QuadKey → UInt32} (hg : ∀ q, bad (garbage q)) {m : GeoStore.Map K Store} {A : Stores K Store} (hm : Abs m A) {C : K → QuadKey → List El}
    (hC : ∀ k s, A k = some s → Holds d ptokens bad s (C k)) {k : K} {s : Store} (hk : A k = some s) {target : Target} (ht : Sensible target) (told : Told El)
    (hglobe : ∀ e ∈ told.1, ∀ p ∈ ClipperSpec.points e, OnGlobe p)
    (hst : ∀ q, ∀ e ∈ told.1.filterMap (seen env.eng env.style target q), Storable d ptokens bad e)
    (hz : ∀ q, size d (C k q ++ told.1.filterMap (seen env.eng env.style target q)) < 2 ^ 32) :
    ∃ m', importTold (diskIface d ptokens garbage) env m k target told = (m', finish told.2) ∧
      ∃ found : QuadKey → List El,
        (∀ q, ∃ old, (GeoStore.step (diskIface d ptokens garbage) m (.tile q)).2 = .elements old ∧ (found q).Perm (old ++ told.1.filterMap (seen env.eng env.style target q))) ∧
        (∀ qs : List QuadKey, (GeoStore.run (diskIface d ptokens garbage) m' (qs.map .tile)).2 = qs.map fun q => .elements (found q)) ∧
        ∀ stores, stores.Perm (disks m') → ∀ garbage' : QuadKey → UInt32, (∀ q, bad (garbage' q)) → ∀ qs : List QuadKey,
          (GeoStore.run (diskIface d ptokens garbage') GeoStore.init (registrations stores ++ qs.map .tile)).2 =
            (stores.map fun _ => .done) ++ qs.map fun q => .elements (found q) := by
  obtain ⟨l, h1, h6⟩ := collect_seen env ht told.1 hglobe
  obtain ⟨m', s', a1, a2, a3, a4⟩ := addFile_disk hg hm hC hk l (fun x hx => hst x.1 x.2 (by
    rw [← h6]
    exact List.mem_map.2 ⟨x, List.mem_filter.2 ⟨hx, by simp⟩, rfl⟩)) (fun q => by rw [h6]; exact hz q)
  simp only [h6] at a4
  refine ⟨m', by simp only [importTold, h1, a1],
    fun q => (m'.map (·.1)).flatMap fun j => if j = k then C j q ++ told.1.filterMap (seen env.eng env.style target q) else C j q, fun q => ?_, fun qs => (run_tiles hg qs m' a4).1, ?_⟩
  · obtain ⟨m1, b1, -, -⟩ := visit_holds hg q m (abs_all hm hC)
    refine ⟨m.flatMap fun e => C e.1 q, by simp only [GeoStore.step, b1], ?_⟩
    rw [a3]
    have hsorted : (m.map (·.1)).Pairwise (· < ·) := List.pairwise_map.2 hm.sorted
    have := flatMap_more (hsorted.imp ne_of_lt) (k := k) (List.mem_map.2 ⟨_, (hm.mem _ _).2 ⟨s, rfl, hk⟩, rfl⟩) (fun j => C j q) (told.1.filterMap (seen env.eng env.style target q))
    simp only [List.flatMap_map] at this ⊢
    exact this
  · intro stores hs garbage' hg' qs
    obtain ⟨c1, c2, c3⟩ := restart_all (garbage := garbage') ⟨_, hg ⟨0, 0, 0⟩⟩ a2.sorted a4 hs
    obtain ⟨d1, -, -⟩ := run_tiles hg' qs _ c3
    rw [run_ops_append]
    simp only [GeoStore.init]
    rw [c1, d1, c2]

variable {rules : List Rule} {fc : FilterCollection} {P : Str → Prop}

theorem wanted_seen (hok : Style.build senv rules = .ok fc) (hmen : Mentions rules P) (hskip : P "skip".toList) (hclip : P "clip".toList) (env : Env) (target : Target) {els : List El}
    (hr : ∀ e ∈ els, Readable senv P e) (q : QuadKey) :
    els.filterMap (seen (withSheet env senv fc).eng (withSheet env senv fc).style target q) = els.filterMap (seen env.eng (wanted senv rules) target q) :=
  List.filterMap_congr fun e he => LoadTileProof.seen_congr (LoadTileProof.storing_eq hok hmen hskip hclip (hr e he) q.lod)

theorem loaded_of {S Q : Type} (I : GeoStore.Iface S El Q) (hok : Style.build senv rules = .ok fc) (hmen : Mentions rules P) {m : GeoStore.Map K S} {q : QuadKey} {found old new : List El}
    (hf : (GeoStore.step I m (.tile q)).2 = .elements found) (hp : found.Perm (old ++ new)) (hn : ∀ e ∈ new.flatMap parts, Readable senv P e) : Loaded I senv rules fc P m q old new := by
  intro h1 h2 sorted order hsorted horder
  refine LoadTileProof.load_found I hf hp hsorted horder hok hmen ?_ h2
  intro e he
  rw [List.flatMap_append, List.mem_append] at he
  rcases he with he | he
  exacts [h1 e he, hn e he]

/-- Loading from memory what was handed on. -/
theorem mem_loaded (hok : Style.build senv rules = .ok fc) (hmen : Mentions rules P) (hskip : P "skip".toList) (hclip : P "clip".toList)
    (hb : ∀ s, P s → senv.getString (senv.getId s) = s) (env : Env) (tokens : El → List UInt32)
    {m : GeoStore.Map K (MemStore.Store El)} {A : Stores K (MemStore.Store El)} (hm : Abs m A) (hu : Used tokens A) {k : K} {s : MemStore.Store El} (hk : A k = some s)
    {target : Target} (ht : Sensible target) {els : List El} (hglobe : ∀ e ∈ els, ∀ p ∈ ClipperSpec.points e, OnGlobe p)
    (hr : ∀ e ∈ els, Readable senv P e ∧ (e.tags ≠ [] ∨ Flat e)) :
    ∃ m', importTold (memIface tokens) (withSheet env senv fc) m k target (els, .ok ()) = (m', .done) ∧
      ∀ q, ∃ old, (GeoStore.step (memIface tokens) m (.tile q)).2 = .elements old ∧
        Loaded (memIface tokens) senv rules fc P m' q old (els.filterMap (seen env.eng (wanted senv rules) target q)) := by
  obtain ⟨m', s', a1, -, -, a4⟩ := told_mem (withSheet env senv fc) tokens hm hu hk ht (els, .ok ()) hglobe
  refine ⟨m', a1, fun q => ?_⟩
  obtain ⟨old, new, b1, b2, b3⟩ := a4 q
  simp only at b3
  rw [wanted_seen hok hmen hskip hclip env target (fun e he => (hr e he).1) q] at b3
  exact ⟨old, b1, loaded_of _ hok hmen b2 b3 (seen_readable hb hr)⟩

/-- Loading from disk, after a restart, what was handed on. -/
theorem disk_loaded (hok : Style.build senv rules = .ok fc) (hmen : Mentions rules P) (hskip : P "skip".toList) (hclip : P "clip".toList)
    (hb : ∀ s, P s → senv.getString (senv.getId s) = s) (env : Env) {garbage : QuadKey → UInt32} (hg : ∀ q, bad (garbage q)) {m : GeoStore.Map K Store} {A : Stores K Store} (hm : Abs m A)
    {C : K → QuadKey → List El} (hC : ∀ k s, A k = some s → Holds d ptokens bad s (C k)) {k : K} {s : Store} (hk : A k = some s) {target : Target} (ht : Sensible target)
    {els : List El} (hglobe : ∀ e ∈ els, ∀ p ∈ ClipperSpec.points e, OnGlobe p) (hr : ∀ e ∈ els, Readable senv P e ∧ (e.tags ≠ [] ∨ Flat e))
    (hst : ∀ q, ∀ e ∈ els.filterMap (seen env.eng (wanted senv rules) target q), Storable d ptokens bad e)
    (hz : ∀ q, size d (C k q ++ els.filterMap (seen env.eng (wanted senv rules) target q)) < 2 ^ 32) :
    ∃ m', importTold (diskIface d ptokens garbage) (withSheet env senv fc) m k target (els, .ok ()) = (m', .done) ∧
      ∀ q, ∃ old, (GeoStore.step (diskIface d ptokens garbage) m (.tile q)).2 = .elements old ∧
        ∀ stores, stores.Perm (disks m') → ∀ garbage' : QuadKey → UInt32, (∀ q, bad (garbage' q)) → ∀ qs : List QuadKey,
          Loaded (diskIface d ptokens garbage') senv rules fc P (GeoStore.run (diskIface d ptokens garbage') GeoStore.init (registrations stores ++ qs.map .tile)).1 q old
            (els.filterMap (seen env.eng (wanted senv rules) target q)) := by
  have hw := wanted_seen hok hmen hskip hclip env target (fun e he => (hr e he).1)
  obtain ⟨m', a1, found, a2, -, a3⟩ := told_disk (withSheet env senv fc) hg hm hC hk ht (els, .ok ()) hglobe (fun q => by simp only; rw [hw q]; exact hst q)
    (fun q => by simp only; rw [hw q]; exact hz q)
  refine ⟨m', a1, fun q => ?_⟩
  obtain ⟨old, b1, b2⟩ := a2 q
  simp only at b2
  rw [hw q] at b2
  refine ⟨old, b1, fun stores hs garbage' hg' qs => ?_⟩
  have := a3 stores hs garbage' hg' (qs ++ [q])
  rw [List.map_append (l₁ := qs) (f := fun q => GeoStore.Out.elements (found q)), ← List.append_assoc] at this
  exact loaded_of _ hok hmen (last_tile _ _ _ _ _ this) b2 (seen_readable hb hr)

/-! ## What the files say -/

/-- Tags of pairs of strings which the table gives back, with different keys. -/
theorem pairs_readable (hb : ∀ s, P s → senv.getString (senv.getId s) = s) {ps : List (String × String)} (hp : ∀ p ∈ ps, senv.getString (senv.getId p.1.toList) = p.1.toList ∧
    senv.getString (senv.getId p.2.toList) = p.2.toList) (hn : (ps.map Prod.fst).Nodup) {e : El}
    (ht : e.tags.Perm (ps.map fun p => ⟨senv.getId p.1.toList, senv.getId p.2.toList⟩)) (hs : e.tags.Pairwise fun a b => a.key ≤ b.key) : Readable senv P e := by
  have hmem : ∀ t ∈ e.tags, ∃ p ∈ ps, t = ⟨senv.getId p.1.toList, senv.getId p.2.toList⟩ := by
    intro t h
    obtain ⟨p, h1, h2⟩ := List.mem_map.1 (ht.mem_iff.1 h)
    exact ⟨p, h1, h2.symm⟩
  refine ⟨⟨hb, fun t h _ _ => ?_⟩, hs, fun key hkey a ha b hb' e1 e2 => ?_⟩
  · obtain ⟨p, h1, rfl⟩ := hmem t h
    simp only
    rw [(hp p h1).1, (hp p h1).2]
    exact ⟨rfl, rfl⟩
  · obtain ⟨p, h1, rfl⟩ := hmem a ha
    obtain ⟨q, h2, rfl⟩ := hmem b hb'
    simp only at e1 e2
    have hk : p.1 = q.1 := by
      apply String.toList_inj.1
      rw [← (hp p h1).1, ← (hp q h2).1, e1, e2]
    have : p = q := by
      clear * - hn h1 h2 hk
      induction ps with
      | nil => cases h1
      | cons x ps ih =>
        simp only [List.map_cons, List.nodup_cons] at hn
        rcases List.mem_cons.1 h1 with g1 | g1 <;> rcases List.mem_cons.1 h2 with g2 | g2
        · rw [g1, g2]
        · exact absurd (List.mem_map.2 ⟨q, g2, by rw [← hk, g1]⟩) hn.1
        · exact absurd (List.mem_map.2 ⟨p, g1, by rw [hk, g2]⟩) hn.1
        · exact ih hn.2 g1 g2
    rw [this]

theorem mapCoords_tags {C C' : Type} (f : C → C') (e : Element C) : (mapCoords f e).tags = e.tags := by cases e <;> rfl

theorem delivered_tags {same : ℝ × ℝ → ℝ × ℝ → Bool} {id : UInt64} {tags : List Tag} {g : JsonSpec.Geometry ℝ} {e : Element (ℝ × ℝ)} (h : JsonSpec.Delivered same id tags g e) :
    e.tags = tags := by
  cases h <;> first | rfl | (rename_i h; cases h <;> first | rfl | (rename_i h; cases h <;> rfl))

theorem json_readable {J : Json.Tools ℝ} (hJ : ∀ s, J.getId s = senv.getId s.toList) {cs : List (String × List (JsonSpec.Feature ℝ))} (hw : JsonWords senv P cs) {els : List El}
    (h : List.Forall₂ (JsonImportSpec.Shows J) (JsonImportSpec.features cs) els) : ∀ e ∈ els, Readable senv P e ∧ (e.tags ≠ [] ∨ Flat e) := by
  intro e he
  obtain ⟨x, hx, id, tags, d, -, h2, h3, rfl⟩ := JsonImportProof.forall₂_right h e he
  obtain ⟨c, hc, hx⟩ := List.mem_flatMap.1 hx
  obtain ⟨f, hf, rfl⟩ := List.mem_map.1 hx
  have ht : (mapCoords (fun c : ℝ × ℝ => (⟨c.1, c.2⟩ : Geo ℝ)) d).tags = tags := by rw [mapCoords_tags, delivered_tags h3]
  obtain ⟨t1, t2⟩ := h2
  simp only [hJ] at t1
  constructor
  · refine pairs_readable hw.back (ps := (f.properties.filter fun p => p.1 ≠ "id") ++ [("feature", c.1)]) ?_ ?_ (by rw [ht]; exact t1) (by rw [ht]; exact t2)
    · intro p hp
      rcases List.mem_append.1 hp with hp | hp
      · exact hw.properties c hc f hf p (List.mem_filter.1 hp).1
      · rw [List.mem_singleton.1 hp]
        exact ⟨hw.feature, hw.names c hc⟩
    · obtain ⟨o1, o2⟩ := hw.once c hc f hf
      rw [List.map_append, List.nodup_append]
      refine ⟨o1.sublist (List.filter_sublist.map _), by simp, ?_⟩
      rintro a ha b hb rfl
      simp only [List.map_cons, List.map_nil, List.mem_singleton] at hb
      subst hb
      exact o2 ((List.filter_sublist.map _).subset ha)
  · left
    rw [ht]
    intro h0
    rw [h0] at t1
    have := t1.length_eq
    simp at this

theorem shape_readable {env : Env} (henv : env.getId = fun s => senv.getId s.toList) {fields : List (String × FieldType)}
    {entries : List (Option (ShapeImportSpec.Figure × List (Option String)))} (hw : ShapeWords senv P fields entries) {els : List El}
    (h : List.Forall₂ (fun (f : ShapeImportSpec.Figure × List (Option String)) e => ∃ tags, ShapeImportSpec.Tagged env.getId fields f.2 tags ∧ ShapeImportSpec.Shows env.eps tags f.1 e)
      (entries.filterMap id) els) : ∀ e ∈ els, Readable senv P e ∧ (e.tags ≠ [] ∨ Flat e) := by
  intro e he
  obtain ⟨⟨f, vs⟩, hx, tags, h2, h3⟩ := JsonImportProof.forall₂_right h e he
  have hin : some (f, vs) ∈ entries := by simpa using hx
  have ht : e.tags = tags := by
    cases f with
    | point c => rw [h3]; rfl
    | line cs => obtain ⟨a, z, -, -, ⟨-, rfl⟩ | ⟨-, rfl⟩⟩ := h3 <;> rfl
    | polygon parts => obtain ⟨ms, rfl, -⟩ := h3; rfl
  have hflat : Flat e := by
    cases f with
    | point c => rw [h3]; trivial
    | line cs => obtain ⟨a, z, -, -, ⟨-, rfl⟩ | ⟨-, rfl⟩⟩ := h3 <;> trivial
    | polygon parts =>
      obtain ⟨ms, rfl, h4⟩ := h3
      intro m hm
      obtain ⟨p, -, ⟨c, -, rfl⟩ | ⟨-, rfl⟩⟩ := JsonImportProof.forall₂_right h4 m hm <;> rfl
  refine ⟨?_, .inr hflat⟩
  obtain ⟨t1, t2⟩ := h2
  rw [henv] at t1
  simp only at t1
  have e1 : ((fields.zip vs).filterMap fun x => x.2.map fun v => (⟨senv.getId x.1.1.toList, senv.getId v.toList⟩ : Tag)) =
      ((fields.zip vs).filterMap fun x => x.2.map fun v => (x.1.1, v)).map fun p => ⟨senv.getId p.1.toList, senv.getId p.2.toList⟩ := by
    rw [List.map_filterMap]
    refine List.filterMap_congr fun x _ => ?_
    cases x.2 <;> rfl
  rw [e1] at t1
  refine pairs_readable hw.back ?_ ?_ (by rw [ht]; exact t1) (by rw [ht]; exact t2)
  · intro p hp
    obtain ⟨⟨fd, v⟩, hz, hp⟩ := List.mem_filterMap.1 hp
    cases v with
    | none => cases hp
    | some v =>
      simp only [Option.map_some, Option.some.injEq] at hp
      subst hp
      have := List.of_mem_zip hz
      exact ⟨hw.keys fd this.1, hw.values _ hin v this.2⟩
  · have hn := hw.once
    clear * - hn
    induction fields generalizing vs with
    | nil => simp
    | cons fd fields ih =>
      cases vs with
      | nil => simp
      | cons v vs =>
        simp only [List.map_cons, List.nodup_cons] at hn
        have := ih vs hn.2
        cases v with
        | none => simpa using this
        | some v =>
          simp only [List.zip_cons_cons, List.filterMap_cons, Option.map_some, List.map_cons, List.nodup_cons]
          refine ⟨fun hm => hn.1 ?_, this⟩
          obtain ⟨p, hp, hk⟩ := List.mem_map.1 hm
          obtain ⟨⟨fd', v'⟩, hz, hp⟩ := List.mem_filterMap.1 hp
          cases v' with
          | none => cases hp
          | some v' =>
            simp only [Option.map_some, Option.some.injEq] at hp
            subst hp
            exact List.mem_map.2 ⟨fd', (List.of_mem_zip hz).1, hk⟩

theorem json_told (J : Json.Tools ℝ) (hid : ∀ k, J.getId k = J.getId "id" → k = "id") (hsort : OsmSpec.Sorts J.sort) {t : Json.Tree} {cs : List (String × List (JsonSpec.Feature ℝ))}
    (hd : JsonSpec.IsDocument J.toDouble t cs) (hp : JsonImportSpec.Proper J.toId cs) :
    ∃ els, ((jsonTold J (some t)).1.map toEl, (jsonTold J (some t)).2) = (els, .ok ()) ∧ List.Forall₂ (JsonImportSpec.Shows J) (JsonImportSpec.features cs) els ∧
      ∀ e ∈ els, ∀ p ∈ ClipperSpec.points e, OnGlobe p := by
  obtain ⟨ds, h1, h2⟩ := JsonImportProof.collections_append J hid hsort t [] t.children [] cs (by simp) hd hp.plain hp.distinct (by simp) hp.ids
  simp only [List.append_nil, collections] at h1
  obtain ⟨h3, h4⟩ := JsonImportProof.shows_of h2 (by
    intro x hx
    obtain ⟨c, hc, hx⟩ := List.mem_flatMap.1 hx
    obtain ⟨f, hf, rfl⟩ := List.mem_map.1 hx
    exact hp.earth c hc f hf)
  exact ⟨ds.map toEl, by rw [jsonTold, h1], h3, h4⟩

end DirectLoadProof
open DirectLoadProof

section
variable {K A L D : Type} [LinearOrder K] (T : MapCss.Tools A L) {css g : List Char} {entries : List (MapCssSpec.Entry A L)}
  (hcss : MapCssSpec.Reads T css g entries) (hgap : MapCssSpec.Gap g) (senv : Style.Env D) (hacc : (Style.build senv (rulesOf entries)).isOk = true)
  {P : Str → Prop} (hmen : Mentions (rulesOf entries) P) (hskip : P "skip".toList) (hclip : P "clip".toList) (env : Env)
include hcss hgap hacc hmen hskip hclip

/-- C118 (partial): a stylesheet and a GeoJSON file are read, and the file is imported. When then a tile is loaded, every builder gets exactly the elements of the stores and the features of the
file which are to be seen in the tile and for which the rules of the stylesheet name this builder. Missing: what C104 leaves open, properties which are there twice, and ids which are there twice. -/
theorem C118_json_partial (J : Json.Tools ℝ) (hJ : ∀ s, J.getId s = senv.getId s.toList) (hid : ∀ k, J.getId k = J.getId "id" → k = "id") (hsort : OsmSpec.Sorts J.sort)
    (tokens : El → List UInt32) {m : GeoStore.Map K (MemStore.Store El)} {B : Stores K (MemStore.Store El)} (hm : Abs m B) (hu : Used tokens B) {k : K} {s : MemStore.Store El} (hk : B k = some s)
    {target : Target} (ht : Sensible target) {t : Json.Tree} {cs : List (String × List (JsonSpec.Feature ℝ))} (hd : JsonSpec.IsDocument J.toDouble t cs)
    (hp : JsonImportSpec.Proper J.toId cs) (hw : JsonWords senv P cs) :
    ∃ fc m' els, Opened T senv css fc ∧ importJson (memIface tokens) J (withSheet env senv fc) m k target (some t) = (m', .done) ∧
      List.Forall₂ (JsonImportSpec.Shows J) (JsonImportSpec.features cs) els ∧
      ∀ q, ∃ old, (GeoStore.step (memIface tokens) m (.tile q)).2 = .elements old ∧
        Loaded (memIface tokens) senv (rulesOf entries) fc P m' q old (els.filterMap (seen env.eng (wanted senv (rulesOf entries)) target q)) := by
  obtain ⟨fc, h1, hok⟩ := sheet_opened T hcss hgap hacc
  obtain ⟨els, h2, h3, h4⟩ := json_told J hid hsort hd hp
  obtain ⟨m', h5, h6⟩ := mem_loaded hok hmen hskip hclip hw.back env tokens hm hu hk ht h4 (json_readable hJ hw h3)
  exact ⟨fc, m', els, h1, by rw [importJson, h2]; exact h5, h3, h6⟩

/-- C118 (partial): the same when the file is imported into a store on disk, the program is started again, the stores are registered again, and tiles have been searched before. Missing:
what `C118_json_partial` and C16 leave open, coordinates are doubles, and the elements fit into the format of the files. -/
theorem C118_json_restart_partial (J : Json.Tools ℝ) (hJ : ∀ s, J.getId s = senv.getId s.toList) (hid : ∀ k, J.getId k = J.getId "id" → k = "id") (hsort : OsmSpec.Sorts J.sort)
    (d : Doubles) (tokens : PersistentStore.El → List UInt32) (bad : UInt32 → Prop) {garbage : QuadKey → UInt32} (hg : ∀ q, bad (garbage q)) {m : GeoStore.Map K Store} {B : Stores K Store}
    (hm : Abs m B) {C : K → QuadKey → List El} (hC : ∀ k s, B k = some s → Holds d tokens bad s (C k)) {k : K} {s : Store} (hk : B k = some s) {target : Target} (ht : Sensible target)
    {t : Json.Tree} {cs : List (String × List (JsonSpec.Feature ℝ))} (hd : JsonSpec.IsDocument J.toDouble t cs) (hp : JsonImportSpec.Proper J.toId cs) (hw : JsonWords senv P cs) :
    ∃ fc els, Opened T senv css fc ∧ List.Forall₂ (JsonImportSpec.Shows J) (JsonImportSpec.features cs) els ∧
      ((∀ q, ∀ e ∈ els.filterMap (seen env.eng (wanted senv (rulesOf entries)) target q), Storable d tokens bad e) →
        (∀ q, size d (C k q ++ els.filterMap (seen env.eng (wanted senv (rulesOf entries)) target q)) < 2 ^ 32) →
        ∃ m', importJson (diskIface d tokens garbage) J (withSheet env senv fc) m k target (some t) = (m', .done) ∧
          ∀ q, ∃ old, (GeoStore.step (diskIface d tokens garbage) m (.tile q)).2 = .elements old ∧
            ∀ stores, stores.Perm (disks m') → ∀ garbage' : QuadKey → UInt32, (∀ q, bad (garbage' q)) → ∀ qs : List QuadKey,
              Loaded (diskIface d tokens garbage') senv (rulesOf entries) fc P (GeoStore.run (diskIface d tokens garbage') GeoStore.init (registrations stores ++ qs.map .tile)).1 q old
                (els.filterMap (seen env.eng (wanted senv (rulesOf entries)) target q))) := by
  obtain ⟨fc, h1, hok⟩ := sheet_opened T hcss hgap hacc
  obtain ⟨els, h2, h3, h4⟩ := json_told J hid hsort hd hp
  refine ⟨fc, els, h1, h3, fun hst hz => ?_⟩
  obtain ⟨m', h5, h6⟩ := disk_loaded hok hmen hskip hclip hw.back env hg hm hC hk ht h4 (json_readable hJ hw h3) hst hz
  exact ⟨m', by rw [importJson, h2]; exact h5, h6⟩

/-- C118 (partial): a stylesheet and a shape file are read, and the shape file is imported. When then a tile is loaded, every builder gets exactly the elements of the stores and the points, lines
and polygons of the file which are to be seen in the tile and for which the rules of the stylesheet name this builder. Missing: what C105 leaves open, and ids which are there twice. -/
theorem C118_shape_partial (hsort : OsmSpec.Sorts env.sort) (beyond : Nat)
    (tokens : El → List UInt32) {m : GeoStore.Map K (MemStore.Store El)} {B : Stores K (MemStore.Store El)} (hm : Abs m B) (hu : Used tokens B) {k : K} {s : MemStore.Store El} (hk : B k = some s)
    {target : Target} (ht : Sensible target) {files : Files} {fields : List (String × FieldType)} {figures : List (Option (ShapeImportSpec.Figure × List (Option String)))}
    (hf : ShapeImportSpec.Begins files fields figures []) (he : ShapeImportSpec.OnEarth figures) (hw : ShapeWords senv P fields figures) :
    ∃ fc m' els, Opened T senv css fc ∧ importShape (memIface tokens) (withSheet env senv fc) (some beyond) m k target files = (m', .done) ∧
      List.Forall₂ (fun f e => ∃ tags, ShapeImportSpec.Tagged (fun s => senv.getId s.toList) fields f.2 tags ∧ ShapeImportSpec.Shows env.eps tags f.1 e) (figures.filterMap id) els ∧
      ∀ q, ∃ old, (GeoStore.step (memIface tokens) m (.tile q)).2 = .elements old ∧
        Loaded (memIface tokens) senv (rulesOf entries) fc P m' q old (els.filterMap (seen env.eng (wanted senv (rulesOf entries)) target q)) := by
  obtain ⟨fc, h1, hok⟩ := sheet_opened T hcss hgap hacc
  obtain ⟨els, h2, h3⟩ := ShapeImportProof.told_begins (env := withSheet env senv fc) hsort beyond hf
  simp only [DirectImport.each, List.append_nil] at h2
  obtain ⟨m', h5, h6⟩ := mem_loaded hok hmen hskip hclip hw.back env tokens hm hu hk ht (ShapeImportProof.points_globe he h3) (shape_readable (env := withSheet env senv fc) rfl hw h3)
  exact ⟨fc, m', els, h1, by rw [importShape, h2]; exact h5, h3, h6⟩

/-- C118 (partial): the same with a store on disk and a restart. Missing: what `C118_shape_partial` and C16 leave open, coordinates are doubles, and the elements fit into the format of the
files. -/
theorem C118_shape_restart_partial (hsort : OsmSpec.Sorts env.sort) (beyond : Nat)
    (d : Doubles) (tokens : PersistentStore.El → List UInt32) (bad : UInt32 → Prop) {garbage : QuadKey → UInt32} (hg : ∀ q, bad (garbage q)) {m : GeoStore.Map K Store} {B : Stores K Store}
    (hm : Abs m B) {C : K → QuadKey → List El} (hC : ∀ k s, B k = some s → Holds d tokens bad s (C k)) {k : K} {s : Store} (hk : B k = some s) {target : Target} (ht : Sensible target)
    {files : Files} {fields : List (String × FieldType)} {figures : List (Option (ShapeImportSpec.Figure × List (Option String)))}
    (hf : ShapeImportSpec.Begins files fields figures []) (he : ShapeImportSpec.OnEarth figures) (hw : ShapeWords senv P fields figures) :
    ∃ fc els, Opened T senv css fc ∧
      List.Forall₂ (fun f e => ∃ tags, ShapeImportSpec.Tagged (fun s => senv.getId s.toList) fields f.2 tags ∧ ShapeImportSpec.Shows env.eps tags f.1 e) (figures.filterMap id) els ∧
      ((∀ q, ∀ e ∈ els.filterMap (seen env.eng (wanted senv (rulesOf entries)) target q), Storable d tokens bad e) →
        (∀ q, size d (C k q ++ els.filterMap (seen env.eng (wanted senv (rulesOf entries)) target q)) < 2 ^ 32) →
        ∃ m', importShape (diskIface d tokens garbage) (withSheet env senv fc) (some beyond) m k target files = (m', .done) ∧
          ∀ q, ∃ old, (GeoStore.step (diskIface d tokens garbage) m (.tile q)).2 = .elements old ∧
            ∀ stores, stores.Perm (disks m') → ∀ garbage' : QuadKey → UInt32, (∀ q, bad (garbage' q)) → ∀ qs : List QuadKey,
              Loaded (diskIface d tokens garbage') senv (rulesOf entries) fc P (GeoStore.run (diskIface d tokens garbage') GeoStore.init (registrations stores ++ qs.map .tile)).1 q old
                (els.filterMap (seen env.eng (wanted senv (rulesOf entries)) target q))) := by
  obtain ⟨fc, h1, hok⟩ := sheet_opened T hcss hgap hacc
  obtain ⟨els, h2, h3⟩ := ShapeImportProof.told_begins (env := withSheet env senv fc) hsort beyond hf
  simp only [DirectImport.each, List.append_nil] at h2
  refine ⟨fc, els, h1, h3, fun hst hz => ?_⟩
  obtain ⟨m', h5, h6⟩ := disk_loaded hok hmen hskip hclip hw.back env hg hm hC hk ht (ShapeImportProof.points_globe he h3) (shape_readable (env := withSheet env senv fc) rfl hw h3) hst hz
  exact ⟨m', by rw [importShape, h2]; exact h5, h6⟩

end

namespace DirectLoadProof.Sample
open LoadTileProof.Sample (css rule reads)

/-- The strings which have a number. -/
def words : List Str := ["id".toList, "a".toList, "b".toList, "feature".toList, "water".toList, "builder".toList, "skip".toList, "clip".toList]

/-- A string table; the numbers do not matter. -/
def strings : Style.Env Nat := ⟨fun s => UInt32.ofNat (words.idxOf s), fun i => words.getD i.toNat [], fun s => s.length, fun a b => decide (a < b), fun _ => none⟩

theorem mentions : Mentions (rulesOf (A := Unit) (L := Unit) [.rule rule]) (· ∈ words) := by
  simp only [Mentions, rulesOf, rule, MapCssSpec.Entry.rule?]
  decide

theorem accepted : (Style.build strings (rulesOf (A := Unit) (L := Unit) [.rule rule])).isOk = true := rfl

theorem back : ∀ s ∈ words, strings.getString (strings.getId s) = s := by decide

/-- A point with these tags and without id. -/
def spot (tags : List Tag) : El := .node 0 tags ⟨0, 0⟩

theorem spot_decls {tags : List Tag} (h : ⟨1, 2⟩ ∈ tags) : decls strings (rulesOf (A := Unit) (L := Unit) [.rule rule]) 1 (spot tags) = [⟨"builder".toList, ['c']⟩] := by
  have h0 : idRules strings (1 : ℤ).toNat (spot tags).id (rulesOf (A := Unit) (L := Unit) [.rule rule]) = [] := by
    show idRules strings 1 0 _ = _
    decide
  have ha : Applies strings (1 : ℤ).toNat (spot tags).tags ⟨[['n', 'o', 'd', 'e']], ⟨1, 16⟩, [⟨['a'], ['='], ['b']⟩]⟩ := by
    refine ⟨by unfold InZoom; decide, fun c hc => ?_⟩
    rw [List.mem_singleton.1 hc]
    exact ⟨⟨1, 2⟩, h, by decide, .inr (.inl ⟨rfl, by decide⟩)⟩
  have hk : kindName (Style.kindOfElement (spot tags)) = ['n', 'o', 'd', 'e'] := rfl
  unfold decls
  rw [h0]
  simp only [declared, applied, rulesOf, rule, MapCssSpec.Entry.rule?, List.filterMap_cons, List.filterMap_nil, List.map_cons, List.map_nil, List.flatMap_cons, List.flatMap_nil,
    List.append_nil]
  rw [if_pos ⟨hk.symm, ha⟩]
  rfl

theorem spot_wanted {tags : List Tag} (h : ⟨1, 2⟩ ∈ tags) : wanted strings (rulesOf (A := Unit) (L := Unit) [.rule rule]) (spot tags) 1 = ⟨false, false, false⟩ := by
  unfold wanted
  rw [spot_decls h]
  decide

theorem spot_seen (eng : Clipper.Engine) {style : El → ℤ → ElementStore.StyleInfo} {tags : List Tag} (h : style (spot tags) 1 = ⟨false, false, false⟩) :
    seen eng style (.range ⟨1, 1⟩) ⟨1, 1, 1⟩ (spot tags) = some (spot tags) := by
  unfold ImportSpec.seen
  rw [if_pos]
  · simp [h]
  · refine ⟨⟨le_rfl, le_rfl⟩, by rw [h]; exact ⟨rfl, rfl⟩, ⟨by unfold TilesSpec.Valid; decide, ⟨0, 0⟩, ?_, ?_⟩⟩
    · intro b hb
      exact hb _ (by simp [spot, ClipperSpec.points, ClipperSpec.leaves, ClipperSpec.coords])
    · have e0 : Mercator.tileYToLat 1 1 = 0 := by
        simp only [Mercator.tileYToLat, Mercator.sinh_half]; norm_num
      have e1 : Mercator.tileYToLat 2 1 < 0 := by
        rw [Mercator.tileYToLat_lt_iff (by norm_num)]
        have h2 := Mercator.row_tileYToLat 1 1
        rw [e0] at h2
        rw [h2]; norm_num
      simp only [MercatorSpec.Owns, Mercator.tileBox]
      refine ⟨by simp only [Mercator.tileXToLon]; norm_num, .inl (by simp only [Mercator.tileXToLon]; norm_num), by rw [e0], .inl ?_⟩
      simpa using e1

theorem only_spot {eng : Clipper.Engine} {style : El → ℤ → ElementStore.StyleInfo} {tags : List Tag} (h : style (spot tags) 1 = ⟨false, false, false⟩) (q : QuadKey) :
    seen eng style (.range ⟨1, 1⟩) q (spot tags) = none ∨ seen eng style (.range ⟨1, 1⟩) q (spot tags) = some (spot tags) := by
  unfold ImportSpec.seen
  split
  · rename_i hw
    have hl : q.lod = 1 := le_antisymm hw.1.2 hw.1.1
    rw [hl, h]
    exact .inr rfl
  · exact .inl rfl

theorem spot_built {tags : List Tag} (h : ⟨1, 2⟩ ∈ tags) : buildWith strings (rulesOf (A := Unit) (L := Unit) [.rule rule]) 1 ['c'] [spot tags] = [spot tags] := by
  have hp : ([spot tags] : List El).flatMap parts = [spot tags] := rfl
  unfold buildWith
  rw [hp, List.filter_cons, if_pos]
  · rfl
  · rw [spot_decls h]
    decide

theorem spot_distinct (tags : List Tag) : DistinctIds strings (rulesOf (A := Unit) (L := Unit) [.rule rule]) 1 [spot tags] := by
  refine ⟨by simp [parts, spot], ?_⟩
  intro e he
  have : e = spot tags := by simpa [parts, spot] using he
  rw [this]
  simp [spot, clippedIds]

/-- Tools for the examples. -/
noncomputable def tools : Json.Tools ℝ where
  getId s := strings.getId s.toList
  toDouble s := if s = "0" then some 0 else none
  toId _ := none
  sort := JsonExample.tools.sort
  same a b := Osm.geoEq 1 (geo a) (geo b)

theorem tools_id (k : String) (h : tools.getId k = tools.getId "id") : k = "id" := by
  have h1 : UInt32.ofNat (words.idxOf k.toList) = 0 := h
  have h2 : words.idxOf k.toList ≤ 8 := by
    have := List.idxOf_le_length (a := k.toList) (l := words)
    simpa [words] using this
  have h3 : words.idxOf k.toList = 0 := by
    have := congrArg UInt32.toNat h1
    rw [UInt32.toNat_ofNat_of_lt' (by simp only [UInt32.size]; omega)] at this
    exact this
  have h4 : words[words.idxOf k.toList]? = some k.toList := by
    rw [List.getElem?_eq_getElem (by rw [h3]; decide)]
    simp
  rw [h3] at h4
  exact (String.toList_inj.1 (Option.some.inj h4)).symm

def point : JsonSpec.Feature ℝ := ⟨.point (0, 0), [("a", "b")]⟩

/-- `{"water": {"type": "FeatureCollection", "features": [{"type": "Feature", "properties": {"a": "b"}, "geometry": {"type": "Point", "coordinates": [0, 0]}}]}}` -/
def document : Json.Tree := JsonExample.document [("water", [JsonExample.feature "Point" (JsonExample.position "0" "0") [("a", .leaf "b")]])]

theorem document_is : JsonSpec.IsDocument tools.toDouble document [("water", [point])] := by
  refine .cons ⟨rfl, _, .mk "" [("type", .leaf "FeatureCollection")] "features" _ [] (by simp), .cons ?_ .nil⟩ .nil
  exact ⟨⟨_, .mk "" [("type", .leaf "Feature"), ("properties", .mk "" [("a", .leaf "b")])] "geometry" _ [] (by simp), .leaf "Point", JsonExample.position "0" "0",
    .mk "" [] "type" _ [("coordinates", _)] (by simp), .mk "" [("type", .leaf "Point")] "coordinates" _ [] (by simp), rfl, .cons rfl (.cons rfl .nil)⟩,
    ⟨_, .mk "" [("type", .leaf "Feature")] "properties" _ _ (by simp), rfl⟩⟩

theorem document_proper : JsonImportSpec.Proper tools.toId [("water", [point])] where
  plain := by simp [JsonSpec.Plain]
  distinct := by simp
  ids := by
    intro c hc f hf
    rw [List.mem_singleton.1 hc] at hf
    rw [List.mem_singleton.1 hf]
    exact ⟨0, .inl ⟨by simp [point], rfl⟩⟩
  earth := by
    intro c hc f hf
    rw [List.mem_singleton.1 hc] at hf
    rw [List.mem_singleton.1 hf]
    intro p hp
    rw [List.mem_singleton.1 hp]
    norm_num [OnGlobe]

theorem document_words : JsonWords strings (· ∈ words) [("water", [point])] where
  back := back
  feature := back _ (by decide)
  names := by
    intro c hc
    rw [List.mem_singleton.1 hc]
    exact back _ (by decide)
  properties := by
    intro c hc f hf p hp
    rw [List.mem_singleton.1 hc] at hf
    rw [List.mem_singleton.1 hf] at hp
    rw [List.mem_singleton.1 hp]
    exact ⟨back _ (by decide), back _ (by decide)⟩
  once := by
    intro c hc f hf
    rw [List.mem_singleton.1 hc] at hf
    rw [List.mem_singleton.1 hf]
    simp [point]

/-- One point with a text in the field `a`. -/
def files : Files := ⟨some [some (1, ⟨[⟨0, 0⟩], [], []⟩)], some ⟨[("a", .string)], [[⟨false, "b", "0", "0"⟩]]⟩⟩

theorem files_begin : ShapeImportSpec.Begins files [("a", .string)] [some (.point ⟨0, 0⟩, [some "b"])] [] :=
  ⟨by simp, _, _, [(some (1, ⟨[⟨0, 0⟩], [], []⟩), [⟨false, "b", "0", "0"⟩])], rfl, rfl, rfl, rfl,
    .cons ⟨_, rfl, ⟨by simp, rfl⟩, .cons (.string _ rfl) .nil, rfl⟩ .nil⟩

theorem files_words : ShapeWords strings (· ∈ words) [("a", .string)] [some (.point ⟨0, 0⟩, [some "b"])] where
  back := back
  keys := by
    intro f hf
    rw [List.mem_singleton.1 hf]
    exact back _ (by decide)
  values := by
    intro f hf v hv
    obtain rfl := Option.some.inj (List.mem_singleton.1 hf)
    obtain rfl := Option.some.inj (List.mem_singleton.1 hv)
    exact back _ (by decide)
  once := by simp

end DirectLoadProof.Sample
open DirectLoadProof.Sample
open Verif.Props.PersistentSpec (bytes)
open LoadTileProof.Sample (css rule reads)

/-- A stylesheet with one rule and a GeoJSON file with one point: the builder `c` gets the point, in the tile of the first level where it is. -/
example (tokens : El → List UInt32) (env : Env) : ∃ fc depth m t tags, openSheet MapCssExample.tools strings depth css = .ok fc ∧
    importJson (memIface tokens) tools (withSheet env strings fc) (GeoStore.step (memIface tokens) GeoStore.init (.register 5 MemStore.init)).1 5 (.range ⟨1, 1⟩) (some document) = (m, .done) ∧
    loadTile (memIface tokens) strings fc id id m ⟨1, 1, 1⟩ = .ok t ∧ visited ['c'] t = [.node 0 tags ⟨0, 0⟩] ∧ tags.Perm [⟨1, 2⟩, ⟨3, 4⟩] := by
  let A : Stores Nat (MemStore.Store El) := fun k => if k = 5 then some MemStore.init else none
  have hA : Abs (GeoStore.step (memIface tokens) GeoStore.init (.register 5 MemStore.init)).1 A := by
    refine ⟨by simp [GeoStore.step, GeoStore.init, GeoStore.emplace], ?_⟩
    intro k p
    simp only [GeoStore.step, GeoStore.init, GeoStore.emplace, List.mem_singleton, Prod.mk.injEq, A]
    constructor
    · rintro ⟨rfl, rfl⟩; exact ⟨_, rfl, by simp⟩
    · rintro ⟨s, rfl, h⟩
      split at h
      · exact ⟨by assumption, by rw [h]⟩
      · cases h
  have hu : Used tokens A := by
    intro k s h
    simp only [A] at h
    split at h
    · exact ⟨[], (Option.some.inj h).symm⟩
    · cases h
  obtain ⟨fc, m', els, ⟨depth, h1⟩, h2, h3, h4⟩ := C118_json_partial MapCssExample.tools reads .nil strings accepted mentions (by decide) (by decide) env tools (fun _ => rfl) tools_id
    JsonExample.sorts tokens hA hu (k := 5) (s := MemStore.init) (by simp [A]) (target := .range ⟨1, 1⟩) ⟨by decide, by decide⟩ document_is document_proper document_words
  obtain ⟨tags, rfl, hp⟩ : ∃ tags, els = [spot tags] ∧ tags.Perm [⟨1, 2⟩, ⟨3, 4⟩] := by
    cases h3 with
    | cons hx hl =>
      cases hl
      obtain ⟨id, tags, d, i1, i2, i3, rfl⟩ := hx
      have hid : id = 0 := by
        rcases i1 with ⟨-, h⟩ | ⟨_, _, _, _, -, -, -, -, -, h⟩
        · exact h
        · cases h
      subst hid
      cases i3
      refine ⟨tags, rfl, ?_⟩
      have := i2.1
      have e : (List.map (fun p : String × String => (⟨tools.getId p.1, tools.getId p.2⟩ : Tag)) (List.filter (fun p => decide (p.1 ≠ "id")) DirectLoadProof.Sample.point.properties ++ [("feature", "water")])) =
        [⟨1, 2⟩, ⟨3, 4⟩] := by decide
      rwa [e] at this
  have hin : (⟨1, 2⟩ : Tag) ∈ tags := hp.mem_iff.2 (by simp)
  obtain ⟨old, h5, h6⟩ := h4 ⟨1, 1, 1⟩
  have hold : old = [] := by
    have : (GeoStore.step (memIface tokens) (GeoStore.step (memIface tokens) GeoStore.init (.register 5 MemStore.init)).1 (.tile ⟨1, 1, 1⟩)).2 = .elements [] := rfl
    rw [this] at h5
    cases h5
    rfl
  subst hold
  rw [List.filterMap_cons, spot_seen env.eng (spot_wanted hin), List.filterMap_nil] at h6
  obtain ⟨t, h7, h8⟩ := h6 (by simp) (spot_distinct tags) id id (fun _ => .refl _) (fun _ => .refl _)
  refine ⟨fc, depth, m', t, tags, h1 depth le_rfl, h2, h7, ?_, hp⟩
  have h9 := (h8 ['c']).2
  rw [List.nil_append, spot_built hin] at h9
  exact List.perm_singleton.1 h9

/-- A stylesheet with one rule and a shape file with one point: the builder `c` gets the point after a restart, also when tiles have been searched before. -/
example (d : Doubles) (h0 : d.value (d.bits 0) = 0) (env : Env) (hsort : OsmSpec.Sorts env.sort) (beyond : Nat) : ∃ fc depth m t, openSheet MapCssExample.tools strings depth css = .ok fc ∧
    importShape (diskIface d (fun e => e.tags.map (·.key)) fun _ => 7) (withSheet env strings fc) (some beyond)
      (GeoStore.step (diskIface d (fun e => e.tags.map (·.key)) fun _ => 7) GeoStore.init (.register 5 PersistentStore.init)).1 5 (.range ⟨1, 1⟩) files = (m, .done) ∧
    loadTile (diskIface d (fun e => e.tags.map (·.key)) fun _ => 8) strings fc id id
      (GeoStore.run (diskIface d (fun e => e.tags.map (·.key)) fun _ => 8) GeoStore.init (registrations (disks m) ++ [⟨1, 1, 1⟩, ⟨1, 0, 0⟩].map .tile)).1 ⟨1, 1, 1⟩ = .ok t ∧
    visited ['c'] t = [.node 0 [⟨1, 2⟩] ⟨0, 0⟩] := by
  let A : Stores Nat Store := fun k => if k = 5 then some PersistentStore.init else none
  let I := diskIface d (fun e => e.tags.map (·.key)) fun _ => 7
  have hA : Abs (GeoStore.step I GeoStore.init (.register 5 PersistentStore.init)).1 A := by
    refine ⟨by simp [GeoStore.step, GeoStore.init, GeoStore.emplace], ?_⟩
    intro k p
    simp only [GeoStore.step, GeoStore.init, GeoStore.emplace, List.mem_singleton, Prod.mk.injEq, A]
    constructor
    · rintro ⟨rfl, rfl⟩; exact ⟨_, rfl, by simp⟩
    · rintro ⟨s, rfl, h⟩
      split at h
      · exact ⟨by assumption, by rw [h]⟩
      · cases h
  have hC : ∀ k s, A k = some s → Holds d (fun e => e.tags.map (·.key)) (fun u => u ≠ 1) s (fun _ => []) := by
    intro k s h
    simp only [A] at h
    split at h
    · exact ⟨[], by simp, by simp, trivial, (Option.some.inj h).symm, fun q => ⟨by simp, rfl⟩⟩
    · cases h
  obtain ⟨fc, els, ⟨depth, h1⟩, h2, h3⟩ := C118_shape_restart_partial MapCssExample.tools reads .nil strings accepted mentions (by decide) (by decide) env hsort beyond d
    (fun e => e.tags.map (·.key)) (fun u => u ≠ 1) (garbage := fun _ => 7) (fun _ => by decide) hA (C := fun _ _ => []) hC (k := 5) (s := PersistentStore.init) (by simp [A])
    (target := .range ⟨1, 1⟩) ⟨by decide, by decide⟩ files_begin (by
      intro f hf p hp
      obtain rfl := Option.some.inj (List.mem_singleton.1 hf)
      rw [List.mem_singleton.1 hp]
      norm_num [OnGlobe]) files_words
  have hels : els = [spot [⟨1, 2⟩]] := by
    cases h2 with
    | cons hx hl =>
      cases hl
      obtain ⟨tags, ⟨t1, -⟩, t2⟩ := hx
      have e : (List.filterMap (fun x : (String × FieldType) × Option String => x.2.map fun v => (⟨strings.getId x.1.1.toList, strings.getId v.toList⟩ : Tag))
        (List.zip [("a", FieldType.string)] [some "b"])) = [⟨1, 2⟩] := by decide
      simp only at t1
      rw [e] at t1
      rw [t2, List.perm_singleton.1 t1]
      rfl
  subst hels
  have hw := spot_wanted (tags := [⟨1, 2⟩]) (by simp)
  obtain ⟨m', h4, h5⟩ := h3 (by
      intro q e he
      rcases only_spot (eng := env.eng) hw q with h | h
      · simp [h] at he
      · simp only [List.filterMap_cons, h, List.filterMap_nil, List.mem_singleton] at he
        rw [he]
        refine ⟨?_, ?_, ?_⟩
        · intro p hp
          have : p = ⟨0, 0⟩ := by simpa [spot, ClipperSpec.points, ClipperSpec.leaves, ClipperSpec.coords] using hp
          rw [this]
          exact ⟨h0, h0⟩
        · simp [spot, encode, mapCoords, StreamsSpec.Fits]
        · intro u hu
          have : u = 1 := by simpa [spot, encode, mapCoords, Element.tags] using hu
          rw [this]
          simp) (by
      intro q
      rcases only_spot (eng := env.eng) hw q with h | h
      · simp [h, size, bytes]
      · have : size d [spot [⟨1, 2⟩]] < 2 ^ 32 := by
          simp [size, bytes, spot, encode, mapCoords, Streams.writeElement, Streams.writeVec, Streams.writeTag, Streams.writeCoord, leBytes]
        simpa [h] using this)
  obtain ⟨old, h6, h7⟩ := h5 ⟨1, 1, 1⟩
  have hold : old = [] := by
    have : (GeoStore.step I (GeoStore.step I GeoStore.init (.register 5 PersistentStore.init)).1 (.tile ⟨1, 1, 1⟩)).2 = .elements [] := rfl
    rw [this] at h6
    cases h6
    rfl
  subst hold
  rw [List.filterMap_cons, spot_seen env.eng hw, List.filterMap_nil] at h7
  obtain ⟨t, h8, h9⟩ := h7 _ (.refl _) (fun _ => 8) (fun _ => by decide) [⟨1, 1, 1⟩, ⟨1, 0, 0⟩] (by simp) (spot_distinct _) id id (fun _ => .refl _) (fun _ => .refl _)
  refine ⟨fc, depth, m', t, h1 depth le_rfl, h4, h8, ?_⟩
  have h10 := (h9 ['c']).2
  rw [List.nil_append, spot_built (by simp)] at h10
  exact List.perm_singleton.1 h10

end Verif.Props
