import Verif.Props.SessionSpec
import Verif.Props.LoadTile
import Verif.Props.Api
import Verif.Proof.PersistentStore

/-! # C106: an element which is added through the API is told to the caller; C107: stylesheets are read once -/
namespace Verif.Props
open Verif.Clipper (El)
open Verif.Style (Rule Declaration Str FilterCollection)
open Verif.StyleSpec Verif.LoadTileSpec Verif.SessionSpec Verif.QuadKeyBuilderSpec
open Verif.Session (World State)
open Verif.Api (Exported Result)
open Verif.ApiSpec (flat Supported)
open Verif.ImportSpec Verif.GeoStoreSpec
open GeoStoreProof

namespace SessionProof
variable {A L D K S Q : Type}

theorem dropWhile_name {p : Char → Bool} {name dir : List Char} (h : ∀ c ∈ name, p c = true) (hd : dir = [] ∨ ∃ c, dir.getLast? = some c ∧ p c = false) :
    ((dir ++ name).reverse.dropWhile p).reverse = dir := by
  rw [List.reverse_append, List.dropWhile_append_of_pos (by simpa using h)]
  rcases hd with rfl | ⟨c, hc, hp⟩
  · rfl
  · rw [← List.head?_reverse] at hc
    cases hx : dir.reverse with
    | nil => rw [hx] at hc; cases hc
    | cons a l =>
      rw [hx] at hc
      cases hc
      rw [List.dropWhile_cons_of_neg (by simp [hp]), ← hx, List.reverse_reverse]

theorem directory_eq {path dir : List Char} (h : InDirectory path dir) : Session.directory path = dir := by
  obtain ⟨name, rfl, h1, h2, h3⟩ := h
  unfold Session.directory
  refine dropWhile_name ?_ ?_
  · intro c hc
    have a : c ≠ '\\' := fun h => h2 (h ▸ hc)
    have b : c ≠ '/' := fun h => h1 (h ▸ hc)
    simp [a, b]
  · rcases h3 with h | h | h
    · exact .inl h
    · exact .inr ⟨_, h, by decide⟩
    · exact .inr ⟨_, h, by decide⟩

theorem built {senv : Style.Env D} {rules : List Rule} (h : (Style.build senv rules).isOk = true) : ∃ fc, Style.build senv rules = .ok fc := by
  cases hx : Style.build senv rules with
  | ok fc => exact ⟨fc, rfl⟩
  | throw e => rw [hx] at h; cases h
  | ub e => rw [hx] at h; cases h

theorem provider_known (w : World A L D S Q) {sheets : Assoc (List Char) FilterCollection} {path : List Char} {fc : FilterCollection} (h : sheets.find path = some fc) :
    Session.getStyleProvider w sheets path = (sheets, .ok fc) := by
  unfold Session.getStyleProvider
  rw [h]

theorem provider_written (w : World A L D S Q) {sheets : Assoc (List Char) FilterCollection} {path : List Char} (hn : sheets.find path = none) {rules : List Rule}
    (h : Written w path rules) : ∃ fc, Style.build w.strings rules = .ok fc ∧ ∃ N, ∀ n ≥ N,
      Session.getStyleProvider { w with depth := n } sheets path = (sheets.set path fc, .ok fc) := by
  obtain ⟨dir, text, g, entries, h1, h2, h3, h4, rfl, h5⟩ := h
  obtain ⟨fc, hfc⟩ := built h5
  obtain ⟨N, hN⟩ := C60_parse_partial (w.tools dir) text g entries h3 h4
  refine ⟨fc, hfc, N, fun n hn' => ?_⟩
  obtain ⟨sheet, a1, a2⟩ := hN n hn'
  have ho : LoadTile.openSheet (w.tools dir) w.strings n text = .ok fc := by
    rw [LoadTile.openSheet, a1]
    simp only [Outcome.bind]
    rw [a2.1, LoadTileProof.toRule_rulesOf, hfc]
  unfold Session.getStyleProvider
  simp only [hn, h2, directory_eq h1, ho]

/-- The provider for the rules which are in force. -/
theorem provider (w : World A L D S Q) {st : State K S} {path : List Char} {rules : List Rule} (h : InForce w st path rules) :
    ∃ fc, Style.build w.strings rules = .ok fc ∧ ∃ N, ∀ n ≥ N, ∃ sheets, Session.getStyleProvider { w with depth := n } st.sheets path = (sheets, .ok fc) ∧
      sheets.find path = some fc ∧ ∀ p, p ≠ path → sheets.find p = st.sheets.find p := by
  rcases h with ⟨fc, h1, h2⟩ | ⟨h1, h2⟩
  · exact ⟨fc, h2, 0, fun n _ => ⟨st.sheets, provider_known _ h1, h1, fun _ _ => rfl⟩⟩
  · obtain ⟨fc, a1, N, a2⟩ := provider_written w h1 h2
    refine ⟨fc, a1, N, fun n hn => ⟨_, a2 n hn, by rw [Assoc.find_set, if_pos rfl], fun p hp => by rw [Assoc.find_set, if_neg hp]⟩⟩

/-! ## The element -/

theorem flat_eq (cs : List (Geo ℝ)) : (cs.flatMap fun c => [c.lat, c.lon]) = flat (cs.map Session.pair) := by
  induction cs with
  | nil => rfl
  | cons c cs ih =>
    rw [List.flatMap_cons, ih]
    rfl

theorem geo_pair (cs : List (Geo ℝ)) : (cs.map Session.pair).map DirectImport.geo = cs := by
  rw [List.map_map]
  conv => rhs; rw [← List.map_id cs]
  exact List.map_congr_left fun c _ => rfl

theorem element_eq (eps : ℝ) (id : UInt64) (tags : List Tag) {cs : List (Geo ℝ)} (hcs : cs ≠ []) :
    ∃ e, Api.elementOf (Session.same eps) id (flat (cs.map Session.pair)) tags = .ok e ∧ DirectImport.toEl e = described eps id tags cs := by
  match cs with
  | [] => exact absurd rfl hcs
  | [c] => exact ⟨_, ApiProof.elementOf_ok _ id tags _ _ (.node (Session.pair c)), rfl⟩
  | c :: d :: ds =>
    obtain ⟨mid, z, hz⟩ : ∃ mid z, d :: ds = mid ++ [z] := ⟨_, _, (List.dropLast_append_getLast (by simp : d :: ds ≠ [])).symm⟩
    have hne : mid ++ [z] ≠ [] := by simp
    have hmap : (c :: (mid ++ [z])).map Session.pair = Session.pair c :: mid.map Session.pair ++ [Session.pair z] := by simp
    have hlast : (mid ++ [z]).getLast? = some z := by simp
    have hd : described eps id tags (c :: (mid ++ [z])) =
        if |c.lat - z.lat| < eps ∧ |c.lon - z.lon| < eps then .area id tags (c :: (mid ++ [z])) else .way id tags (c :: (mid ++ [z])) := by
      have hx : (∃ z', (mid ++ [z]).getLast? = some z' ∧ |c.lat - z'.lat| < eps ∧ |c.lon - z'.lon| < eps) ↔ |c.lat - z.lat| < eps ∧ |c.lon - z.lon| < eps := by
        rw [hlast]
        constructor
        · rintro ⟨z', h1, h2⟩
          rwa [← Option.some.inj h1] at h2
        · exact fun h => ⟨z, rfl, h⟩
      rw [← hz] at hx ⊢
      simp only [described, hx]
    have hg : DirectImport.geo (Session.pair c) :: (mid.map Session.pair ++ [Session.pair z]).map DirectImport.geo = c :: (mid ++ [z]) := by
      have := geo_pair (c :: (mid ++ [z]))
      rw [hmap] at this
      simpa using this
    rw [hz, hd, hmap]
    by_cases h : |c.lat - z.lat| < eps ∧ |c.lon - z.lon| < eps
    · refine ⟨_, ApiProof.elementOf_ok _ id tags _ _ (.area (Session.pair c) (mid.map Session.pair) (Session.pair z) ?_), ?_⟩
      · simp only [Session.same, Session.pair]
        exact decide_eq_true h
      · rw [if_pos h]
        simp only [DirectImport.toEl, DiskImport.mapCoords, List.cons_append, List.map_cons, hg]
    · refine ⟨_, ApiProof.elementOf_ok _ id tags _ _ (.way (Session.pair c) (mid.map Session.pair) (Session.pair z) ?_), ?_⟩
      · simp only [Session.same, Session.pair]
        exact decide_eq_false h
      · rw [if_neg h]
        simp only [DirectImport.toEl, DiskImport.mapCoords, List.cons_append, List.map_cons, hg]

theorem described_tags (eps : ℝ) (id : UInt64) (tags : List Tag) (cs : List (Geo ℝ)) : (described eps id tags cs).tags = tags := by
  unfold described
  split
  · rfl
  · split <;> rfl
  · rfl

theorem described_id (eps : ℝ) (id : UInt64) (tags : List Tag) (cs : List (Geo ℝ)) : (described eps id tags cs).id = id := by
  unfold described
  split
  · rfl
  · split <;> rfl
  · rfl

theorem described_places (eps : ℝ) (id : UInt64) (tags : List Tag) (cs : List (Geo ℝ)) : places (described eps id tags cs) = cs := by
  unfold described
  split
  · rfl
  · split <;> rfl
  · rfl

theorem described_points (eps : ℝ) (id : UInt64) (tags : List Tag) (cs : List (Geo ℝ)) : ClipperSpec.points (described eps id tags cs) = cs := by
  unfold described
  split
  · simp [ClipperSpec.points, ClipperSpec.leaves, ClipperSpec.coords]
  · split <;> simp [ClipperSpec.points, ClipperSpec.leaves, ClipperSpec.coords]
  · simp [ClipperSpec.points, ClipperSpec.leaves, ClipperSpec.coords]

theorem tagLoop_eq (w : World A L D S Q) (tags : List (String × String)) : Api.tagLoop (Session.getId w) (flat tags) = .ok (numbered w.strings tags) :=
  ApiProof.tagLoop_flat _ _

theorem readable {senv : Style.Env D} {P : Str → Prop} {tags : List (String × String)}
    (hback : ∀ s, (P s ∨ ∃ t ∈ tags, s = t.1.toList ∨ s = t.2.toList) → senv.getString (senv.getId s) = s) (hsorted : TagsSorted (numbered senv tags)) {e : El}
    (he : e.tags = numbered senv tags) : Readable senv P e := by
  refine ⟨⟨fun s h => hback s (.inl h), ?_⟩, ?_, ?_⟩
  · intro t ht _ _
    rw [he] at ht
    obtain ⟨p, hp, rfl⟩ := List.mem_map.1 ht
    simp only
    rw [hback _ (.inr ⟨p, hp, .inl rfl⟩), hback _ (.inr ⟨p, hp, .inr rfl⟩)]
    exact ⟨rfl, rfl⟩
  · rw [he]
    exact hsorted.imp fun h => UInt32.le_of_lt h
  · intro k _ a ha b hb h1 h2
    rw [he] at ha hb
    have hs : ((numbered senv tags).map Tag.key).Nodup := List.pairwise_map.2 (hsorted.imp fun h h' => by rw [h'] at h; exact absurd h (UInt32.lt_irrefl _))
    exact List.inj_on_of_nodup_map hs ha hb (h1.trans h2.symm)

/-! ## Stores -/

theorem add_eq {I : GeoStore.Iface S El Q} [LinearOrder K] {m : GeoStore.Map K S} {k : K} {s : S} (hs : GeoStore.subscript k m = m) (hp : GeoStore.pointer k m = some s)
    (l : List (QuadKey × El)) : GeoStore.step I m (.add k l) = GeoStore.step I m (.addFile k (some [l]) .range false) := by
  simp only [GeoStore.step, hs, hp, GeoStore.withStore, GeoStore.importFile]
  cases h : GeoStore.saveAll I s l <;> simp [Outcome.bind, GeoStore.putPtr, GeoStore.forget]

/-! ## What is told -/

theorem fold_keys {senv : Style.Env D} (ds : List Style.StyleDeclaration) (st : Style.Style) (hn : (st.declarations.map (·.1)).Nodup) :
    ((ds.foldl (Style.put senv) st).declarations.map (·.1)).Nodup ∧
      ∀ i v, (i, v) ∈ (ds.foldl (Style.put senv) st).declarations → (i, v) ∈ st.declarations ∨ ∃ d ∈ ds, d.key = i := by
  induction ds generalizing st with
  | nil => exact ⟨hn, fun i v h => .inl h⟩
  | cons d ds ih =>
    obtain ⟨h1, h2⟩ := ih (Style.put senv st d) (PersistentStore.Assoc.set_nodup hn _ _)
    refine ⟨h1, fun i v h => ?_⟩
    rcases h2 i v h with h3 | ⟨d', h3, h4⟩
    · simp only [Style.put, Assoc.set, List.mem_cons, Assoc.erase] at h3
      rcases h3 with h3 | h3
      · exact .inr ⟨d, by simp, by cases h3; rfl⟩
      · exact .inl (List.mem_filter.1 h3).1
    · exact .inr ⟨d', by simp [h3], h4⟩


/-- The style is what its declarations say. -/
theorem style_fold {senv : Style.Env D} {rules : List Rule} {fc : FilterCollection} {P : Str → Prop} (hok : Style.build senv rules = .ok fc) (hm : Mentions rules P) {e : El}
    (hr : Readable senv P e) (lod : ℤ) : Style.forElement senv fc e lod.toNat = (Style.addDeclarations senv (decls senv rules lod e)).foldl (Style.put senv) Style.emptyStyle := by
  unfold decls Style.forElement
  rw [StyleProof.forElement_id senv rules fc hok]
  cases hid : idRules senv lod.toNat e.id rules with
  | cons ds rest => rfl
  | nil =>
    simp only [List.head?_nil, Option.map_none]
    unfold Style.buildFromCondition
    rw [StyleProof.buildFromCondition_eq]
    have := StyleProof.build_matched senv e.tags P hr.1 hr.2 rules hm fc hok (Style.kindOfElement e) lod.toNat
    unfold StyleProof.look at this
    rw [this, StyleProof.addDeclarations_flatten]
    rfl

theorem decls_mentioned {senv : Style.Env D} {rules : List Rule} {P : Str → Prop} (hm : Mentions rules P) (lod : ℤ) (e : El) {d : Declaration} (hd : d ∈ decls senv rules lod e) :
    P d.key := by
  unfold decls at hd
  split at hd
  · rename_i ds rest h
    have hmem : ds ∈ idRules senv lod.toNat e.id rules := by rw [h]; simp
    simp only [idRules, List.mem_flatMap] at hmem
    obtain ⟨r, hr, s, -, n, -, hds⟩ := hmem
    split at hds
    · simp only [List.mem_singleton] at hds; subst hds; exact (hm.2 r hr).1 d hd
    · cases hds
  · simp only [declared, applied, List.mem_flatten, List.mem_flatMap] at hd
    obtain ⟨ds, ⟨r, hr, s, -, n, -, hds⟩, hd⟩ := hd
    split at hds
    · simp only [List.mem_singleton] at hds; subst hds; exact (hm.2 r hr).1 d hd
    · cases hds

theorem lastValue_mem {ds : List Declaration} {k v : Str} (h : lastValue ds k = some v) : ∃ d ∈ ds, d.key = k := by
  unfold lastValue at h
  obtain ⟨d, h1, -⟩ := Option.map_eq_some_iff.1 h
  have h2 := List.find?_some h1
  exact ⟨d, List.mem_reverse.1 (List.mem_of_find?_eq_some h1), by simpa using h2⟩

theorem declarations_eq (w : World A L D S Q) (hp : ∀ l, (w.pairs l).Perm l) {rules : List Rule} {fc : FilterCollection} {P : Str → Prop} (hok : Style.build w.strings rules = .ok fc)
    (hm : Mentions rules P) {e : El} (hr : Readable w.strings P e) (lod : ℤ) :
    ∃ ps : List (Str × Str), Session.declarations w fc lod e = ps.map (fun p => (String.ofList p.1, String.ofList p.2)) ∧ (ps.map (·.1)).Nodup ∧
      ∀ k v, (k, v) ∈ ps ↔ lastValue (decls w.strings rules lod e) k = some v := by
  have hst := LoadTileProof.style_of hok hm hr lod
  have hk : ((Style.forElement w.strings fc e lod.toNat).declarations.map (·.1)).Nodup ∧ ∀ i v, (i, v) ∈ (Style.forElement w.strings fc e lod.toNat).declarations →
      ∃ k, P k ∧ w.strings.getId k = i := by
    rw [style_fold hok hm hr lod]
    obtain ⟨a1, a2⟩ := fold_keys (senv := w.strings) (Style.addDeclarations w.strings (decls w.strings rules lod e)) Style.emptyStyle (by simp [Style.emptyStyle])
    refine ⟨a1, fun i v h => ?_⟩
    rcases a2 i v h with h | ⟨d, h1, h2⟩
    · simp [Style.emptyStyle] at h
    · simp only [Style.addDeclarations, List.mem_map] at h1
      obtain ⟨d', h3, rfl⟩ := h1
      exact ⟨d'.key, decls_mentioned hm lod e h3, h2⟩
  obtain ⟨hn, hkeys⟩ := hk
  have hperm := hp (Style.forElement w.strings fc e lod.toNat).declarations
  refine ⟨(w.pairs (Style.forElement w.strings fc e lod.toNat).declarations).map fun d => (w.strings.getString d.1, d.2), by simp [Session.declarations], ?_, ?_⟩
  · have h2 : ((w.pairs (Style.forElement w.strings fc e lod.toNat).declarations).map (·.1)).Nodup := (hperm.map _).nodup_iff.2 hn
    have h3 := List.Nodup.map_on (f := w.strings.getString) (l := (w.pairs (Style.forElement w.strings fc e lod.toNat).declarations).map (·.1)) ?_ h2
    · rw [List.map_map] at h3 ⊢
      exact h3
    · have hin : ∀ i ∈ (w.pairs (Style.forElement w.strings fc e lod.toNat).declarations).map (·.1), ∃ k, P k ∧ w.strings.getId k = i := by
        intro i hi
        obtain ⟨d, hd, rfl⟩ := List.mem_map.1 hi
        exact hkeys d.1 d.2 (hperm.mem_iff.1 hd)
      intro a ha b hb h
      obtain ⟨ka, h4, rfl⟩ := hin a ha
      obtain ⟨kb, h5, rfl⟩ := hin b hb
      rw [hr.1.back _ h4, hr.1.back _ h5] at h
      rw [h]
  · intro k v
    constructor
    · intro h
      obtain ⟨d, hd, he⟩ := List.mem_map.1 h
      have hd' := hperm.mem_iff.1 hd
      obtain ⟨i, u⟩ := d
      obtain ⟨k', h1, rfl⟩ := hkeys _ _ hd'
      simp only [hr.1.back _ h1, Prod.mk.injEq] at he
      obtain ⟨rfl, rfl⟩ := he
      rw [← hst.1 _ h1]
      exact Assoc.find_of_mem _ _ _ hn hd'
    · intro h
      obtain ⟨d, hd, rfl⟩ := lastValue_mem h
      have hP := decls_mentioned hm lod e hd
      rw [← hst.1 _ hP] at h
      refine List.mem_map.2 ⟨(w.strings.getId d.key, v), hperm.mem_iff.2 (Assoc.mem_of_find _ _ _ h), ?_⟩
      rw [hr.1.back _ hP]

theorem flat_map {α : Type} (f : α → String × String) (l : List α) : flat (l.map f) = l.flatMap fun a => [(f a).1, (f a).2] := by
  induction l with
  | nil => rfl
  | cons a l ih =>
    rw [List.flatMap_cons, ← ih]
    rfl

mutual
theorem map_pair : ∀ e : El, DirectImport.toEl (DiskImport.mapCoords Session.pair e) = e
  | .node _ _ _ => rfl
  | .way _ _ cs => by simp only [DirectImport.toEl, DiskImport.mapCoords, geo_pair]
  | .area _ _ cs => by simp only [DirectImport.toEl, DiskImport.mapCoords, geo_pair]
  | .relation _ _ ms => by simp only [DirectImport.toEl, DiskImport.mapCoords, mapAll_pair ms]
theorem mapAll_pair : ∀ l : List El, DiskImport.mapAll DirectImport.geo (DiskImport.mapAll Session.pair l) = l
  | [] => rfl
  | e :: l => by
    have h1 := map_pair e
    have h2 := mapAll_pair l
    simp only [DirectImport.toEl] at h1
    simp only [DiskImport.mapAll, h1, h2]
end

theorem exports_told (w : World A L D S Q) (hp : ∀ l, (w.pairs l).Perm l) {rules : List Rule} {fc : FilterCollection} {P : Str → Prop} (hok : Style.build w.strings rules = .ok fc)
    (hm : Mentions rules P) (q : QuadKey) (es : List El) (hr : ∀ e ∈ es, Readable w.strings P e) :
    ∃ told, Session.exports w fc q es = .ok told ∧ List.Forall₂ (Tells w rules q) es told := by
  unfold Session.exports
  rw [C67_exported_partial (0, 0) _ (fun i => String.ofList (w.strings.getString i)) _ (fun e => Session.declarations w fc q.lod (DirectImport.toEl e)) _ _
    (fun _ _ _ _ => ⟨rfl, rfl⟩) (fun _ _ => rfl) _ ⟨rfl, rfl, rfl⟩]
  refine ⟨_, rfl, ?_⟩
  rw [List.map_map, List.forall₂_map_right_iff, List.forall₂_same]
  intro e he
  obtain ⟨ps, h1, h2, h3⟩ := declarations_eq w hp hok hm (hr e he) q.lod
  have hflat : ∀ cs : List (Geo ℝ), (cs.map Session.pair).flatMap (fun c => [c.2, c.1, w.elevation q (DirectImport.geo c)]) = cs.flatMap fun c => [c.lon, c.lat, w.elevation q c] := by
    intro cs
    rw [List.flatMap_map]
    rfl
  constructor
  · cases e <;> rfl
  · simp only [Function.comp]
    rw [flat_map]
    cases e <;> rfl
  · cases e <;> simp only [Function.comp, DiskImport.mapCoords, places, hflat]
    · rfl
    · rfl
  · refine ⟨ps, ?_, h2, h3⟩
    simp only [Function.comp, map_pair, h1, flat_map]

/-! ## Which elements -/

theorem perm_of_keys {α β : Type} {l l' : List (α × β)} (h : ∀ a, letI := Classical.decEq α; ((l.filter fun x => x.1 = a).map (·.2)).Perm ((l'.filter fun x => x.1 = a).map (·.2))) :
    l.Perm l' := by
  classical
  rw [List.perm_iff_count]
  rintro ⟨a, b⟩
  have key : ∀ m : List (α × β), m.count (a, b) = ((m.filter fun x => decide (x.1 = a)).map (·.2)).count b := by
    intro m
    induction m with
    | nil => rfl
    | cons x m ih =>
      obtain ⟨c, d⟩ := x
      by_cases h1 : c = a
      · subst h1
        simp only [List.filter_cons, decide_true, if_true, List.map_cons, List.count_cons, ih, beq_iff_eq, Prod.mk.injEq, true_and]
      · simp only [List.filter_cons, h1, decide_false, Bool.false_eq_true, if_false, List.count_cons, ih, beq_iff_eq, Prod.mk.injEq, false_and, Nat.add_zero]
  rw [key, key]
  have := (h a).count_eq b
  convert this

theorem outside_filter (t : List (QuadKeyBuilder.Event (Geo ℝ))) (b : Str) : ((Session.outside t).filter fun x => decide (x.1 = b)).map (·.2) =
    if b ∈ inbuilt then [] else visited b t := by
  induction t with
  | nil => simp [Session.outside, visited]
  | cons ev t ih =>
    cases ev with
    | prepare _ => simpa [Session.outside, visited] using ih
    | complete _ => simpa [Session.outside, visited] using ih
    | visit b' e =>
      have hreg : Session.registered = inbuilt := rfl
      by_cases h1 : b' ∈ inbuilt
      · have h3 : Session.outside (.visit b' e :: t) = Session.outside t := by
          simp [Session.outside, hreg, h1]
        rw [h3, ih]
        by_cases h2 : b ∈ inbuilt
        · simp [h2]
        · have hne : b' ≠ b := fun h => h2 (h ▸ h1)
          simp [h2, visited, hne]
      · have h3 : Session.outside (.visit b' e :: t) = (b', e) :: Session.outside t := by
          simp [Session.outside, hreg, h1]
        rw [h3]
        by_cases h2 : b' = b
        · subst h2
          simp only [List.filter_cons, decide_true, if_true, List.map_cons, ih, if_neg h1]
          simp [visited]
        · simp only [List.filter_cons, h2, decide_false, Bool.false_eq_true, if_false, ih]
          by_cases h4 : b ∈ inbuilt <;> simp [h4, visited, h2]

theorem other_nodup (senv : Style.Env D) (rules : List Rule) (lod : ℤ) (e : El) : (otherBuilders senv rules lod e).Nodup := by
  classical
  unfold otherBuilders
  exact (List.nodup_dedup _).filter _

theorem mem_other (senv : Style.Env D) (rules : List Rule) (lod : ℤ) (e : El) (b : Str) :
    b ∈ otherBuilders senv rules lod e ↔ b ∉ inbuilt ∧ ⟨"builder".toList, b⟩ ∈ decls senv rules lod e := by
  unfold otherBuilders
  rw [List.mem_filter, List.mem_dedup, List.mem_map]
  simp only [decide_eq_true_eq, List.mem_filter]
  constructor
  · rintro ⟨⟨d, ⟨h1, h2⟩, h3⟩, h4⟩
    refine ⟨h4, ?_⟩
    have : d = ⟨"builder".toList, b⟩ := by cases d; simp only at h2 h3; rw [h2, h3]
    rw [← this]
    exact h1
  · rintro ⟨h1, h2⟩
    exact ⟨⟨_, ⟨h2, rfl⟩, rfl⟩, h1⟩

/-- The elements with the builders which get them. -/
noncomputable def tellPairs (senv : Style.Env D) (rules : List Rule) (lod : ℤ) (l : List El) : List (Str × El) :=
  l.flatMap fun e => (otherBuilders senv rules lod e).map fun b => (b, e)

theorem tellPairs_filter (senv : Style.Env D) (rules : List Rule) (lod : ℤ) (l : List El) (b : Str) :
    ((tellPairs senv rules lod l).filter fun x => decide (x.1 = b)).map (·.2) =
      if b ∈ inbuilt then [] else l.filter fun e => letI := Classical.dec (⟨"builder".toList, b⟩ ∈ decls senv rules lod e); decide (⟨"builder".toList, b⟩ ∈ decls senv rules lod e) := by
  have one : ∀ e, (((otherBuilders senv rules lod e).map fun b => (b, e)).filter fun x => decide (x.1 = b)).map (·.2) = if b ∈ otherBuilders senv rules lod e then [e] else [] := by
    intro e
    have hn := other_nodup senv rules lod e
    generalize otherBuilders senv rules lod e = bs at hn
    induction bs with
    | nil => rfl
    | cons c bs ih =>
      rw [List.nodup_cons] at hn
      have ih := ih hn.2
      rw [List.map_cons, List.filter_cons]
      by_cases h : c = b
      · subst h
        simp only [decide_true, if_true, List.map_cons, List.mem_cons, true_or]
        rw [ih, if_neg hn.1]
      · have h' : b ≠ c := fun x => h x.symm
        simp only [h, decide_false, Bool.false_eq_true, if_false, List.mem_cons, h', false_or]
        exact ih
  induction l with
  | nil => simp [tellPairs]
  | cons e l ih =>
    have hc : tellPairs senv rules lod (e :: l) = ((otherBuilders senv rules lod e).map fun b => (b, e)) ++ tellPairs senv rules lod l := rfl
    rw [hc, List.filter_append, List.map_append, one, ih]
    by_cases h1 : b ∈ inbuilt
    · have : b ∉ otherBuilders senv rules lod e := fun h => ((mem_other senv rules lod e b).1 h).1 h1
      simp [h1, this]
    · rw [if_neg h1, if_neg h1, List.filter_cons]
      by_cases h2 : ⟨"builder".toList, b⟩ ∈ decls senv rules lod e
      · rw [if_pos ((mem_other senv rules lod e b).2 ⟨h1, h2⟩), if_pos (by simpa using h2)]
        rfl
      · rw [if_neg (fun h => h2 ((mem_other senv rules lod e b).1 h).2), if_neg (by simpa using h2)]
        rfl

theorem toTell_eq (senv : Style.Env D) (rules : List Rule) (lod : ℤ) (l : List El) : (tellPairs senv rules lod (l.flatMap parts)).map (·.2) = toTell senv rules lod l := by
  unfold tellPairs toTell
  rw [List.map_flatMap]
  simp only [List.map_map]
  rfl

theorem outside_perm {senv : Style.Env D} {rules : List Rule} {lod : ℤ} {t : List (QuadKeyBuilder.Event (Geo ℝ))} {l : List El}
    (h : ∀ b, (visited b t).Perm (buildWith senv rules lod b l)) : ((Session.outside t).map (·.2)).Perm (toTell senv rules lod l) := by
  rw [← toTell_eq]
  refine List.Perm.map _ (perm_of_keys fun b => ?_)
  have h1 := outside_filter t b
  have h2 := tellPairs_filter senv rules lod (l.flatMap parts) b
  have h3 : (if b ∈ inbuilt then [] else visited b t).Perm (if b ∈ inbuilt then [] else buildWith senv rules lod b l) := by
    split
    · exact .refl _
    · exact h b
  have h4 : (if b ∈ inbuilt then [] else buildWith senv rules lod b l) = if b ∈ inbuilt then [] else (l.flatMap parts).filter fun e =>
      letI := Classical.dec (⟨"builder".toList, b⟩ ∈ decls senv rules lod e); decide (⟨"builder".toList, b⟩ ∈ decls senv rules lod e) := by
    split
    · rfl
    · unfold buildWith
      congr 1
      funext e
      congr
  rw [← h1, h4, ← h2] at h3
  convert h3

/-- Data of a tile of stores which find these elements. -/
theorem data_found [LinearOrder K] (w : World A L D S Q) (ho : Orders w) {st : State K S} {path : List Char} {fc : FilterCollection} (hs : st.sheets.find path = some fc)
    {rules : List Rule} {P : Str → Prop} (hok : Style.build w.strings rules = .ok fc) (hm : Mentions rules P) {q : QuadKey} {found l : List El}
    (hf : (GeoStore.step w.iface st.stores (.tile q)).2 = .elements found) (hp : found.Perm l) (hr : ∀ e ∈ l.flatMap parts, Readable w.strings P e)
    (hd : DistinctIds w.strings rules q.lod l) :
    ∃ told, Session.getData w st path q = (⟨st.sheets, (GeoStore.step w.iface st.stores (.tile q)).1⟩, told, .returned []) ∧
      ∃ es, es.Perm (toTell w.strings rules q.lod l) ∧ List.Forall₂ (Tells w rules q) es told := by
  obtain ⟨t, h1, h2⟩ := LoadTileProof.load_found w.iface hf hp ho.sorted ho.order hok hm hr hd
  have hperm := outside_perm fun b => (h2 b).2
  have hread : ∀ e ∈ (Session.outside t).map (·.2), Readable w.strings P e := by
    intro e he
    have := hperm.mem_iff.1 he
    simp only [toTell, List.mem_flatMap, List.mem_map] at this
    obtain ⟨e', he', b, -, rfl⟩ := this
    exact hr e' (List.mem_flatMap.2 he')
  obtain ⟨told, h3, h4⟩ := exports_told w ho.pairs hok hm q _ hread
  refine ⟨told, ?_, _, hperm, h4⟩
  unfold Session.getData
  rw [provider_known w hs]
  simp only [h1, Outcome.bind, h3]

/-- An element is added: the sheet is known, and the tiles show what they have shown and what is to be seen of the element. -/
theorem added [LinearOrder K] (tokens : El → List UInt32) (w : World A L D (MemStore.Store El) (BitmapIndex.Terms × (El → Bool) × List QuadKey))
    (hw : w.iface = GeoStore.memIface tokens) {st : State K (MemStore.Store El)} {B : Stores K (MemStore.Store El)} (hB : Abs st.stores B) (hu : Used tokens B)
    {k : K} {s : MemStore.Store El} (hk : B k = some s) {path : List Char} {rules : List Rule} (hrules : InForce w st path rules)
    {P : Str → Prop} (hm : Mentions rules P) (hskip : P "skip".toList) (hclip : P "clip".toList) (id : UInt64) {cs : List (Geo ℝ)} (hcs : cs ≠ []) (hg : ∀ c ∈ cs, BboxSpec.OnGlobe c)
    {tags : List (String × String)} (hback : ∀ s, (P s ∨ ∃ t ∈ tags, s = t.1.toList ∨ s = t.2.toList) → w.strings.getString (w.strings.getId s) = s)
    (hsorted : TagsSorted (numbered w.strings tags)) {startLod endLod : ℤ} (hs : Supported startLod) (he : Supported endLod) :
    ∃ fc, Style.build w.strings rules = .ok fc ∧ ∃ N, ∀ n ≥ N, ∃ sheets m' s', Session.addElement { w with depth := n } st k path id (cs.flatMap fun c => [c.lat, c.lon])
        (tags.flatMap fun t => [t.1, t.2]) startLod endLod = (⟨sheets, m'⟩, .returned []) ∧ sheets.find path = some fc ∧ Abs m' (update B k s') ∧ Used tokens (update B k s') ∧
      ∀ q, ∃ old new, (GeoStore.step (GeoStore.memIface tokens) st.stores (.tile q)).2 = .elements old ∧ (GeoStore.step (GeoStore.memIface tokens) m' (.tile q)).2 = .elements new ∧
        new.Perm (old ++ (seen w.env.eng (wanted w.strings rules) (.range ⟨startLod, endLod⟩) q (described w.env.eps id (numbered w.strings tags) cs)).toList) := by
  obtain ⟨fc, hok, N, hN⟩ := provider w hrules
  obtain ⟨e, h1, h2⟩ := element_eq w.env.eps id (numbered w.strings tags) hcs
  have hread : Readable w.strings P (described w.env.eps id (numbered w.strings tags) cs) := readable hback hsorted (described_tags _ _ _ _)
  obtain ⟨e1, e2⟩ := hB.subscript hk
  obtain ⟨saved, h3, h4⟩ := ImportProof.saves_seen (LoadTile.withSheet w.env w.strings fc) (target := .range ⟨startLod, endLod⟩) ⟨by unfold Supported at hs; simp only; omega, by
    unfold Supported at he; simp only; omega⟩ (e := described w.env.eps id (numbered w.strings tags) cs) (by rw [described_points]; exact hg)
  have h3' : Session.elementSaves w fc (described w.env.eps id (numbered w.strings tags) cs) ⟨startLod, endLod⟩ = saved := by
    simp only [Import.saves, Outcome.ok.injEq] at h3
    exact h3
  obtain ⟨m', s', a1, a2, a3, a4⟩ := ImportProof.addFile_mem hB hu hk [saved]
  refine ⟨fc, hok, N, fun n hn => ?_⟩
  obtain ⟨sheets, b1, b2, -⟩ := hN n hn
  refine ⟨sheets, m', s', ?_, b2, a2, a3, fun q => ?_⟩
  · unfold Session.addElement
    rw [ApiProof.make_ok _ _ hs he, flat_eq, show (tags.flatMap fun t => [t.1, t.2]) = flat tags from rfl]
    have ht := tagLoop_eq { w with depth := n } tags
    simp only [ht, Outcome.bind, h1, h2]
    unfold Session.storeElement
    rw [b1]
    have h5 : Session.elementSaves { w with depth := n } fc (described w.env.eps id (numbered w.strings tags) cs) ⟨startLod, endLod⟩ = saved := h3'
    simp only [h5]
    rw [show ({ w with depth := n } : World A L D _ _).iface = GeoStore.memIface tokens from hw, add_eq e1 e2, a1]
    rfl
  · obtain ⟨old, new, c1, c2, c3⟩ := a4 q
    refine ⟨old, new, c1, c2, c3.trans (List.Perm.of_eq ?_)⟩
    congr 1
    rw [List.flatten_cons, List.flatten_nil, List.append_nil, h4 q]
    congr 1
    exact LoadTileProof.seen_congr (LoadTileProof.storing_eq hok hm hskip hclip hread q.lod)

end SessionProof
open SessionProof
open Verif.BboxSpec (OnGlobe)

/-- C106 (partial): an element is added through the API under a stylesheet which is in force: the call returns without error, and from then on, whatever becomes of the file of the
stylesheet, the caller is told for a tile exactly the elements which were there and this one, if it is to be seen there and a builder is named which is not one of the library: with id, texts of tags,
places with heights, and the declarations which apply. Missing: tags which are not in the order of the string table (`C106_violated_order`), ids which are there twice
(`C26_violated_same_id`). -/
theorem C106_told_partial [LinearOrder K] (tokens : El → List UInt32) (w : World A L D (MemStore.Store El) (BitmapIndex.Terms × (El → Bool) × List QuadKey))
    (hw : w.iface = GeoStore.memIface tokens) (ho : Orders w) {st : State K (MemStore.Store El)} {B : Stores K (MemStore.Store El)} (hB : Abs st.stores B) (hu : Used tokens B)
    {k : K} {s : MemStore.Store El} (hk : B k = some s) {path : List Char} {rules : List Rule} (hrules : InForce w st path rules)
    {P : Str → Prop} (hm : Mentions rules P) (hskip : P "skip".toList) (hclip : P "clip".toList) (id : UInt64) {cs : List (Geo ℝ)} (hcs : cs ≠ []) (hg : ∀ c ∈ cs, OnGlobe c)
    {tags : List (String × String)} (hback : ∀ s, (P s ∨ ∃ t ∈ tags, s = t.1.toList ∨ s = t.2.toList) → w.strings.getString (w.strings.getId s) = s)
    (hsorted : TagsSorted (numbered w.strings tags)) {startLod endLod : ℤ} (hs : Supported startLod) (he : Supported endLod) :
    ∃ N, ∀ n ≥ N, ∃ st' s', Session.addElement { w with depth := n } st k path id (cs.flatMap fun c => [c.lat, c.lon]) (tags.flatMap fun t => [t.1, t.2]) startLod endLod =
        (st', .returned []) ∧ Abs st'.stores (update B k s') ∧ Used tokens (update B k s') ∧
      ∀ q, ∃ old, (GeoStore.step w.iface st.stores (.tile q)).2 = .elements old ∧
        ∀ l, l = old ++ (seen w.env.eng (wanted w.strings rules) (.range ⟨startLod, endLod⟩) q (described w.env.eps id (numbered w.strings tags) cs)).toList →
          (∀ e ∈ l.flatMap parts, Readable w.strings P e) → DistinctIds w.strings rules q.lod l →
          ∀ files depth, ∃ st'' told, Session.getData { w with files := files, depth := depth } st' path q = (st'', told, .returned []) ∧
            ∃ es, es.Perm (toTell w.strings rules q.lod l) ∧ List.Forall₂ (Tells w rules q) es told := by
  obtain ⟨fc, hok, N, hN⟩ := added tokens w hw hB hu hk hrules hm hskip hclip id hcs hg hback hsorted hs he
  refine ⟨N, fun n hn => ?_⟩
  obtain ⟨sheets, m', s', h1, b2, a2, a3, a4⟩ := hN n hn
  refine ⟨⟨sheets, m'⟩, s', h1, a2, a3, fun q => ?_⟩
  obtain ⟨old, new, c1, c2, c3⟩ := a4 q
  refine ⟨old, by rw [hw]; exact c1, fun l hl hreadl hdis files depth => ?_⟩
  obtain ⟨told, d1, d2⟩ := data_found { w with files := files, depth := depth } ⟨ho.sorted, ho.order, ho.pairs⟩ (st := ⟨sheets, m'⟩) (q := q) (found := new) (l := l) b2 hok hm
    (by simp only [hw]; exact c2) (by rw [hl]; exact c3) hreadl hdis
  obtain ⟨es, d3, d4⟩ := d2
  exact ⟨_, told, d1, es, d3, d4.imp fun a b hab => ⟨hab.id, hab.tags, hab.vertices, hab.style⟩⟩

namespace SessionProof

theorem described_parts (eps : ℝ) (id : UInt64) (tags : List Tag) (cs : List (Geo ℝ)) : parts (described eps id tags cs) = [described eps id tags cs] ∧
    clippedIds [described eps id tags cs] = [] := by
  unfold described
  split
  · exact ⟨rfl, rfl⟩
  · split <;> exact ⟨rfl, rfl⟩
  · exact ⟨rfl, rfl⟩

end SessionProof

/-- C106 for a tile in which nothing was before: the element comes back as it was given, id, tags and places. -/
theorem C106_returned_partial {K A L D : Type} [LinearOrder K] (tokens : El → List UInt32) (w : World A L D (MemStore.Store El) (BitmapIndex.Terms × (El → Bool) × List QuadKey))
    (hw : w.iface = GeoStore.memIface tokens) (ho : Orders w) {st : State K (MemStore.Store El)} {B : Stores K (MemStore.Store El)} (hB : Abs st.stores B) (hu : Used tokens B)
    {k : K} {s : MemStore.Store El} (hk : B k = some s) {path : List Char} {rules : List Rule} (hrules : InForce w st path rules)
    {P : Str → Prop} (hm : Mentions rules P) (hskip : P "skip".toList) (hclip : P "clip".toList) (id : UInt64) {cs : List (Geo ℝ)} (hcs : cs ≠ []) (hg : ∀ c ∈ cs, OnGlobe c)
    {tags : List (String × String)} (hback : ∀ s, (P s ∨ ∃ t ∈ tags, s = t.1.toList ∨ s = t.2.toList) → w.strings.getString (w.strings.getId s) = s)
    (hsorted : TagsSorted (numbered w.strings tags)) {startLod endLod : ℤ} (hs : Supported startLod) (he : Supported endLod)
    {q : QuadKey} (hold : (GeoStore.step w.iface st.stores (.tile q)).2 = .elements [])
    (hseen : seen w.env.eng (wanted w.strings rules) (.range ⟨startLod, endLod⟩) q (described w.env.eps id (numbered w.strings tags) cs) =
      some (described w.env.eps id (numbered w.strings tags) cs))
    {b : Str} (hb : otherBuilders w.strings rules q.lod (described w.env.eps id (numbered w.strings tags) cs) = [b]) :
    ∃ N, ∀ n ≥ N, ∃ st', Session.addElement { w with depth := n } st k path id (cs.flatMap fun c => [c.lat, c.lon]) (tags.flatMap fun t => [t.1, t.2]) startLod endLod =
        (st', .returned []) ∧
      ∀ files depth, ∃ st'' r, Session.getData { w with files := files, depth := depth } st' path q = (st'', [r], .returned []) ∧
        r.id = id ∧ r.tags = (tags.flatMap fun t => [t.1, t.2]) ∧ r.vertices = cs.flatMap fun c => [c.lon, c.lat, w.elevation q c] := by
  obtain ⟨N, hN⟩ := C106_told_partial tokens w hw ho hB hu hk hrules hm hskip hclip id hcs hg hback hsorted hs he
  refine ⟨N, fun n hn => ?_⟩
  obtain ⟨st', s', h1, -, -, h2⟩ := hN n hn
  refine ⟨st', h1, fun files depth => ?_⟩
  obtain ⟨old, h3, h4⟩ := h2 q
  rw [hold] at h3
  cases h3
  have hp := described_parts w.env.eps id (numbered w.strings tags) cs
  have hfm : [described w.env.eps id (numbered w.strings tags) cs].flatMap parts = [described w.env.eps id (numbered w.strings tags) cs] := by
    rw [List.flatMap_cons, hp.1]
    rfl
  obtain ⟨st'', told, h5, es, h6, h7⟩ := h4 [described w.env.eps id (numbered w.strings tags) cs] (by rw [hseen]; rfl) (by
      rw [hfm]
      intro e he
      rw [List.mem_singleton.1 he]
      exact readable hback hsorted (described_tags _ _ _ _)) ⟨by rw [hfm]; exact List.pairwise_singleton _ _, by
      intro e _ _ _
      rw [hp.2]
      exact List.not_mem_nil⟩ files depth
  have ht : toTell w.strings rules q.lod [described w.env.eps id (numbered w.strings tags) cs] = [described w.env.eps id (numbered w.strings tags) cs] := by
    unfold toTell
    rw [hfm, List.flatMap_cons, hb]
    rfl
  rw [ht] at h6
  rw [List.perm_singleton.1 h6] at h7
  cases h7 with
  | cons hr hl =>
    cases hl
    refine ⟨st'', _, h5, ?_, ?_, ?_⟩
    · rw [hr.id, described_id]
    · rw [hr.tags, described_tags]
      unfold numbered
      rw [List.flatMap_map]
      refine List.flatMap_congr fun t ht => ?_
      simp only
      rw [hback _ (.inr ⟨t, ht, .inl rfl⟩), hback _ (.inr ⟨t, ht, .inr rfl⟩), String.ofList_toList, String.ofList_toList]
    · rw [hr.vertices, described_places]

/-! ## C107 -/

namespace SessionProof
variable {A L D K S Q : Type}

theorem provider_kept (w : World A L D S Q) {sheets : Assoc (List Char) FilterCollection} {path : List Char} {fc : FilterCollection} (h : sheets.find path = some fc) (p : List Char) :
    (Session.getStyleProvider w sheets p).1.find path = some fc := by
  unfold Session.getStyleProvider
  cases hp : sheets.find p with
  | some fc' => exact h
  | none =>
    simp only
    cases w.files p with
    | none => exact h
    | some text =>
      simp only
      cases LoadTile.openSheet (w.tools (Session.directory p)) w.strings w.depth text with
      | ok fc' =>
        simp only
        rw [Assoc.find_set, if_neg]
        · exact h
        · intro hx
          rw [hx, hp] at h
          cases h
      | throw e => exact h
      | ub e => exact h

theorem store_sheets [LinearOrder K] (w : World A L D S Q) (st : State K S) (key : K) (style : List Char) (e : El) (range : LodRange) :
    (Session.storeElement w st key style e range).1.sheets = (Session.getStyleProvider w st.sheets style).1 := by
  unfold Session.storeElement
  rcases Session.getStyleProvider w st.sheets style with ⟨sheets, o⟩
  cases o <;> rfl

theorem add_sheets [LinearOrder K] (w : World A L D S Q) (st : State K S) (key : K) (style : List Char) (id : UInt64) (vertices : List ℝ) (tags : List String) (s e : ℤ) :
    (Session.addElement w st key style id vertices tags s e).1.sheets = st.sheets ∨
      (Session.addElement w st key style id vertices tags s e).1.sheets = (Session.getStyleProvider w st.sheets style).1 := by
  unfold Session.addElement
  cases LodRange.make s e with
  | throw _ => exact .inl rfl
  | ub _ => exact .inl rfl
  | ok range =>
    simp only
    cases (Api.tagLoop (Session.getId w) tags).bind fun ts => Api.elementOf (Session.same w.env.eps) id vertices ts with
    | throw _ => exact .inl rfl
    | ub _ => exact .inl rfl
    | ok e => exact .inr (store_sheets _ _ _ _ _ _)

theorem step_kept [LinearOrder K] (w : World A L D S Q) {st : State K S} {path : List Char} {fc : FilterCollection} (h : st.sheets.find path = some fc) (c : Session.Call K) :
    (Session.step w st c).1.sheets.find path = some fc := by
  cases c with
  | registerStylesheet p =>
    have := provider_kept w h p
    simp only [Session.step]
    rcases hx : Session.getStyleProvider w st.sheets p with ⟨sheets, o⟩
    rw [hx] at this
    cases o <;> exact this
  | registerInMemoryStore key => exact h
  | addElement key style id vertices tags s e =>
    simp only [Session.step]
    rcases add_sheets w st key style id vertices tags s e with h' | h' <;> rw [h']
    · exact h
    · exact provider_kept w h style
  | addXml key style p target =>
    have := provider_kept w h style
    simp only [Session.step, Session.addXml]
    rcases hx : Session.getStyleProvider w st.sheets style with ⟨sheets, o⟩
    rw [hx] at this
    cases o <;> exact this
  | getData style q =>
    have := provider_kept w h style
    simp only [Session.step, Session.getData]
    rcases hx : Session.getStyleProvider w st.sheets style with ⟨sheets, o⟩
    rw [hx] at this
    cases o with
    | throw _ => exact this
    | ub _ => exact this
    | ok fc' =>
      simp only
      cases (LoadTile.loadTile w.iface w.strings fc' w.sorted w.order st.stores q).bind fun t => Session.exports w fc' q ((Session.outside t).map (·.2)) <;> exact this

theorem run_kept [LinearOrder K] {st : State K S} {path : List Char} {fc : FilterCollection} (h : st.sheets.find path = some fc) (calls : List (World A L D S Q × Session.Call K)) :
    (Session.run st calls).sheets.find path = some fc := by
  induction calls generalizing st with
  | nil => exact h
  | cons x calls ih => exact ih (step_kept x.1 h x.2)

/-- A call which names a stylesheet and whose result is not that of a failure has read it. -/
theorem step_reads [LinearOrder K] (w : World A L D S Q) {st : State K S} {path : List Char} {fc : FilterCollection} {sheets : Assoc (List Char) FilterCollection}
    (h : Session.getStyleProvider w st.sheets path = (sheets, .ok fc)) {c : Session.Call K} (hc : Names path c) (ho : Orderly c) : (Session.step w st c).1.sheets = sheets := by
  cases c with
  | registerStylesheet p =>
    cases hc
    simp only [Session.step, h]
  | registerInMemoryStore key => exact hc.elim
  | addElement key style id vertices tags s e =>
    cases hc
    obtain ⟨h1, h2, ⟨cs, h3, rfl⟩, ts, rfl⟩ := ho
    obtain ⟨e', a1, a2⟩ := element_eq w.env.eps id (numbered w.strings ts) h3
    have ht := tagLoop_eq w ts
    simp only [Session.step, Session.addElement]
    rw [ApiProof.make_ok _ _ h1 h2, flat_eq, show (ts.flatMap fun t => [t.1, t.2]) = flat ts from rfl]
    simp only [ht, Outcome.bind, a1]
    rw [store_sheets, h]
  | addXml key style p target =>
    cases hc
    simp only [Session.step, Session.addXml, h]
  | getData style q =>
    cases hc
    simp only [Session.step, Session.getData, h]
    cases (LoadTile.loadTile w.iface w.strings fc w.sorted w.order st.stores q).bind fun t => Session.exports w fc q ((Session.outside t).map (·.2)) <;> rfl

theorem step_fails [LinearOrder K] (w : World A L D S Q) {st : State K S} {path : List Char} {e : String}
    (h : Session.getStyleProvider w st.sheets path = (st.sheets, .throw e)) {c : Session.Call K} (hc : Names path c) (ho : Orderly c) : Session.step w st c = (st, [], failed e c) := by
  cases c with
  | registerStylesheet p =>
    cases hc
    simp only [Session.step, h, failed]
  | registerInMemoryStore key => exact hc.elim
  | addElement key style id vertices tags s e' =>
    cases hc
    obtain ⟨h1, h2, ⟨cs, h3, rfl⟩, ts, rfl⟩ := ho
    obtain ⟨e', a1, a2⟩ := element_eq w.env.eps id (numbered w.strings ts) h3
    have ht := tagLoop_eq w ts
    simp only [Session.step, Session.addElement]
    rw [ApiProof.make_ok _ _ h1 h2, flat_eq, show (ts.flatMap fun t => [t.1, t.2]) = flat ts from rfl]
    simp only [ht, Outcome.bind, a1, Session.storeElement, h, failed]
  | addXml key style p target =>
    cases hc
    simp only [Session.step, Session.addXml, h, failed]
  | getData style q =>
    cases hc
    simp only [Session.step, Session.getData, h, failed]

theorem provider_files (w : World A L D S Q) {sheets : Assoc (List Char) FilterCollection} {path : List Char} {fc : FilterCollection} (h : sheets.find path = some fc)
    {files : List Char → Option (List Char)} (hf : ∀ p, p ≠ path → files p = w.files p) (p : List Char) :
    Session.getStyleProvider { w with files := files } sheets p = Session.getStyleProvider w sheets p := by
  unfold Session.getStyleProvider
  cases hp : sheets.find p with
  | some _ => rfl
  | none =>
    have : p ≠ path := by
      intro hx
      rw [hx, h] at hp
      cases hp
    simp only [hf p this]

end SessionProof

/-- C107: the first call which names a stylesheet reads it: the rules which the file has then are those which are in force after any further calls, whatever
becomes of the file. -/
theorem C107_read_once_partial {K A L D S Q : Type} [LinearOrder K] (w : World A L D S Q) {st : State K S} {path : List Char} (hn : st.sheets.find path = none) {rules : List Rule}
    (hr : Written w path rules) {c : Session.Call K} (hc : Names path c) (ho : Orderly c) :
    ∃ N, ∀ n ≥ N, ∀ calls : List (World A L D S Q × Session.Call K), ∀ w' : World A L D S Q, w'.strings = w.strings →
      InForce w' (Session.run st (({ w with depth := n }, c) :: calls)) path rules := by
  obtain ⟨fc, h1, N, h2⟩ := provider_written w hn hr
  refine ⟨N, fun n hn' calls w' hw' => .inl ⟨fc, ?_, by rw [hw']; exact h1⟩⟩
  refine run_kept ?_ calls
  rw [step_reads _ (h2 n hn') hc ho, Assoc.find_set, if_pos rfl]

/-- C107: once a stylesheet is known, a call has the same effect, tells the same and has the same result whatever is in its file. -/
theorem C107_file_ignored {K A L D S Q : Type} [LinearOrder K] (w : World A L D S Q) {st : State K S} {path : List Char} {fc : FilterCollection}
    (h : st.sheets.find path = some fc) {files : List Char → Option (List Char)} (hf : ∀ p, p ≠ path → files p = w.files p) {c : Session.Call K} (hc : NoData path c) :
    Session.step { w with files := files } st c = Session.step w st c := by
  have hp := provider_files w h hf
  cases c with
  | registerStylesheet p => simp only [Session.step, hp]
  | registerInMemoryStore key => rfl
  | addElement key style id vertices tags s e =>
    simp only [Session.step, Session.addElement, Session.storeElement, hp]
    rfl
  | addXml key style p target =>
    simp only [Session.step, Session.addXml, hp, hf p hc]
  | getData style q =>
    simp only [Session.step, Session.getData, hp]
    rfl

/-- C107: a stylesheet which cannot be read, or whose rules are refused, changes nothing: every later call does what it would have done without the failed one, so that
the file may be corrected. The error is told. -/
theorem C107_failed {K A L D S Q : Type} [LinearOrder K] (w : World A L D S Q) {st : State K S} {path : List Char} (hn : st.sheets.find path = none)
    {c : Session.Call K} (hc : Names path c) (ho : Orderly c) :
    (w.files path = none → Session.step w st c = (st, [], failed "invalid_argument" c)) ∧
    ∀ e, Refused w path e → ∃ N, ∀ n ≥ N, Session.step { w with depth := n } st c = (st, [], failed e c) := by
  constructor
  · intro h
    refine step_fails w ?_ hc ho
    unfold Session.getStyleProvider
    rw [hn, h]
  · rintro e ⟨dir, text, g, entries, hd, h1, h2, h3, h4⟩
    obtain ⟨N, hN⟩ := C60_parse_partial (w.tools dir) text g entries h2 h3
    refine ⟨N, fun n hn' => step_fails _ ?_ hc ho⟩
    obtain ⟨sheet, a1, a2⟩ := hN n hn'
    have ho : LoadTile.openSheet (w.tools dir) w.strings n text = .throw e := by
      rw [LoadTile.openSheet, a1]
      simp only [Outcome.bind]
      rw [a2.1, LoadTileProof.toRule_rulesOf, h4]
    unfold Session.getStyleProvider
    simp only [hn, h1, directory_eq hd, ho]

/-! ## Examples and violations -/

namespace SessionProof.Sample
open LoadTileProof.Sample

/-- A registered store under the key 5. -/
def stores (tokens : El → List UInt32) : GeoStore.Map Nat (MemStore.Store El) := (GeoStore.step (GeoStore.memIface tokens) GeoStore.init (.register 5 MemStore.init)).1

def spec : Stores Nat (MemStore.Store El) := fun k => if k = 5 then some MemStore.init else none

theorem stores_abs (tokens : El → List UInt32) : Abs (stores tokens) spec := by
  refine ⟨by simp [stores, GeoStore.step, GeoStore.init, GeoStore.emplace], ?_⟩
  intro k p
  simp only [stores, GeoStore.step, GeoStore.init, GeoStore.emplace, List.mem_singleton, Prod.mk.injEq, spec]
  constructor
  · rintro ⟨rfl, rfl⟩; exact ⟨_, rfl, by simp⟩
  · rintro ⟨s, rfl, h⟩
    split at h
    · exact ⟨by assumption, by rw [h]⟩
    · cases h

theorem used (tokens : El → List UInt32) : Used tokens spec := by
  intro k s h
  simp only [spec] at h
  split at h
  · exact ⟨[], (Option.some.inj h).symm⟩
  · cases h

def path : List Char := ['d', '/', 's']

/-- A world with one file, the stylesheet `node|z1-16[a=b]{builder:c;}`. -/
def world (tokens : El → List UInt32) (env : Import.Env) (elevation : QuadKey → Geo ℝ → ℝ) : World Unit Unit Nat (MemStore.Store El) (BitmapIndex.Terms × (El → Bool) × List QuadKey) :=
  ⟨fun p => if p = path then some css else none, fun _ => MapCssExample.tools, 0, strings, env, GeoStore.memIface tokens, MemStore.init, id, id, id, elevation⟩

theorem written (tokens : El → List UInt32) (env : Import.Env) (elevation : QuadKey → Geo ℝ → ℝ) :
    Written (world tokens env elevation) path (rulesOf (A := Unit) (L := Unit) [.rule rule]) :=
  ⟨['d', '/'], css, [], [.rule rule], ⟨['s'], rfl, by decide, by decide, by decide⟩, by simp [world], reads, .nil, rfl, accepted⟩

theorem node_described (eps : ℝ) : described eps 1 (numbered strings [("a", "b")]) [⟨0, 0⟩] = node := by
  have : numbered strings [("a", "b")] = [⟨0, 1⟩] := by decide
  rw [this]
  rfl

theorem node_wanted : wanted strings (rulesOf (A := Unit) (L := Unit) [.rule rule]) node 1 = ⟨false, false, false⟩ := by
  unfold wanted
  rw [node_decls]
  decide

theorem node_other : otherBuilders strings (rulesOf (A := Unit) (L := Unit) [.rule rule]) 1 node = [['c']] := by
  unfold otherBuilders
  rw [node_decls]
  decide

/-- The node with the tag `a=b` at (0, 0) is added, then the first tile where it is, is asked for: it is told. The file of the stylesheet may change in between. -/
theorem told (tokens : El → List UInt32) (env : Import.Env) (elevation : QuadKey → Geo ℝ → ℝ) :
    ∃ n, ∃ st', Session.addElement { world tokens env elevation with depth := n } ⟨[], stores tokens⟩ 5 path 1 [0, 0] ["a", "b"] 1 1 = (st', .returned []) ∧
      ∀ files depth, ∃ st'' r, Session.getData { world tokens env elevation with files := files, depth := depth } st' path ⟨1, 1, 1⟩ = (st'', [r], .returned []) ∧
        r.id = 1 ∧ r.tags = ["a", "b"] ∧ r.vertices = [0, 0, elevation ⟨1, 1, 1⟩ ⟨0, 0⟩] := by
  obtain ⟨N, hN⟩ := C106_returned_partial tokens (world tokens env elevation) rfl ⟨fun _ => .refl _, fun _ => .refl _, fun _ => .refl _⟩ (st := ⟨[], stores tokens⟩) (stores_abs tokens)
    (used tokens) (k := 5) (s := MemStore.init) rfl (path := path) (.inr ⟨rfl, written tokens env elevation⟩) mentions (by decide) (by decide) 1 (cs := [⟨0, 0⟩]) (by simp) (by
      intro c hc
      rw [List.mem_singleton.1 hc]
      norm_num [BboxSpec.OnGlobe]) (tags := [("a", "b")]) (by
      rintro s (hs | ⟨t, ht, hs⟩)
      · exact back s hs
      · rw [List.mem_singleton.1 ht] at hs
        rcases hs with rfl | rfl
        · exact back _ (by decide)
        · exact back _ (by decide)) (by
      show TagsSorted (numbered strings [("a", "b")])
      exact List.pairwise_singleton _ _) (startLod := 1) (endLod := 1) (by unfold Supported; decide) (by unfold Supported; decide) (q := ⟨1, 1, 1⟩) rfl (by
      show seen env.eng (wanted strings _) _ _ (described env.eps 1 (numbered strings [("a", "b")]) [⟨0, 0⟩]) = some (described env.eps 1 (numbered strings [("a", "b")]) [⟨0, 0⟩])
      rw [node_described]
      exact node_seen env.eng node_wanted) (b := ['c']) (by
      show otherBuilders strings _ 1 (described env.eps 1 (numbered strings [("a", "b")]) [⟨0, 0⟩]) = [['c']]
      rw [node_described]
      exact node_other)
  obtain ⟨st', h1, h2⟩ := hN N le_rfl
  exact ⟨N, st', h1, h2⟩

end SessionProof.Sample
open SessionProof.Sample

/-- C107: what is told is not what the file says: the stylesheet is made empty after an element was added. Nothing is to be told then, but the element is told with the declaration
which is not in the file any more. -/
theorem C107_stale (tokens : El → List UInt32) (env : Import.Env) (elevation : QuadKey → Geo ℝ → ℝ) :
    ∃ (w w' : World Unit Unit Nat (MemStore.Store El) (BitmapIndex.Terms × (El → Bool) × List QuadKey)) (st : State Nat (MemStore.Store El)) (path : List Char) (q : QuadKey),
      w' = { w with files := w'.files } ∧ Written w path (rulesOf (A := Unit) (L := Unit) [.rule LoadTileProof.Sample.rule]) ∧
      st = Session.run ⟨[], stores tokens⟩ [(w, .addElement 5 path 1 [0, 0] ["a", "b"] 1 1)] ∧ Written w' path [] ∧
      (∀ found, toTell w'.strings [] q.lod found = []) ∧ ∃ st' r, Session.getData w' st path q = (st', [r], .returned []) := by
  obtain ⟨n, st', h1, h2⟩ := told tokens env elevation
  obtain ⟨st'', r, h3, -⟩ := h2 (fun _ => some []) n
  refine ⟨{ world tokens env elevation with depth := n }, { world tokens env elevation with files := fun _ => some [], depth := n }, st', path, ⟨1, 1, 1⟩, rfl,
    written tokens env elevation, ?_, ?_, ?_, st'', r, h3⟩
  · simp only [Session.run, Session.step, h1]
  · exact ⟨['d', '/'], [], [], [], ⟨['s'], rfl, by decide, by decide, by decide⟩, rfl, .done _, .nil, rfl, rfl⟩
  · intro found
    have : ∀ e : El, otherBuilders LoadTileProof.Sample.strings [] 1 e = [] := by
      intro e
      rfl
    unfold toTell
    simp only [world, this, List.map_nil, List.flatMap_eq_nil_iff, implies_true]

namespace SessionProof.Sample
open LoadTileProof.Sample

/-- A string table in which `x` has a lower number than `a`. -/
def table' : List Str := [['x'], ['a'], ['b'], "builder".toList, "skip".toList, "clip".toList]

def strings' : Style.Env Nat := ⟨fun s => UInt32.ofNat (table'.idxOf s), fun i => table'.getD i.toNat [], fun s => s.length, fun a b => decide (a < b), fun _ => none⟩

def node' : El := .node 1 [⟨1, 2⟩, ⟨0, 2⟩] ⟨0, 0⟩

theorem node'_described (eps : ℝ) : described eps 1 (numbered strings' [("a", "b"), ("x", "b")]) [⟨0, 0⟩] = node' := by
  have : numbered strings' [("a", "b"), ("x", "b")] = [⟨1, 2⟩, ⟨0, 2⟩] := by decide
  rw [this]
  rfl

theorem node'_decls : decls strings' (rulesOf (A := Unit) (L := Unit) [.rule rule]) 1 node' = [⟨"builder".toList, ['c']⟩] := by
  have h : idRules strings' (1 : ℤ).toNat node'.id (rulesOf (A := Unit) (L := Unit) [.rule rule]) = [] := by decide
  have ha : Applies strings' (1 : ℤ).toNat node'.tags ⟨[['n', 'o', 'd', 'e']], ⟨1, 16⟩, [⟨['a'], ['='], ['b']⟩]⟩ := by
    refine ⟨by unfold InZoom; decide, fun c hc => ?_⟩
    rw [List.mem_singleton.1 hc]
    exact ⟨⟨1, 2⟩, by simp [node', Element.tags], by decide, .inr (.inl ⟨rfl, by decide⟩)⟩
  have hk : kindName (Style.kindOfElement node') = ['n', 'o', 'd', 'e'] := rfl
  unfold decls
  rw [h]
  simp only [declared, applied, rulesOf, rule, MapCssSpec.Entry.rule?, List.filterMap_cons, List.filterMap_nil, List.map_cons, List.map_nil, List.flatMap_cons, List.flatMap_nil,
    List.append_nil]
  rw [if_pos ⟨hk.symm, ha⟩]
  rfl

theorem node'_wanted : wanted strings' (rulesOf (A := Unit) (L := Unit) [.rule rule]) node' 1 = ⟨false, false, false⟩ := by
  unfold wanted
  rw [node'_decls]
  decide

theorem node'_seen (eng : Clipper.Engine) {style : El → ℤ → ElementStore.StyleInfo} (h : style node' 1 = ⟨false, false, false⟩) :
    seen eng style (.range ⟨1, 1⟩) ⟨1, 1, 1⟩ node' = some node' := by
  have h0 := node_seen eng (style := fun _ _ => ⟨false, false, false⟩) rfl
  unfold seen at h0 ⊢
  by_cases hc : Wanted (.range ⟨1, 1⟩) node ⟨1, 1, 1⟩ ∧ ElementStoreSpec.Styled ⟨false, false, false⟩ ∧ ElementStoreSpec.Meets node ⟨1, 1, 1⟩
  · rw [if_pos]
    · simp [h]
    · rw [h]
      exact hc
  · rw [if_neg hc] at h0
    cases h0

theorem node'_storing {fc : FilterCollection} (h : Style.build strings' (rulesOf (A := Unit) (L := Unit) [.rule rule]) = .ok fc) :
    (LoadTile.storing strings' fc node' 1).empty = true := by
  have h' : Style.build strings' (rulesOf (A := Unit) (L := Unit) [.rule rule]) = .ok fc := h
  have hb : ∃ fc', Style.build strings' (rulesOf (A := Unit) (L := Unit) [.rule rule]) = .ok fc' ∧ (LoadTile.storing strings' fc' node' 1).empty = true := ⟨_, rfl, by decide +kernel⟩
  obtain ⟨fc', h1, h2⟩ := hb
  rw [h1] at h'
  cases h'
  exact h2

end SessionProof.Sample

/-- C106 is violated for tags in another order than that of the string table, which callers do not know: the rule `[a=b]` is for the node, which is to be seen in the tile, but the call
leaves the stores as they are, without an error. -/
theorem C106_violated_order (tokens : El → List UInt32) (w : World Unit Unit Nat (MemStore.Store El) (BitmapIndex.Terms × (El → Bool) × List QuadKey)) (hw : w.iface = GeoStore.memIface tokens)
    (hs : w.strings = strings') {fc : FilterCollection} (hfc : Style.build strings' (rulesOf (A := Unit) (L := Unit) [.rule LoadTileProof.Sample.rule]) = .ok fc) :
    seen w.env.eng (wanted w.strings (rulesOf (A := Unit) (L := Unit) [.rule LoadTileProof.Sample.rule])) (.range ⟨1, 1⟩) ⟨1, 1, 1⟩
        (described w.env.eps 1 (numbered w.strings [("a", "b"), ("x", "b")]) [⟨0, 0⟩]) = some (described w.env.eps 1 (numbered w.strings [("a", "b"), ("x", "b")]) [⟨0, 0⟩]) ∧
      Session.addElement w ⟨[(path, fc)], stores tokens⟩ 5 path 1 [0, 0] ["a", "b", "x", "b"] 1 1 = (⟨[(path, fc)], stores tokens⟩, .returned []) := by
  rw [hs, node'_described]
  refine ⟨node'_seen _ node'_wanted, ?_⟩
  obtain ⟨e, h1, h2⟩ := element_eq w.env.eps 1 (numbered w.strings [("a", "b"), ("x", "b")]) (cs := [⟨0, 0⟩]) (by simp)
  have ht := tagLoop_eq w [("a", "b"), ("x", "b")]
  rw [show flat [("a", "b"), ("x", "b")] = ["a", "b", "x", "b"] from rfl] at ht
  rw [show flat (([⟨0, 0⟩] : List (Geo ℝ)).map Session.pair) = [0, 0] from rfl] at h1
  rw [hs, node'_described] at h2
  have hn : Session.elementSaves w fc node' ⟨1, 1⟩ = [] := by
    unfold Session.elementSaves ElementStore.storeRange ElementStore.store
    rw [show (⟨1, 1⟩ : LodRange).lods = [1] from by decide, List.foldl_cons, List.foldl_nil, hs]
    unfold ElementStore.storeLod
    simp only [node'_storing hfc, Bool.true_or, if_true]
  unfold Session.addElement
  rw [ApiProof.make_ok _ _ (by unfold Supported; decide) (by unfold Supported; decide)]
  simp only [ht, Outcome.bind, h1, h2]
  unfold Session.storeElement
  rw [provider_known w (by rfl : Assoc.find [(path, fc)] path = some fc)]
  simp only [hn, hw]
  rfl

/-- The stylesheet of `C106_violated_order` is accepted. -/
example : (Style.build strings' (rulesOf (A := Unit) (L := Unit) [.rule LoadTileProof.Sample.rule])).isOk = true := rfl

/-- `C107_read_once_partial` and `C107_failed` for a stylesheet which is missing first and written later. -/
example (tokens : El → List UInt32) (env : Import.Env) (elevation : QuadKey → Geo ℝ → ℝ) :
    Session.step { world tokens env elevation with files := fun _ => none } ⟨[], stores tokens⟩ (.getData path ⟨1, 1, 1⟩) =
      (⟨[], stores tokens⟩, [], .returned ["invalid_argument"]) ∧
    ∃ n, InForce (world tokens env elevation) (Session.run ⟨[], stores tokens⟩ [({ world tokens env elevation with files := fun _ => none }, .getData path ⟨1, 1, 1⟩),
      ({ world tokens env elevation with depth := n }, .registerStylesheet path)]) path (rulesOf (A := Unit) (L := Unit) [.rule LoadTileProof.Sample.rule]) := by
  have h1 := (C107_failed { world tokens env elevation with files := fun _ => none } (st := ⟨[], stores tokens⟩) (path := path) rfl (c := .getData path ⟨1, 1, 1⟩) rfl trivial).1 rfl
  refine ⟨h1, ?_⟩
  obtain ⟨N, hN⟩ := C107_read_once_partial (world tokens env elevation) (st := ⟨[], stores tokens⟩) (path := path) rfl (written tokens env elevation) (c := .registerStylesheet path) rfl trivial
  refine ⟨N, ?_⟩
  have := hN N le_rfl [] (world tokens env elevation) rfl
  simp only [Session.run] at this ⊢
  rw [h1]
  exact this

end Verif.Props
