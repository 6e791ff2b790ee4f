import Verif.Props.FindTextSpec
import Verif.Props.ImportRelations

/-! # C102: text search over all stores, and after imports -/
namespace Verif.Props
open Verif.FindText Verif.FindTextSpec
open Verif.Clipper (El expandElement)
open Verif.BitmapIndex (Strings elementTokens parseTerms)
open Verif.BboxSpec Verif.MercatorSpec Verif.TilesSpec Verif.ElementStoreSpec
open Verif.Props.StoreSpec (IsWord HasWord TextQuery holds history)
open Verif.GeoStore (memIface)
open Verif.GeoStoreSpec (Stores update)
open Verif.Props.GeoStoreProof (Abs)
open Verif.ImportSpec (Used seen)
open Verif.Import (Env Target importXml)
open Verif.OsmXmlSpec (Doc Head PrintsBody)
open Verif.ImportRelationsSpec (Describes)

namespace FindTextProof
variable {K : Type} [LinearOrder K]

theorem tiles_in {b : Bbox ℝ} {r : LodRange} (h : FindTextSpec.Sensible b r) : TilesIn b r (tilesOf b r) := by
  obtain ⟨hb, h0, h1⟩ := h
  constructor
  · unfold tilesOf LodRange.lods
    rw [List.nodup_flatMap]
    refine ⟨fun l _ => C13_no_duplicates b l, (nodup_intRange _ _).imp ?_⟩
    intro l l' hne
    simp only [Function.onFun, List.disjoint_left]
    intro t h1 h2
    exact hne (((mem_visit _ _ _).1 h1).2.1.symm.trans ((mem_visit _ _ _).1 h2).2.1)
  · intro t
    simp only [tilesOf, LodRange.lods, List.mem_flatMap, mem_intRange]
    constructor
    · rintro ⟨l, ⟨hl1, hl2⟩, ht⟩
      obtain ⟨rfl, h2, h3⟩ := (C13_visits_owners_partial b hb l (by omega) (by omega) t).1 ht
      exact ⟨⟨hl1, hl2⟩, h2, h3⟩
    · rintro ⟨⟨hl1, hl2⟩, h2, h3⟩
      exact ⟨t.lod, ⟨hl1, hl2⟩, (C13_visits_owners_partial b hb t.lod (by omega) (by omega) t).2 ⟨rfl, h2, h3⟩⟩

theorem hit_iff {b : Bbox ℝ} (hb : b.isValid = true) {e : El} (he : Located e) : hit b e = true ↔ MeetsBox e b := by
  rw [← intersects_iff he b hb]
  simp only [hit, Bbox.intersects, Bool.and_eq_true, decide_eq_true_eq]
  rw [max_comm, min_comm, max_comm b.lo.lon, min_comm b.hi.lon]

/-- What the theorems need to know of a tile of a store. -/
structure Fine (st : Strings) (q : TextQuery) (els : List El) : Prop where
  words : ∀ e ∈ els, FindTextSpec.Apart st q e
  both : els ≠ [] → (∃ w, IsWord q.and w) → (∃ w, IsWord q.or w) → ∃ w, IsWord q.or w ∧ ∃ e ∈ els, HasWord st.str e w
  few : (∃ w, IsWord q.not w) → els.length ≤ 1048544

open Classical in
theorem text_store {st : Strings} {s : MemStore.Store El} (hu : ∃ ops, s = (MemStore.run (elementTokens st) MemStore.init ops).1) {q : TextQuery} (hq : (∃ w, IsWord q.or w) ∨ ∃ w, IsWord q.and w)
    (f : El → Bool) {tiles : List QuadKey} (hf : ∀ t ∈ tiles, Fine st q (MemStore.searchTile s t none)) :
    MemStore.searchText s (parseTerms st q.not q.and q.or) f tiles =
      .ok (tiles.flatMap fun t => (MemStore.searchTile s t none).filter fun e => decide (q.Matches st.str e) && f e) := by
  obtain ⟨ops, rfl⟩ := hu
  have hi := (run_inv ops (MemStore.Inv.init (elementTokens (C := Geo ℝ) st))).1
  have hs : ∀ t, MemStore.searchTile (MemStore.run (elementTokens st) MemStore.init ops).1 t none = holds t (history ops) := fun t => hi.searchTile t none
  have := C18_text_search_partial st ops q f tiles
    (fun t ht w w' h1 h2 h3 => by
      obtain ⟨e, he, hw⟩ := h2
      exact (hf t ht).words e (by rw [hs]; exact he) w w' h1 hw h3)
    (by rcases hq with ⟨w, h⟩ | ⟨w, h⟩; exacts [⟨w, .inl h⟩, ⟨w, .inr h⟩])
    (fun t ht hne ha ho => by
      have := (hf t ht).both (by rw [hs]; exact hne) ha ho
      rwa [hs] at this)
    (fun t ht hn => by have := (hf t ht).few hn; rwa [hs] at this)
  simp only [hs]
  simp only [MemStore.step] at this
  revert this
  generalize MemStore.searchText _ _ _ _ = o
  intro h
  cases o with
  | ok l =>
    simp only [MemStore.Out.elements.injEq] at h
    rw [h]
  | throw _ => cases h
  | ub _ => cases h

theorem swap {α β γ : Type} (m : List α) (tiles : List β) (f : α → β → List γ) :
    (m.flatMap fun e => tiles.flatMap fun t => f e t).Perm (tiles.flatMap fun t => m.flatMap fun e => f e t) := by
  induction m with
  | nil => simp
  | cons e m ih =>
    simp only [List.flatMap_cons]
    exact (ih.append_left _).trans (List.flatMap_append_perm tiles (f e) _)

open Classical in
/-- What the search finds in a store. -/
noncomputable def found (st : Strings) (q : TextQuery) (f : El → Bool) (tiles : List QuadKey) (e : K × Option (MemStore.Store El)) : List El :=
  tiles.flatMap fun t => (ImportProof.tileOf t e).filter fun e => decide (q.Matches st.str e) && f e

omit [LinearOrder K] in
theorem visit_text {st : Strings} {q : TextQuery} (hq : (∃ w, IsWord q.or w) ∨ ∃ w, IsWord q.and w) (f : El → Bool) {tiles : List QuadKey} (m : GeoStore.Map K (MemStore.Store El))
    (h : ∀ e ∈ m, ∃ s, e.2 = some s ∧ (∃ ops, s = (MemStore.run (elementTokens st) MemStore.init ops).1) ∧ ∀ t ∈ tiles, Fine st q (MemStore.searchTile s t none)) :
    GeoStore.visit (fun s => (memIface (elementTokens st)).text s (parseTerms st q.not q.and q.or, f, tiles)) m = .ok (m, m.flatMap (found st q f tiles)) := by
  induction m with
  | nil => rfl
  | cons e m ih =>
    obtain ⟨k, p⟩ := e
    obtain ⟨s, rfl, hu, hf⟩ := h (k, p) (by simp)
    have := text_store hu hq f hf
    simp only [GeoStore.visit, memIface, this, Outcome.bind] at ih ⊢
    rw [ih fun e he => h e (by simp [he])]
    rfl

theorem tile_answer {tokens : El → List UInt32} {m : GeoStore.Map K (MemStore.Store El)} {A : Stores K (MemStore.Store El)} (hm : Abs m A) (t : QuadKey) :
    (GeoStore.step (memIface tokens) m (.tile t)).2 = .elements (m.flatMap (ImportProof.tileOf t)) := by
  simp only [GeoStore.step, ImportProof.visit_mem tokens t m (ImportProof.abs_some hm)]

end FindTextProof
open FindTextProof

variable {K : Type} [LinearOrder K]

/-- C102, partial: a text search over all stores finds exactly what tile searches show in the tiles of the box and the levels, as far as it matches the query and meets the box: once for every
tile (`C102_violated_twice`). What C18 excludes: queries without words to search for, tiles which hold no or-word although there are and-words, more than 1048544 elements of a tile if
there are not-words. -/
theorem C102_find_partial (st : Strings) {m : GeoStore.Map K (MemStore.Store El)} {A : Stores K (MemStore.Store El)} (hm : Abs m A) (hu : Used (elementTokens st) A) (q : TextQuery)
    (hq : (∃ w, IsWord q.or w) ∨ ∃ w, IsWord q.and w) {b : Bbox ℝ} {r : LodRange} (hs : FindTextSpec.Sensible b r)
    (hw : ∀ k s t, A k = some s → ∀ e ∈ MemStore.searchTile s t none, FindTextSpec.Apart st q e ∧ Located e)
    (hb : ∀ k s t, A k = some s → MemStore.searchTile s t none ≠ [] → (∃ w, IsWord q.and w) → (∃ w, IsWord q.or w) →
      ∃ w, IsWord q.or w ∧ ∃ e ∈ MemStore.searchTile s t none, HasWord st.str e w)
    (hn : (∃ w, IsWord q.not w) → ∀ k s t, A k = some s → (MemStore.searchTile s t none).length ≤ 1048544) :
    ∃ tiles found shown, TilesIn b r tiles ∧ (∀ t, (GeoStore.step (memIface (elementTokens st)) m (.tile t)).2 = .elements (shown t)) ∧
      find st m q.not q.and q.or b r = (m, .elements found) ∧ found.Perm (expected st.str q b tiles shown) := by
  have hmem : ∀ e ∈ m, ∃ s, e.2 = some s ∧ A e.1 = some s := fun e he => (hm.mem e.1 e.2).1 he
  have hv := visit_text hq (hit b) (tiles := tilesOf b r) m fun e he => by
    obtain ⟨s, h1, h2⟩ := hmem e he
    exact ⟨s, h1, hu _ _ h2, fun t _ => ⟨fun x hx => (hw _ _ t h2 x hx).1, hb _ _ t h2, fun h => hn h _ _ t h2⟩⟩
  refine ⟨tilesOf b r, m.flatMap (FindTextProof.found st q (hit b) (tilesOf b r)), fun t => m.flatMap (ImportProof.tileOf t), tiles_in hs, tile_answer hm, ?_, ?_⟩
  · simp only [find, GeoStore.step, hv]
  · unfold FindTextProof.found expected
    refine (swap m _ _).trans (List.Perm.of_eq ?_)
    apply List.flatMap_congr
    intro t _
    simp only [List.filter_flatMap]
    apply List.flatMap_congr
    rintro ⟨k, p⟩ he
    obtain ⟨s, h1, h2⟩ := hmem _ he
    simp only at h1 h2
    subst h1
    apply List.filter_congr
    intro e hx
    have := hit_iff hs.1 (hw _ _ t h2 e hx).2
    by_cases h1 : q.Matches st.str e <;> by_cases h2 : MeetsBox e b
    · simp [h1, h2, this.2 h2]
    · have h3 : hit b e = false := by cases h : hit b e; rfl; exact absurd (this.1 h) h2
      simp [h1, h2, h3]
    · simp [h1]
    · simp [h1]

namespace FindTextProof

theorem tiles_perm {b : Bbox ℝ} {r : LodRange} {u v : List QuadKey} (hu : TilesIn b r u) (hv : TilesIn b r v) : u.Perm v :=
  (List.perm_ext_iff_of_nodup hu.1 hv.1).2 fun t => (hu.2 t).trans (hv.2 t).symm

theorem expected_perm (str : UInt32 → Bytes) (q : TextQuery) (b : Bbox ℝ) {u v : List QuadKey} (h : u.Perm v) {f g : QuadKey → List El} (hfg : ∀ t, (f t).Perm (g t)) :
    (expected str q b u f).Perm (expected str q b v g) := List.Perm.flatMap h fun t _ => (hfg t).filter _

theorem expected_append (str : UInt32 → Bytes) (q : TextQuery) (b : Bbox ℝ) (u : List QuadKey) (f g : QuadKey → List El) :
    (expected str q b u fun t => f t ++ g t).Perm (expected str q b u f ++ expected str q b u g) := by
  unfold expected
  simp only [List.filter_append]
  exact (List.flatMap_append_perm _ _ _).symm

theorem stored_sublist {m : GeoStore.Map K (MemStore.Store El)} {A : Stores K (MemStore.Store El)} (hm : Abs m A) {k : K} {s : MemStore.Store El} (hk : A k = some s) (t : QuadKey) :
    (MemStore.searchTile s t none).Sublist (m.flatMap (ImportProof.tileOf t)) := by
  have : (k, some s) ∈ m := (hm.mem k (some s)).2 ⟨s, rfl, hk⟩
  rw [List.flatMap_def]
  exact List.sublist_flatten_of_mem (List.mem_map.2 ⟨_, this, rfl⟩)

theorem shown_stored {m : GeoStore.Map K (MemStore.Store El)} {A : Stores K (MemStore.Store El)} (hm : Abs m A) {t : QuadKey} {e : El} (he : e ∈ m.flatMap (ImportProof.tileOf t)) :
    ∃ k s, A k = some s ∧ e ∈ MemStore.searchTile s t none := by
  obtain ⟨⟨k, p⟩, h1, h2⟩ := List.mem_flatMap.1 he
  obtain ⟨s, rfl, h3⟩ := (hm.mem k p).1 h1
  exact ⟨k, s, h3, h2⟩

end FindTextProof

/-- C102, partial: after the import of the text of an OSM file, every text search finds what it has found before and, once for every tile, what is seen of the elements of the file in the tiles
of the box and the levels, as far as it matches and meets the box. Missing: what `C97_import_partial` and `C102_find_partial` leave open, and queries with both or-words and and-words. -/
theorem C102_import_partial (env : Env) (hsort : OsmSpec.Sorts env.sort) (st : Strings) {m : GeoStore.Map K (MemStore.Store El)}
    {A : Stores K (MemStore.Store El)} (hm : Abs m A) (hu : Used (elementTokens st) A) {k : K} {s : MemStore.Store El} (hk : A k = some s) {target : Target}
    (ht : ImportSpec.Sensible target)
    {h w u : List Char} {d : Doc} (hh : Head h) (hw : PrintsBody d w) (hf : ∃ v, w = '<' :: v) (hb : d.bounds ≠ none ∨ d.nodes ≠ []) (hd : ImportSpec.Sound d)
    (hr : (d.relations.map (·.id)).Nodup) :
    ∃ x, Describes env.eps env.getId d x ∧ (ResolveSpec.Sound env.resolver x →
      ∃ es, List.Forall₂ (fun key e => ResolveSpec.Becomes env.resolver x (.old key) e) (ResolveSpec.All x) es ∧
        ∀ order : List UInt64 → List UInt64, (∀ l, (order l).Perm l) → ∃ N, ∀ n ≥ N,
          ∃ m', importXml (memIface (elementTokens st)) { env with order := order, stack := n } m k target (h ++ (w ++ u)) = (m', .done) ∧
            ∀ (q : TextQuery) (b : Bbox ℝ) (r : LodRange), Simple q → FindTextSpec.Sensible b r →
              (∀ k s t, A k = some s → ∀ e ∈ MemStore.searchTile s t none, FindTextSpec.Apart st q e ∧ Located e) →
              (∀ t, ∀ e ∈ es.filterMap (seen env.eng env.style target t), FindTextSpec.Apart st q e ∧ Located e) →
              ((∃ w, IsWord q.not w) → ∀ t, ∃ old, (GeoStore.step (memIface (elementTokens st)) m (.tile t)).2 = .elements old ∧ old.length + es.length ≤ 1048544) →
              ∃ tiles old new, TilesIn b r tiles ∧ find st m q.not q.and q.or b r = (m, .elements old) ∧ find st m' q.not q.and q.or b r = (m', .elements new) ∧
                new.Perm (old ++ expected st.str q b tiles fun t => es.filterMap (seen env.eng env.style target t))) := by
  obtain ⟨x, hx, himp⟩ := C97_import_partial env hsort (elementTokens st) hm hu hk ht (u := u) hh hw hf hb hd hr
  refine ⟨x, hx, fun hsound => ?_⟩
  obtain ⟨es, g1, g2⟩ := himp hsound
  refine ⟨es, g1, fun order hord => ?_⟩
  obtain ⟨N, hN⟩ := g2 order hord
  refine ⟨N, fun n hn => ?_⟩
  obtain ⟨m', s', i1, i2, i3, i4⟩ := hN n hn
  refine ⟨m', i1, fun q b r hq hs hw1 hw2 hlen => ?_⟩
  have hperm : ∀ t, (m'.flatMap (ImportProof.tileOf t)).Perm (m.flatMap (ImportProof.tileOf t) ++ es.filterMap (seen env.eng env.style target t)) := by
    intro t
    obtain ⟨old, new, e1, e2, e3⟩ := i4 t
    rw [tile_answer hm] at e1
    rw [tile_answer i2] at e2
    cases e1; cases e2
    exact e3
  have hold : (∃ w, IsWord q.not w) → ∀ t, (m.flatMap (ImportProof.tileOf t)).length + es.length ≤ 1048544 := by
    intro hn t
    obtain ⟨old, e1, e2⟩ := hlen hn t
    rw [tile_answer hm] at e1
    cases e1
    exact e2
  obtain ⟨tiles, found, shown, a1, a2, a3, a4⟩ := C102_find_partial st hm hu q hq.1 hs hw1 (fun _ _ _ _ _ h1 h2 => absurd ⟨h2, h1⟩ hq.2)
    fun hn k s t hks => by
      have := (stored_sublist hm hks t).length_le
      have := hold hn t
      omega
  obtain ⟨tiles', found', shown', b1, b2, b3, b4⟩ := C102_find_partial st i2 i3 q hq.1 hs
    (fun k s t hks e he => by
      have := (hperm t).subset ((stored_sublist i2 hks t).subset he)
      rcases List.mem_append.1 this with h | h
      · obtain ⟨k', s'', h1, h2⟩ := shown_stored hm h
        exact hw1 k' s'' t h1 e h2
      · exact hw2 t e h)
    (fun _ _ _ _ _ h1 h2 => absurd ⟨h2, h1⟩ hq.2)
    fun hn k s t hks => by
      have h1 := (stored_sublist i2 hks t).length_le
      have h2 := (hperm t).length_eq
      have h3 := hold hn t
      have h4 := List.length_filterMap_le (seen env.eng env.style target t) es
      rw [List.length_append] at h2
      omega
  refine ⟨tiles, found, found', a1, a3, b3, ?_⟩
  have hsh : ∀ t, (shown' t).Perm (shown t ++ es.filterMap (seen env.eng env.style target t)) := by
    intro t
    have e1 := a2 t
    have e2 := b2 t
    rw [tile_answer hm] at e1
    rw [tile_answer i2] at e2
    simp only [GeoStore.Out.elements.injEq] at e1 e2
    rw [← e1, ← e2]
    exact hperm t
  exact b4.trans ((expected_perm _ _ _ (tiles_perm b1 a1) hsh).trans ((expected_append _ _ _ _ _ _).trans (a4.symm.append_right _)))

/-- C102, partial: nothing is missed. An element on the map which matches, whose box has a point in the box, and which was wanted, has a style and is not clipped in one of the levels, is among what
the theorems expect. -/
theorem C102_found_partial (env : Env) {target : Target} {es : List El} {e : El} (he : e ∈ es) (hp : ∀ p ∈ ClipperSpec.points e, OnMap p) {q : TextQuery} {str : UInt32 → Bytes}
    (hm : q.Matches str e) {b : Bbox ℝ} (hb : MeetsBox e b) {r : LodRange} (hs : FindTextSpec.Sensible b r) {l : ℤ} (hl : r.start ≤ l ∧ l ≤ r.stop)
    (hw : ∀ t : QuadKey, t.lod = l → ImportSpec.Wanted target e t) (hst : Styled (env.style e l)) (hc : (env.style e l).clip = false) {tiles : List QuadKey} (ht : TilesIn b r tiles) :
    e ∈ expected str q b tiles fun t => es.filterMap (seen env.eng env.style target t) := by
  obtain ⟨p, h1, h2⟩ := hb
  have hon : OnMap p := by
    have := h1 ⟨⟨-(180 / Real.pi * Real.arctan (Real.sinh Real.pi)), -180⟩, ⟨180 / Real.pi * Real.arctan (Real.sinh Real.pi), 180⟩⟩ fun c hc => by
      obtain ⟨a1, a2, a3, a4⟩ := hp c hc
      exact ⟨a3, a4, a1, a2⟩
    exact ⟨this.2.2.1, this.2.2.2, this.1, this.2.1⟩
  have h0 : 0 ≤ l := hs.2.1.trans hl.1
  have h19 : l ≤ 19 := hl.2.trans hs.2.2
  obtain ⟨e1, hv, -⟩ := C12_coordinate_in_its_tile p l h0
  have hown := (C12_owner p l h0 h19 hon _ hv e1).2 rfl
  unfold expected
  rw [List.mem_flatMap]
  refine ⟨Mercator.toQuadKey p l, (ht.2 _).2 ⟨by rw [e1]; exact hl, hv, p, h2, hown⟩, ?_⟩
  rw [List.mem_filter]
  refine ⟨List.mem_filterMap.2 ⟨e, he, ?_⟩, by simpa using ⟨hm, p, h1, h2⟩⟩
  unfold seen
  rw [if_pos ⟨hw _ e1, by rw [e1]; exact hst, hv, p, h1, hown⟩, if_neg (by rw [e1, hc]; simp)]

namespace FindTextProof

open Classical in
theorem expected_twice {str : UInt32 → Bytes} {q : TextQuery} {b : Bbox ℝ} {tiles : List QuadKey} {shown : QuadKey → List El} {t1 t2 : QuadKey} (h1 : t1 ∈ tiles) (h2 : t2 ∈ tiles) (hne : t1 ≠ t2)
    {e : El} (e1 : e ∈ shown t1) (e2 : e ∈ shown t2) (hm : q.Matches str e) (hb : MeetsBox e b) : ∃ rest, (expected str q b tiles shown).Perm (e :: e :: rest) := by
  obtain ⟨a, c, rfl⟩ := List.append_of_mem h1
  have hp : (a ++ t1 :: c).Perm (t1 :: (a ++ c)) := List.perm_middle
  have h2' : t2 ∈ a ++ c := by
    have := hp.subset h2
    rcases List.mem_cons.1 this with h | h
    · exact absurd h.symm hne
    · exact h
  obtain ⟨a', c', h3⟩ := List.append_of_mem h2'
  have hp2 : (a ++ t1 :: c).Perm (t1 :: t2 :: (a' ++ c')) := hp.trans ((by rw [h3]; exact List.perm_middle : (a ++ c).Perm (t2 :: (a' ++ c'))).cons _)
  have := expected_perm str q b hp2 (f := shown) (g := shown) fun _ => .refl _
  have hin : ∀ t, e ∈ shown t → ∃ x y, ((shown t).filter fun e => decide (q.Matches str e ∧ MeetsBox e b)) = x ++ e :: y := fun t ht =>
    List.append_of_mem (List.mem_filter.2 ⟨ht, by simpa using ⟨hm, hb⟩⟩)
  obtain ⟨x1, y1, z1⟩ := hin t1 e1
  obtain ⟨x2, y2, z2⟩ := hin t2 e2
  refine ⟨x1 ++ y1 ++ (x2 ++ y2 ++ expected str q b (a' ++ c') shown), this.trans ?_⟩
  simp only [expected, List.flatMap_cons]
  rw [z1, z2]
  simp only [List.append_assoc, List.cons_append]
  refine List.perm_middle.trans (List.Perm.cons _ ?_)
  rw [← List.append_assoc x1, ← List.append_assoc x1, ← List.append_assoc (x1 ++ y1), ← List.append_assoc (x1 ++ y1)]
  exact List.perm_middle

/-- A node with the tag `a=b` at the crossing of equator and zero meridian. -/
noncomputable def nodeA : El := .node 1 [⟨97, 98⟩] ⟨0, 0⟩

def word : TextQuery := ⟨[], [97], []⟩

theorem word_words : (∀ w, ¬ IsWord word.or w) ∧ (∀ w, ¬ IsWord word.not w) ∧ ∀ w, IsWord word.and w ↔ w = [97] := by
  refine ⟨fun w h => ?_, fun w h => ?_, fun w => ?_⟩
  · rw [isWord_iff] at h; simp [word, BitmapIndex.splitTokens] at h
  · rw [isWord_iff] at h; simp [word, BitmapIndex.splitTokens] at h
  · rw [isWord_iff]
    have : BitmapIndex.splitTokens [] word.and = [[97]] := by decide
    rw [this]; simp

theorem nodeA_has (w : Bytes) : HasWord letters.str nodeA w ↔ w = [97] ∨ w = [98] := by
  have h1 : IsWord (letters.str 97) w ↔ w = [97] := by
    rw [isWord_iff]
    have : BitmapIndex.splitTokens [] (letters.str 97) = [[97]] := by decide
    rw [this]; simp
  have h2 : IsWord (letters.str 98) w ↔ w = [98] := by
    rw [isWord_iff]
    have : BitmapIndex.splitTokens [] (letters.str 98) = [[98]] := by decide
    rw [this]; simp
  simp [HasWord, nodeA, Element.tags, h1, h2]

theorem nodeA_fine : FindTextSpec.Apart letters word nodeA ∧ Located nodeA ∧ word.Matches letters.str nodeA := by
  obtain ⟨h1, h2, h3⟩ := word_words
  refine ⟨?_, ⟨by simp [nodeA, ClipperSpec.points, ClipperSpec.leaves, ClipperSpec.coords], ?_⟩, ?_, ?_, ?_⟩
  · intro w w' hw hw' he
    rcases hw with h | h | h
    · exact absurd h (h2 w)
    · rw [h3] at h; subst h
      rcases (nodeA_has w').1 hw' with rfl | rfl
      · rfl
      · exact absurd he (by decide)
    · exact absurd h (h1 w)
  · intro p hp
    simp only [nodeA, ClipperSpec.points, ClipperSpec.leaves, ClipperSpec.coords, List.flatMap_cons, List.flatMap_nil, List.append_nil, List.mem_singleton] at hp
    subst hp
    constructor <;> norm_num
  · rintro ⟨w, h⟩; exact absurd h (h1 w)
  · intro w hw; rw [h3] at hw; subst hw; rw [nodeA_has]; simp
  · intro w hw; exact absurd hw (h2 w)

end FindTextProof

/-- C102 is violated: an element is found once for every tile and level in which it is stored. A node which was added for the levels 1 and 2 is found twice. -/
theorem C102_violated_twice (eng : Clipper.Engine) :
    let s := (MemStore.run (elementTokens letters) MemStore.init ((ElementStore.storeRange eng (fun _ => ⟨false, false, false⟩) nodeA ⟨1, 2⟩).saves.map fun x => .save x.1 x.2)).1
    ∃ found rest, find letters [((), some s)] word.not word.and word.or ⟨⟨-1, -1⟩, ⟨1, 1⟩⟩ ⟨1, 2⟩ = ([((), some s)], .elements found) ∧ found.Perm (nodeA :: nodeA :: rest) := by
  intro s
  obtain ⟨fa, fl, fm⟩ := nodeA_fine
  obtain ⟨w1, w2, w3⟩ := word_words
  have hsaves := C19_store_range_partial eng (fun _ => ⟨false, false, false⟩) nodeA fl ⟨1, 2⟩ (by decide)
  have htile : ∀ t e, e ∈ MemStore.searchTile s t none ↔ (t, e) ∈ (ElementStore.storeRange eng (fun _ => ⟨false, false, false⟩) nodeA ⟨1, 2⟩).saves := by
    intro t e
    obtain ⟨s', h', -, rfl, -, h4⟩ := ImportProof.saveAll_run (tokens := elementTokens letters) (ElementStore.storeRange eng (fun _ => ⟨false, false, false⟩) nodeA ⟨1, 2⟩).saves
      (MemStore.Inv.init (elementTokens (C := Geo ℝ) letters))
    rw [h4 t]
    simp [MemStore.searchTile, MemStore.init, Assoc.find]
  have hall : ∀ t, ∀ e ∈ MemStore.searchTile s t none, e = nodeA := by
    intro t e he
    exact ((hsaves t e).1 ((htile t e).1 he)).2.2.2.2 rfl
  have hA : Abs [((), some s)] (fun _ : Unit => some s) := ⟨by simp, fun k p => by simp [eq_comm]⟩
  have hsens : FindTextSpec.Sensible ⟨⟨-1, -1⟩, ⟨1, 1⟩⟩ ⟨1, 2⟩ := ⟨by simp [Bbox.isValid], by decide, by decide⟩
  obtain ⟨tiles, found, shown, h1, h2, h3, h4⟩ := C102_find_partial letters hA (fun _ s' hs => ⟨_, (Option.some.inj hs).symm⟩) word (.inr ⟨[97], (w3 _).2 rfl⟩) hsens
    (fun k s' t hs e he => by cases hs; rw [hall t e he]; exact ⟨fa, fl⟩) (fun _ _ _ _ _ _ ⟨w, hw⟩ => absurd hw (w1 w)) (fun ⟨w, hw⟩ => absurd hw (w2 w))
  have hcov : Covered nodeA ⟨0, 0⟩ := fun b hb => hb _ (by simp [nodeA, ClipperSpec.points, ClipperSpec.leaves, ClipperSpec.coords])
  have hin : In (⟨⟨-1, -1⟩, ⟨1, 1⟩⟩ : Bbox ℝ) ⟨0, 0⟩ := by refine ⟨?_, ?_, ?_, ?_⟩ <;> norm_num
  have hon : OnMap ⟨0, 0⟩ := by
    have : 0 ≤ 180 / Real.pi * Real.arctan (Real.sinh Real.pi) := by
      have := Real.arctan_nonneg.2 (Real.sinh_nonneg_iff.2 Real.pi_pos.le)
      have := Real.pi_pos
      positivity
    exact ⟨by norm_num, by norm_num, by simpa using this, this⟩
  have key : ∀ l : ℤ, 1 ≤ l → l ≤ 2 → Mercator.toQuadKey ⟨0, 0⟩ l ∈ tiles ∧ nodeA ∈ shown (Mercator.toQuadKey ⟨0, 0⟩ l) := by
    intro l l1 l2
    obtain ⟨e1, hv, -⟩ := C12_coordinate_in_its_tile ⟨0, 0⟩ l (by omega)
    have hown := (C12_owner ⟨0, 0⟩ l (by omega) (by omega) hon _ hv e1).2 rfl
    refine ⟨(h1.2 _).2 ⟨by rw [e1]; exact ⟨l1, l2⟩, hv, _, hin, hown⟩, ?_⟩
    have := h2 (Mercator.toQuadKey ⟨0, 0⟩ l)
    rw [tile_answer hA] at this
    simp only [GeoStore.Out.elements.injEq, List.flatMap_cons, List.flatMap_nil, List.append_nil, ImportProof.tileOf] at this
    rw [← this, htile, hsaves]
    exact ⟨by rw [e1]; exact ⟨l1, l2⟩, ⟨rfl, rfl⟩, ⟨hv, _, hcov, hown⟩, by simp, fun _ => rfl⟩
  obtain ⟨k1, k2⟩ := key 1 (by norm_num) (by norm_num)
  obtain ⟨k3, k4⟩ := key 2 (by norm_num) (by norm_num)
  have hne : Mercator.toQuadKey ⟨0, 0⟩ 1 ≠ Mercator.toQuadKey ⟨0, 0⟩ 2 := by
    intro h
    have := congrArg QuadKey.lod h
    rw [(C12_coordinate_in_its_tile ⟨0, 0⟩ 1 (by norm_num)).1, (C12_coordinate_in_its_tile ⟨0, 0⟩ 2 (by norm_num)).1] at this
    norm_num at this
  obtain ⟨rest, hr⟩ := expected_twice k1 k3 hne k2 k4 fm ⟨_, hcov, hin⟩
  exact ⟨found, rest, h3, h4.trans hr⟩

/-- C102, partial: the words of an imported element are the words which are written in its tags, if the numbers of the string table stand for the texts (`C02`: first numbers handed out, then looked up). -/
theorem C102_words_partial (st : Strings) (getId : String → UInt32) (bytes : List Char → Bytes) {raw : List OsmXml.Tag} {e : El} (ht : ImportSpec.Tagged getId raw e.tags)
    (hs : ∀ t ∈ raw, st.str (getId (String.ofList t.key)) = bytes t.key ∧ st.str (getId (String.ofList t.value)) = bytes t.value) (w : Bytes) :
    HasWord st.str e w ↔ ∃ t ∈ raw, IsWord (bytes t.key) w ∨ IsWord (bytes t.value) w := by
  unfold HasWord
  constructor
  · rintro ⟨t, h1, h2⟩
    obtain ⟨y, hy, rfl⟩ := List.mem_map.1 (ht.1.subset h1)
    rw [(hs y hy).1, (hs y hy).2] at h2
    exact ⟨y, hy, h2⟩
  · rintro ⟨y, hy, h⟩
    refine ⟨_, ht.1.symm.subset (List.mem_map.2 ⟨y, hy, rfl⟩), ?_⟩
    rw [(hs y hy).1, (hs y hy).2]
    exact h

/-- The query, the box and the levels of `C102_violated_twice`, to which `C102_find_partial` is applied there, also meet what `C102_import_partial` asks of them. -/
example : Simple word ∧ FindTextSpec.Sensible ⟨⟨-1, -1⟩, ⟨1, 1⟩⟩ ⟨1, 2⟩ ∧ FindTextSpec.Apart letters word nodeA ∧ Located nodeA ∧ MeetsBox nodeA ⟨⟨-1, -1⟩, ⟨1, 1⟩⟩ := by
  obtain ⟨w1, w2, w3⟩ := word_words
  refine ⟨⟨.inr ⟨[97], (w3 _).2 rfl⟩, fun h => h.1.elim w1⟩, ⟨by simp [Bbox.isValid], by decide, by decide⟩, nodeA_fine.1, nodeA_fine.2.1, ⟨0, 0⟩, ?_, ?_⟩
  · exact fun b hb => hb _ (by simp [nodeA, ClipperSpec.points, ClipperSpec.leaves, ClipperSpec.coords])
  · refine ⟨?_, ?_, ?_, ?_⟩ <;> norm_num

/-- A node whose tag `a=b` was written in a file has the words `C102_words_partial` speaks of. -/
example : ∃ (getId : String → UInt32) (bytes : List Char → Bytes) (raw : List OsmXml.Tag), ImportSpec.Tagged getId raw nodeA.tags ∧
    (∀ t ∈ raw, letters.str (getId (String.ofList t.key)) = bytes t.key ∧ letters.str (getId (String.ofList t.value)) = bytes t.value) := by
  refine ⟨fun s => if s = String.ofList ['a'] then 97 else 98, fun c => if c = ['a'] then [97] else [98], [⟨['a'], ['b']⟩], ⟨?_, ?_⟩, ?_⟩
  · simp [nodeA, Element.tags]
  · simp [nodeA, Element.tags]
  · simp; decide

end Verif.Props
