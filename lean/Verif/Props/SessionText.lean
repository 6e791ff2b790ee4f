import Verif.Props.SessionTextSpec
import Verif.Props.Session
import Verif.Props.FindText

/-! # C110: searches for words and questions for data through the C API -/
namespace Verif.Props
open Verif.Clipper (El)
open Verif.BitmapIndex (Strings elementTokens)
open Verif.Style (Rule Str FilterCollection)
open Verif.StyleSpec Verif.LoadTileSpec Verif.SessionSpec Verif.SessionTextSpec Verif.FindTextSpec
open Verif.Session (World State)
open Verif.SessionText (Query getDataByText hasData)
open Verif.Api (Exported)
open Verif.ApiSpec (Supported)
open Verif.GeoStore (memIface)
open Verif.GeoStoreSpec (Stores update)
open Verif.Props.GeoStoreProof (Abs)
open Verif.ImportSpec (Used seen)
open Verif.BboxSpec (OnGlobe In)
open Verif.MercatorSpec (Owns OnMap)
open Verif.TilesSpec Verif.ElementStoreSpec
open Verif.Props.StoreSpec (IsWord HasWord TextQuery)
open FindTextProof

namespace SessionTextProof
variable {A L D K S : Type}

theorem exports_eq (w : World A L D S Query) (es : List El) : SessionText.exports w es = .ok (es.map (told w)) := by
  unfold SessionText.exports
  rw [C67_exported_partial (0, 0) _ (fun i => String.ofList (w.strings.getString i)) _ (fun _ => []) _ _ (fun _ _ _ _ => ⟨rfl, rfl⟩) (fun _ _ => rfl) _ ⟨rfl, rfl, rfl⟩]
  rw [List.map_map]
  congr 1
  refine List.map_congr_left fun e _ => ?_
  have hflat : ∀ cs : List (Geo ℝ), (cs.map Session.pair).flatMap (fun c => [c.2, c.1, (0 : ℝ)]) = cs.flatMap fun c => [c.lon, c.lat, 0] := by
    intro cs
    rw [List.flatMap_map]
    rfl
  unfold told
  simp only [Function.comp]
  rw [SessionProof.flat_map]
  cases e <;> simp only [DiskImport.mapCoords, places, hflat] <;> rfl

theorem search_eq [LinearOrder K] {words : Strings} {w : World A L D (MemStore.Store El) Query} (hw : w.iface = memIface (elementTokens words)) {st : State K (MemStore.Store El)}
    {q : TextQuery} {b : Bbox ℝ} {lo hi : ℤ} (h1 : Supported lo) (h2 : Supported hi) {found : List El}
    (hf : FindText.find words st.stores q.not q.and q.or b ⟨lo, hi⟩ = (st.stores, .elements found)) :
    getDataByText words w st q.not q.and q.or b.lo.lat b.lo.lon b.hi.lat b.hi.lon lo hi = (st, found.map (told w), .returned []) := by
  unfold getDataByText
  rw [ApiProof.make_ok _ _ h1 h2]
  simp only
  unfold FindText.find at hf
  rw [hw]
  simp only [hf, exports_eq]

/-- What a text search finds grows with what the tiles show. -/
theorem find_grown [LinearOrder K] (st : Strings) {m m' : GeoStore.Map K (MemStore.Store El)} {B B' : Stores K (MemStore.Store El)} (hm : Abs m B) (hu : Used (elementTokens st) B)
    (hm' : Abs m' B') (hu' : Used (elementTokens st) B') (more : QuadKey → List El)
    (hperm : ∀ t, (m'.flatMap (ImportProof.tileOf t)).Perm (m.flatMap (ImportProof.tileOf t) ++ more t)) {q : TextQuery} (hq : Simple q) {b : Bbox ℝ} {r : LodRange}
    (hs : FindTextSpec.Sensible b r) (hw1 : ∀ t, ∀ e ∈ m.flatMap (ImportProof.tileOf t), FindTextSpec.Apart st q e ∧ Located e)
    (hw2 : ∀ t, ∀ e ∈ more t, FindTextSpec.Apart st q e ∧ Located e)
    (hlen : (∃ w, IsWord q.not w) → ∀ t, (m.flatMap (ImportProof.tileOf t)).length + (more t).length ≤ 1048544) :
    ∃ tiles old new, TilesIn b r tiles ∧ FindText.find st m q.not q.and q.or b r = (m, .elements old) ∧ FindText.find st m' q.not q.and q.or b r = (m', .elements new) ∧
      new.Perm (old ++ expected st.str q b tiles more) := by
  obtain ⟨tiles, found, shown, a1, a2, a3, a4⟩ := C102_find_partial st hm hu q hq.1 hs (fun k s t hks e he => hw1 t e ((stored_sublist hm hks t).subset he))
    (fun _ _ _ _ _ h1 h2 => absurd ⟨h2, h1⟩ hq.2)
    fun hn k s t hks => by
      have := (stored_sublist hm hks t).length_le
      have := hlen hn t
      omega
  obtain ⟨tiles', found', shown', b1, b2, b3, b4⟩ := C102_find_partial st hm' hu' q hq.1 hs
    (fun k s t hks e he => by
      have := (hperm t).subset ((stored_sublist hm' hks t).subset he)
      rcases List.mem_append.1 this with h | h
      · exact hw1 t e h
      · exact hw2 t e h)
    (fun _ _ _ _ _ h1 h2 => absurd ⟨h2, h1⟩ hq.2)
    fun hn k s t hks => by
      have h1 := (stored_sublist hm' hks t).length_le
      have h2 := (hperm t).length_eq
      have h3 := hlen hn t
      rw [List.length_append] at h2
      omega
  refine ⟨tiles, found, found', a1, a3, b3, ?_⟩
  have hsh : ∀ t, (shown' t).Perm (shown t ++ more t) := by
    intro t
    have e1 := a2 t
    have e2 := b2 t
    rw [tile_answer hm] at e1
    rw [tile_answer hm'] at e2
    simp only [GeoStore.Out.elements.injEq] at e1 e2
    rw [← e1, ← e2]
    exact hperm t
  exact b4.trans ((expected_perm _ _ _ (tiles_perm b1 a1) hsh).trans ((expected_append _ _ _ _ _ _).trans (a4.symm.append_right _)))

/-- What is seen of a node, way or area is one thing with its tags, or has no tags. -/
theorem seen_tags {eng : Clipper.Engine} {style : El → ℤ → ElementStore.StyleInfo} {target : Import.Target} {t : QuadKey} {e e' : El} (hr : ∀ i ts ms, e ≠ .relation i ts ms)
    (h : seen eng style target t e = some e') : (e'.tags = e.tags ∧ (ClipperSpec.leaves e').length = 1) ∨ e'.tags = [] := by
  unfold seen at h
  split at h
  · split at h
    · cases e with
      | node i ts c =>
        simp only [Clipper.clip] at h
        split at h
        · cases h; exact .inl ⟨rfl, rfl⟩
        · cases h
      | way i ts cs =>
        simp only [Clipper.clip, Clipper.clipElement] at h
        split at h
        · cases h; exact .inl ⟨rfl, rfl⟩
        · cases h
        · split at h
          · cases h
          · cases h; exact .inl ⟨rfl, rfl⟩
          · cases h; exact .inr rfl
      | area i ts cs =>
        simp only [Clipper.clip, Clipper.clipElement] at h
        split at h
        · cases h; exact .inl ⟨rfl, rfl⟩
        · cases h
        · split at h
          · cases h
          · cases h; exact .inl ⟨rfl, rfl⟩
          · cases h; exact .inr rfl
      | relation i ts ms => exact absurd rfl (hr i ts ms)
    · cases h
      cases e with
      | relation i ts ms => exact absurd rfl (hr i ts ms)
      | _ => exact .inl ⟨rfl, rfl⟩
  · cases h

theorem described_leaf (eps : ℝ) (id : UInt64) (tags : List Tag) (cs : List (Geo ℝ)) (i : UInt64) (ts : List Tag) (ms : List El) : described eps id tags cs ≠ .relation i ts ms := by
  unfold described
  split
  · intro h; cases h
  · split <;> (intro h; cases h)
  · intro h; cases h

theorem has_tags {str : UInt32 → Bytes} {e e' : El} (h : (e'.tags = e.tags ∧ (ClipperSpec.leaves e').length = 1) ∨ e'.tags = []) {x : Bytes} (hx : HasWord str e' x) : HasWord str e x := by
  obtain ⟨t, h1, h2⟩ := hx
  rcases h with ⟨h, -⟩ | h
  · exact ⟨t, h ▸ h1, h2⟩
  · rw [h] at h1; cases h1

/-- A store has data for a tile if and only if a tile search finds something. -/
theorem has_iff [LinearOrder K] {tokens : El → List UInt32} {w : World A L D (MemStore.Store El) Query} (hw : w.iface = memIface tokens) {st : State K (MemStore.Store El)}
    {B : Stores K (MemStore.Store El)} (hB : Abs st.stores B) (hu : Used tokens B) (t : QuadKey) :
    ∃ b, hasData w st t = (st, .flag b) ∧ (b = true ↔ st.stores.flatMap (ImportProof.tileOf t) ≠ []) := by
  obtain ⟨b, h1, h2⟩ := GeoStoreProof.anyData_ok (I := memIface tokens) (q := t) hB
  refine ⟨b, by simp only [hasData, hw, GeoStore.step, h1], h2.trans ?_⟩
  have key : ∀ k s, B k = some s → ((memIface tokens).hasData s t = true ↔ MemStore.searchTile s t none ≠ []) := by
    intro k s hs
    obtain ⟨ops, rfl⟩ := hu k s hs
    have hi := (run_inv ops (MemStore.Inv.init tokens)).1
    show MemStore.hasData _ t = true ↔ _
    rw [hi.hasData, hi.searchTile]
    simp
  constructor
  · rintro ⟨k, s, h3, h4⟩ h5
    have h6 := stored_sublist hB h3 t
    rw [h5] at h6
    exact (key k s h3).1 h4 (List.sublist_nil.1 h6)
  · intro h
    obtain ⟨e, he⟩ := List.exists_mem_of_ne_nil _ h
    obtain ⟨k, s, h3, h4⟩ := shown_stored hB he
    exact ⟨k, s, h3, (key k s h3).2 (List.ne_nil_of_mem h4)⟩

end SessionTextProof
open SessionTextProof

variable {A L D K : Type}

/-- C110 (partial): an element is added through the API under a stylesheet which is in force. From then on a search for words through the API tells what it has told before and, once for every tile of the
box and the levels, what is seen of the element there, if that matches the words and meets the box: with id, texts of tags and places. Searches change nothing. Missing: what C102 leaves open
(an element is told once for every tile, `C102_violated_twice`; queries with both or-words and and-words), tags which are not in the order of the string table, and what is left of elements which the tile
cuts into pieces (`C110_violated_pieces`). -/
theorem C110_text_partial [LinearOrder K] (words : Strings) (w : World A L D (MemStore.Store El) Query) (hw : w.iface = memIface (elementTokens words))
    {st : State K (MemStore.Store El)} {B : Stores K (MemStore.Store El)} (hB : Abs st.stores B) (hu : Used (elementTokens words) B)
    {k : K} {s : MemStore.Store El} (hk : B k = some s) {path : List Char} {rules : List Rule} (hrules : InForce w st path rules)
    {P : Str → Prop} (hm : Mentions rules P) (hskip : P "skip".toList) (hclip : P "clip".toList) (id : UInt64) {cs : List (Geo ℝ)} (hcs : cs ≠ []) (hg : ∀ c ∈ cs, OnGlobe c)
    {tags : List (String × String)} (hback : ∀ s, (P s ∨ ∃ t ∈ tags, s = t.1.toList ∨ s = t.2.toList) → w.strings.getString (w.strings.getId s) = s)
    (hsorted : TagsSorted (numbered w.strings tags)) {startLod endLod : ℤ} (hs : Supported startLod) (he : Supported endLod) :
    ∃ N, ∀ n ≥ N, ∃ st', Session.addElement { w with depth := n } st k path id (cs.flatMap fun c => [c.lat, c.lon]) (tags.flatMap fun t => [t.1, t.2]) startLod endLod =
        (st', .returned []) ∧
      ∀ (q : TextQuery) (b : Bbox ℝ) (lo hi : ℤ), Simple q → b.isValid = true → Supported lo → Supported hi →
        (∀ t e, Shows w st t e → FindTextSpec.Apart words q e ∧ Located e) →
        FindTextSpec.Apart words q (described w.env.eps id (numbered w.strings tags) cs) →
        (∀ t e, seen w.env.eng (wanted w.strings rules) (.range ⟨startLod, endLod⟩) t (described w.env.eps id (numbered w.strings tags) cs) = some e → Located e) →
        ((∃ x, IsWord q.not x) → ∀ t l, (GeoStore.step w.iface st.stores (.tile t)).2 = .elements l → l.length < 1048544) →
        ∃ tiles old new, TilesIn b ⟨lo, hi⟩ tiles ∧
          getDataByText words w st q.not q.and q.or b.lo.lat b.lo.lon b.hi.lat b.hi.lon lo hi = (st, old, .returned []) ∧
          getDataByText words w st' q.not q.and q.or b.lo.lat b.lo.lon b.hi.lat b.hi.lon lo hi = (st', new, .returned []) ∧
          new.Perm (old ++ (expected words.str q b tiles fun t =>
            (seen w.env.eng (wanted w.strings rules) (.range ⟨startLod, endLod⟩) t (described w.env.eps id (numbered w.strings tags) cs)).toList).map (told w)) := by
  obtain ⟨fc, hok, N, hN⟩ := SessionProof.added (elementTokens words) w hw hB hu hk hrules hm hskip hclip id hcs hg hback hsorted hs he
  refine ⟨N, fun n hn => ?_⟩
  obtain ⟨sheets, m', s', h1, -, a2, a3, a4⟩ := hN n hn
  refine ⟨⟨sheets, m'⟩, h1, fun q b lo hi hq hb hlo hhi hold happ hloc hlen => ?_⟩
  have hperm : ∀ t, (m'.flatMap (ImportProof.tileOf t)).Perm (st.stores.flatMap (ImportProof.tileOf t) ++
      (seen w.env.eng (wanted w.strings rules) (.range ⟨startLod, endLod⟩) t (described w.env.eps id (numbered w.strings tags) cs)).toList) := by
    intro t
    obtain ⟨old, new, e1, e2, e3⟩ := a4 t
    rw [tile_answer hB] at e1
    rw [tile_answer a2] at e2
    cases e1; cases e2
    exact e3
  obtain ⟨tiles, old, new, b1, b2, b3, b4⟩ := find_grown words hB hu a2 a3 _ hperm hq (b := b) (r := ⟨lo, hi⟩) ⟨hb, by unfold Supported at hlo; simp only; omega, by
      unfold Supported at hhi; simp only; omega⟩
    (fun t e he => hold t e ⟨_, by rw [hw]; exact tile_answer hB t, he⟩)
    (fun t e he => by
      have he := Option.mem_toList.1 he
      refine ⟨?_, hloc t e he⟩
      intro x y hx hy hxy
      exact happ x y hx (has_tags (seen_tags (described_leaf _ _ _ _) he) hy) hxy)
    (fun hn t => by
      have h1 := hlen hn t _ (by rw [hw]; exact tile_answer hB t)
      have h2 : ∀ o : Option El, o.toList.length ≤ 1 := by intro o; cases o <;> simp
      have h3 := h2 (seen w.env.eng (wanted w.strings rules) (.range ⟨startLod, endLod⟩) t (described w.env.eps id (numbered w.strings tags) cs))
      omega)
  refine ⟨tiles, old.map (told w), new.map (told w), b1, search_eq hw hlo hhi b2, search_eq hw hlo hhi b3, ?_⟩
  rw [← List.map_append]
  exact b4.map _

/-- C110: after an element was added, there is data for a tile if there was before or if something of the element is to be seen there, and otherwise not. The question changes nothing. -/
theorem C110_has_data_partial [LinearOrder K] (tokens : El → List UInt32) (w : World A L D (MemStore.Store El) Query) (hw : w.iface = memIface tokens)
    {st : State K (MemStore.Store El)} {B : Stores K (MemStore.Store El)} (hB : Abs st.stores B) (hu : Used tokens B)
    {k : K} {s : MemStore.Store El} (hk : B k = some s) {path : List Char} {rules : List Rule} (hrules : InForce w st path rules)
    {P : Str → Prop} (hm : Mentions rules P) (hskip : P "skip".toList) (hclip : P "clip".toList) (id : UInt64) {cs : List (Geo ℝ)} (hcs : cs ≠ []) (hg : ∀ c ∈ cs, OnGlobe c)
    {tags : List (String × String)} (hback : ∀ s, (P s ∨ ∃ t ∈ tags, s = t.1.toList ∨ s = t.2.toList) → w.strings.getString (w.strings.getId s) = s)
    (hsorted : TagsSorted (numbered w.strings tags)) {startLod endLod : ℤ} (hs : Supported startLod) (he : Supported endLod) :
    ∃ N, ∀ n ≥ N, ∃ st', Session.addElement { w with depth := n } st k path id (cs.flatMap fun c => [c.lat, c.lon]) (tags.flatMap fun t => [t.1, t.2]) startLod endLod =
        (st', .returned []) ∧
      ∀ t, ∃ had has, hasData w st t = (st, .flag had) ∧ hasData w st' t = (st', .flag has) ∧ (had = true ↔ ∃ e, Shows w st t e) ∧
        (has = true ↔ had = true ∨ ∃ e, seen w.env.eng (wanted w.strings rules) (.range ⟨startLod, endLod⟩) t (described w.env.eps id (numbered w.strings tags) cs) = some e) := by
  obtain ⟨fc, hok, N, hN⟩ := SessionProof.added tokens w hw hB hu hk hrules hm hskip hclip id hcs hg hback hsorted hs he
  refine ⟨N, fun n hn => ?_⟩
  obtain ⟨sheets, m', s', h1, -, a2, a3, a4⟩ := hN n hn
  refine ⟨⟨sheets, m'⟩, h1, fun t => ?_⟩
  obtain ⟨had, b1, b2⟩ := has_iff hw hB hu t
  obtain ⟨has, c1, c2⟩ := has_iff hw (st := ⟨sheets, m'⟩) a2 a3 t
  obtain ⟨old, new, e1, e2, e3⟩ := a4 t
  rw [tile_answer hB] at e1
  rw [tile_answer a2] at e2
  cases e1; cases e2
  refine ⟨had, has, b1, c1, b2.trans ?_, c2.trans ?_⟩
  · unfold Shows
    rw [hw, tile_answer hB t]
    constructor
    · intro h
      obtain ⟨e, he⟩ := List.exists_mem_of_ne_nil _ h
      exact ⟨e, _, rfl, he⟩
    · rintro ⟨e, l, h1, h2⟩
      cases h1
      exact List.ne_nil_of_mem h2
  · simp only
    rw [b2, ← List.length_pos_iff_ne_nil, e3.length_eq, List.length_append, ← List.length_pos_iff_ne_nil]
    cases hx : seen w.env.eng (wanted w.strings rules) (.range ⟨startLod, endLod⟩) t (described w.env.eps id (numbered w.strings tags) cs) with
    | none => simp
    | some e => simp

namespace SessionTextProof

theorem on_globe {p : Geo ℝ} (h : OnMap p) : OnGlobe p := by
  obtain ⟨a1, a2, a3, a4⟩ := h
  have hpi := Real.pi_pos
  have h1 : 180 / Real.pi * Real.arctan (Real.sinh Real.pi) ≤ 90 := by
    have := (Real.arctan_lt_pi_div_two (Real.sinh Real.pi)).le
    calc 180 / Real.pi * Real.arctan (Real.sinh Real.pi) ≤ 180 / Real.pi * (Real.pi / 2) := mul_le_mul_of_nonneg_left this (by positivity)
      _ = 90 := by field_simp; norm_num
  exact ⟨by linarith, by linarith, a1, a2⟩

theorem matches_iff {senv : Style.Env D} {str : UInt32 → Bytes} {bytes : String → Bytes} {tags : List (String × String)}
    (hs : ∀ t ∈ tags, str (senv.getId t.1.toList) = bytes t.1 ∧ str (senv.getId t.2.toList) = bytes t.2) {e : El} (he : e.tags = numbered senv tags) (q : TextQuery) :
    q.Matches str e ↔ Match bytes q tags := by
  have key : ∀ x, HasWord str e x ↔ HasText bytes tags x := by
    intro x
    unfold HasWord HasText
    rw [he]
    simp only [numbered, List.mem_map]
    constructor
    · rintro ⟨_, ⟨t, ht, rfl⟩, h⟩
      simp only [(hs t ht).1, (hs t ht).2] at h
      exact ⟨t, ht, h⟩
    · rintro ⟨t, ht, h⟩
      refine ⟨_, ⟨t, ht, rfl⟩, ?_⟩
      simp only [(hs t ht).1, (hs t ht).2]
      exact h
  unfold TextQuery.Matches Match
  simp only [key]

end SessionTextProof

/-- C110 (partial): an added element whose tags match the words is found. It is to be on the map, have a point of its box in the box of the search, and have a style and not be clipped in one of the levels
of the search. It is told with the id, the texts of tags and the places which were given, and heights zero. -/
theorem C110_found_partial [LinearOrder K] (words : Strings) (bytes : String → Bytes) (w : World A L D (MemStore.Store El) Query) (hw : w.iface = memIface (elementTokens words))
    {st : State K (MemStore.Store El)} {B : Stores K (MemStore.Store El)} (hB : Abs st.stores B) (hu : Used (elementTokens words) B)
    {k : K} {s : MemStore.Store El} (hk : B k = some s) {path : List Char} {rules : List Rule} (hrules : InForce w st path rules)
    {P : Str → Prop} (hm : Mentions rules P) (hskip : P "skip".toList) (hclip : P "clip".toList) (id : UInt64) {cs : List (Geo ℝ)} (hcs : cs ≠ []) (hmap : ∀ c ∈ cs, OnMap c)
    {tags : List (String × String)} (hback : ∀ s, (P s ∨ ∃ t ∈ tags, s = t.1.toList ∨ s = t.2.toList) → w.strings.getString (w.strings.getId s) = s)
    (hsorted : TagsSorted (numbered w.strings tags)) {startLod endLod : ℤ} (hs : Supported startLod) (he : Supported endLod)
    (hbytes : ∀ t ∈ tags, words.str (w.strings.getId t.1.toList) = bytes t.1 ∧ words.str (w.strings.getId t.2.toList) = bytes t.2)
    {q : TextQuery} (hq : Simple q) (hmatch : Match bytes q tags) {b : Bbox ℝ} (hb : b.isValid = true) {lo hi : ℤ} (hlo : Supported lo) (hhi : Supported hi)
    (hold : ∀ t e, Shows w st t e → FindTextSpec.Apart words q e ∧ Located e) (happ : FindTextSpec.Apart words q (described w.env.eps id (numbered w.strings tags) cs))
    (hloc : ∀ t e, seen w.env.eng (wanted w.strings rules) (.range ⟨startLod, endLod⟩) t (described w.env.eps id (numbered w.strings tags) cs) = some e → Located e)
    (hlen : (∃ x, IsWord q.not x) → ∀ t l, (GeoStore.step w.iface st.stores (.tile t)).2 = .elements l → l.length < 1048544)
    {l : ℤ} (hl : lo ≤ l ∧ l ≤ hi) (hl' : startLod ≤ l ∧ l ≤ endLod) (hmeets : MeetsBox (described w.env.eps id (numbered w.strings tags) cs) b)
    (hst : Styled (wanted w.strings rules (described w.env.eps id (numbered w.strings tags) cs) l))
    (hc : (wanted w.strings rules (described w.env.eps id (numbered w.strings tags) cs) l).clip = false) :
    ∃ N, ∀ n ≥ N, ∃ st' new, Session.addElement { w with depth := n } st k path id (cs.flatMap fun c => [c.lat, c.lon]) (tags.flatMap fun t => [t.1, t.2]) startLod endLod =
        (st', .returned []) ∧
      getDataByText words w st' q.not q.and q.or b.lo.lat b.lo.lon b.hi.lat b.hi.lon lo hi = (st', new, .returned []) ∧
      (⟨id, tags.flatMap fun t => [t.1, t.2], cs.flatMap fun c => [c.lon, c.lat, 0], []⟩ : Exported ℝ) ∈ new := by
  obtain ⟨N, hN⟩ := C110_text_partial words w hw hB hu hk hrules hm hskip hclip id hcs (fun c hc => on_globe (hmap c hc)) hback hsorted hs he
  refine ⟨N, fun n hn => ?_⟩
  obtain ⟨st', h1, h2⟩ := hN n hn
  obtain ⟨tiles, old, new, b1, -, b3, b4⟩ := h2 q b lo hi hq hb hlo hhi hold happ hloc hlen
  refine ⟨st', new, h1, b3, b4.symm.subset (List.mem_append_right _ (List.mem_map.2 ⟨described w.env.eps id (numbered w.strings tags) cs, ?_, ?_⟩))⟩
  · have := C102_found_partial { w.env with style := wanted w.strings rules } (target := .range ⟨startLod, endLod⟩) (es := [described w.env.eps id (numbered w.strings tags) cs])
      (e := described w.env.eps id (numbered w.strings tags) cs) (by simp) (by rw [SessionProof.described_points]; exact hmap)
      ((matches_iff hbytes (SessionProof.described_tags _ _ _ _) q).2 hmatch) hmeets (r := ⟨lo, hi⟩) ⟨hb, by unfold Supported at hlo; simp only; omega, by
        unfold Supported at hhi; simp only; omega⟩ hl (fun t ht => by
          rw [← ht] at hl'
          exact hl') hst hc b1
    have he : ∀ o : El → Option El, ∀ x, [x].filterMap o = (o x).toList := by
      intro o x
      cases h : o x <;> simp [h]
    simp only [he] at this
    exact this
  · unfold told
    rw [SessionProof.described_id, SessionProof.described_tags, SessionProof.described_places]
    congr 1
    unfold numbered
    rw [List.flatMap_map]
    refine List.flatMap_congr fun t ht => ?_
    simp only
    rw [hback _ (.inr ⟨t, ht, .inl rfl⟩), hback _ (.inr ⟨t, ht, .inr rfl⟩), String.ofList_toList, String.ofList_toList]

/-- C110 is violated for elements which are cut into pieces: a way or an area which matches, of which the tile keeps several pieces which all match, is not found there: what is stored is a relation
without tags. -/
theorem C110_violated_pieces {eng : Clipper.Engine} {style : El → ℤ → ElementStore.StyleInfo} {target : Import.Target} {t : QuadKey} {e e' : El} (hr : ∀ i ts ms, e ≠ .relation i ts ms)
    (h : seen eng style target t e = some e') (h2 : 2 ≤ (ClipperSpec.leaves e').length) {str : UInt32 → Bytes} {q : TextQuery} (hq : Simple q) (hm : q.Matches str e) :
    (∀ l ∈ ClipperSpec.leaves e', q.Matches str l) ∧ ¬ q.Matches str e' := by
  have ht : e'.tags = [] := by
    rcases seen_tags hr h with ⟨-, h3⟩ | h3
    · omega
    · exact h3
  constructor
  · have hcl : Clipper.clip eng (Mercator.tileBox t) e = some e' := by
      unfold seen at h
      split at h
      · split at h
        · exact h
        · cases h
          cases e with
          | relation i ts ms => exact absurd rfl (hr i ts ms)
          | _ => simp [ClipperSpec.leaves] at h2
      · cases h
    intro l hl
    have h3 := (C27_leaves_keep_tags eng _ e e' hr hcl l hl).1
    unfold TextQuery.Matches HasWord at hm ⊢
    rw [h3]
    exact hm
  · have hno : ∀ x, ¬ HasWord str e' x := by
      rintro x ⟨y, hy, -⟩
      rw [ht] at hy
      cases hy
    rintro ⟨m1, m2, -⟩
    rcases hq.1 with hx | ⟨x, hx⟩
    · obtain ⟨x, -, h4⟩ := m1 hx
      exact hno x h4
    · exact hno x (m2 x hx)

namespace SessionTextProof.Sample
open LoadTileProof.Sample (strings node css rule reads accepted back mentions)
open SessionProof.Sample

/-- The bytes of the texts `a` and `b`. -/
def words : Strings := ⟨fun i => if i = 0 then [97] else if i = 1 then [98] else [], fun x => if x = [97] then 0 else if x = [98] then 1 else 2⟩

def bytes (s : String) : Bytes := if s = "a" then [97] else if s = "b" then [98] else []

theorem node_has (x : Bytes) : HasWord words.str node x ↔ x = [97] ∨ x = [98] := by
  have h1 : IsWord (words.str 0) x ↔ x = [97] := by
    rw [isWord_iff]
    have : BitmapIndex.splitTokens [] (words.str 0) = [[97]] := by decide
    rw [this]; simp
  have h2 : IsWord (words.str 1) x ↔ x = [98] := by
    rw [isWord_iff]
    have : BitmapIndex.splitTokens [] (words.str 1) = [[98]] := by decide
    rw [this]; simp
  simp [HasWord, node, Element.tags, h1, h2]

end SessionTextProof.Sample
open SessionTextProof.Sample SessionProof.Sample in
/-- The node with the tag `a=b` at (0, 0) is added through the API to an empty store, then the word `a` is searched for: the node is told. -/
example (env : Import.Env) (elevation : QuadKey → Geo ℝ → ℝ) :
    let w := world (elementTokens words) env elevation
    ∃ n st' new, Session.addElement { w with depth := n } ⟨[], stores (elementTokens words)⟩ 5 path 1 [0, 0] ["a", "b"] 1 1 = (st', .returned []) ∧
      getDataByText words w st' [] [97] [] (-1) (-1) 1 1 1 1 = (st', new, .returned []) ∧ (⟨1, ["a", "b"], [0, 0, 0], []⟩ : Exported ℝ) ∈ new := by
  intro w
  obtain ⟨w1, w2, w3⟩ := word_words
  have hd : described env.eps 1 (numbered LoadTileProof.Sample.strings [("a", "b")]) [⟨0, 0⟩] = LoadTileProof.Sample.node := node_described env.eps
  have hcov : Covered LoadTileProof.Sample.node ⟨0, 0⟩ := fun b hb => hb _ (by simp [LoadTileProof.Sample.node, ClipperSpec.points, ClipperSpec.leaves, ClipperSpec.coords])
  obtain ⟨N, hN⟩ := C110_found_partial words bytes w rfl (st := ⟨[], stores (elementTokens words)⟩) (stores_abs (elementTokens words)) (used (elementTokens words)) (k := 5) (s := MemStore.init) rfl (path := path)
    (.inr ⟨rfl, written (elementTokens words) env elevation⟩) LoadTileProof.Sample.mentions (by decide) (by decide) 1 (cs := [⟨0, 0⟩]) (by simp) (by
      intro c hc
      rw [List.mem_singleton.1 hc]
      have : 0 ≤ 180 / Real.pi * Real.arctan (Real.sinh Real.pi) :=
        mul_nonneg (by positivity) (Real.arctan_nonneg.2 (Real.sinh_nonneg_iff.2 Real.pi_pos.le))
      refine ⟨by norm_num, by norm_num, ?_, ?_⟩ <;> simp only <;> linarith) (tags := [("a", "b")]) (by
      rintro s (hs | ⟨t, ht, hs⟩)
      · exact LoadTileProof.Sample.back s hs
      · rw [List.mem_singleton.1 ht] at hs
        rcases hs with rfl | rfl
        · exact LoadTileProof.Sample.back _ (by decide)
        · exact LoadTileProof.Sample.back _ (by decide)) (List.pairwise_singleton _ _) (startLod := 1) (endLod := 1) (by unfold Supported; decide) (by unfold Supported; decide)
    (by
      intro t ht
      rw [List.mem_singleton.1 ht]
      exact ⟨(by decide : words.str (LoadTileProof.Sample.strings.getId "a".toList) = bytes "a"), (by decide : words.str (LoadTileProof.Sample.strings.getId "b".toList) = bytes "b")⟩) (q := word) ⟨.inr ⟨[97], (w3 _).2 rfl⟩, fun h => h.1.elim w1⟩
    ⟨fun ⟨x, hx⟩ => absurd hx (w1 x), fun x hx => ⟨("a", "b"), by simp, .inl (by
      rw [(w3 x).1 hx, isWord_iff]
      decide)⟩, fun x hx => absurd hx (w2 x)⟩ (b := ⟨⟨-1, -1⟩, ⟨1, 1⟩⟩) (by simp [Bbox.isValid]) (lo := 1) (hi := 1) (by unfold Supported; decide) (by unfold Supported; decide)
    (by
      rintro t e ⟨l, h1, h2⟩
      cases h1
      cases h2) (by
      show FindTextSpec.Apart words word (described env.eps 1 (numbered LoadTileProof.Sample.strings [("a", "b")]) [⟨0, 0⟩])
      rw [hd]
      intro x y hx hy hxy
      rcases hx with h | h | h
      · exact absurd h (w2 x)
      · rw [w3] at h; subst h
        rcases (node_has y).1 hy with rfl | rfl
        · rfl
        · exact absurd hxy (by decide)
      · exact absurd h (w1 x)) (by
      show ∀ t e, seen env.eng (wanted LoadTileProof.Sample.strings _) _ t (described env.eps 1 (numbered LoadTileProof.Sample.strings [("a", "b")]) [⟨0, 0⟩]) = some e → Located e
      rw [hd]
      intro t e h
      have : e = LoadTileProof.Sample.node := by
        unfold seen at h
        split at h
        · split at h
          · simp only [LoadTileProof.Sample.node, Clipper.clip] at h
            split at h
            · cases h; rfl
            · cases h
          · cases h; rfl
        · cases h
      rw [this]
      refine ⟨by simp [LoadTileProof.Sample.node, ClipperSpec.points, ClipperSpec.leaves, ClipperSpec.coords], fun p hp => ?_⟩
      simp only [LoadTileProof.Sample.node, ClipperSpec.points, ClipperSpec.leaves, ClipperSpec.coords, List.flatMap_cons, List.flatMap_nil, List.append_nil, List.mem_singleton] at hp
      subst hp
      constructor <;> norm_num) (fun ⟨x, hx⟩ => absurd hx (w2 x)) (l := 1) ⟨le_rfl, le_rfl⟩ ⟨le_rfl, le_rfl⟩ (by
      show MeetsBox (described env.eps 1 (numbered LoadTileProof.Sample.strings [("a", "b")]) [⟨0, 0⟩]) _
      rw [hd]
      exact ⟨_, hcov, by refine ⟨?_, ?_, ?_, ?_⟩ <;> norm_num⟩) (by
      show Styled (wanted LoadTileProof.Sample.strings _ (described env.eps 1 (numbered LoadTileProof.Sample.strings [("a", "b")]) [⟨0, 0⟩]) 1)
      rw [hd, node_wanted]
      exact ⟨rfl, rfl⟩) (by
      show (wanted LoadTileProof.Sample.strings _ (described env.eps 1 (numbered LoadTileProof.Sample.strings [("a", "b")]) [⟨0, 0⟩]) 1).clip = false
      rw [hd, node_wanted])
  obtain ⟨st', new, h1, h2, h3⟩ := hN N le_rfl
  exact ⟨N, st', new, h1, h2, h3⟩

/-- A way with a vertex in the tile and one outside, of which a clipping library leaves two pieces, is seen in two pieces: `C110_violated_pieces` is about a real case. -/
example : ∃ (eng : Clipper.Engine) (t : QuadKey) (e e' : El), (∀ i ts ms, e ≠ .relation i ts ms) ∧ seen eng (fun _ _ => ⟨false, false, true⟩) (.range ⟨1, 1⟩) t e = some e' ∧
    2 ≤ (ClipperSpec.leaves e').length ∧ word.Matches letters.str e := by
  have e0 : Mercator.tileYToLat 1 1 = 0 := by
    simp only [Mercator.tileYToLat, Mercator.sinh_half]; norm_num
  have e1 : Mercator.tileYToLat 2 1 < 0 := by
    rw [Mercator.tileYToLat_lt_iff (by norm_num)]
    have h2 := Mercator.row_tileYToLat 1 1
    rw [e0] at h2
    rw [h2]; norm_num
  have x0 : Mercator.tileXToLon 1 1 = 0 := by simp only [Mercator.tileXToLon]; norm_num
  have x1 : Mercator.tileXToLon 2 1 = 180 := by simp only [Mercator.tileXToLon]; norm_num
  have hbox : Mercator.tileBox ⟨1, 1, 1⟩ = ⟨⟨Mercator.tileYToLat 2 1, 0⟩, ⟨0, 180⟩⟩ := by
    simp only [Mercator.tileBox]
    norm_num [e0, x0, x1]
  have in1 : (Mercator.tileBox ⟨1, 1, 1⟩).containsPoint ⟨Mercator.tileYToLat 2 1 / 2, 1⟩ = true :=
    ((C14_contains (Mercator.tileBox ⟨1, 1, 1⟩) (Mercator.tileBox ⟨1, 1, 1⟩) _ ⟨0, 0⟩ []).1).2 (by
      rw [hbox]
      refine ⟨?_, ?_, ?_, ?_⟩ <;> simp only <;> linarith)
  have in2 : (Mercator.tileBox ⟨1, 1, 1⟩).containsPoint ⟨1, 1⟩ = false := by
    rw [← Bool.not_eq_true, (C14_contains (Mercator.tileBox ⟨1, 1, 1⟩) (Mercator.tileBox ⟨1, 1, 1⟩) _ ⟨0, 0⟩ []).1, hbox]
    rintro ⟨-, h, -⟩
    simp only at h
    linarith
  refine ⟨fun _ _ _ => [[(0, 0), (1, 1)], [(2, 2), (3, 3)]], ⟨1, 1, 1⟩, .way 7 [⟨97, 98⟩] [⟨Mercator.tileYToLat 2 1 / 2, 1⟩, ⟨1, 1⟩],
    .relation 7 [] [.way 0 [⟨97, 98⟩] [Clipper.ofInt (0, 0), Clipper.ofInt (1, 1)], .way 0 [⟨97, 98⟩] [Clipper.ofInt (2, 2), Clipper.ofInt (3, 3)]], by simp, ?_, by
      simp [ClipperSpec.leaves, ClipperSpec.leavesAll], nodeA_fine.2.2⟩
  unfold seen
  rw [if_pos, if_pos rfl]
  · simp [Clipper.clip, Clipper.clipElement, Clipper.checkElement, in1, in2]
  · refine ⟨⟨le_rfl, le_rfl⟩, ⟨rfl, rfl⟩, by unfold TilesSpec.Valid; decide, ⟨Mercator.tileYToLat 2 1 / 2, 1⟩, ?_, ?_⟩
    · intro b hb
      exact hb _ (by simp [ClipperSpec.points, ClipperSpec.leaves, ClipperSpec.coords])
    · simp only [Owns, hbox]
      refine ⟨by norm_num, .inl (by norm_num), by linarith, .inl (by linarith)⟩

end Verif.Props
