import Verif.Props.ElementStoreSpec
import Verif.Props.Clipper
import Verif.Props.Mercator
import Verif.Proof.TileCenters

/-! # C19: storing an element in tiles -/
namespace Verif.Props
open Verif.Clipper Verif.ClipperSpec Verif.BboxSpec Verif.TilesSpec Verif.MercatorSpec Verif.ElementStore Verif.ElementStoreSpec
open Verif.Mercator (visitTileRange tileBox)

theorem expandAll_append (b : Bbox ℝ) (xs ys : List (Geo ℝ)) : b.expandAll (xs ++ ys) = (b.expandAll xs).expandAll ys := by
  induction xs generalizing b with
  | nil => rfl
  | cons x xs ih => exact ih _

mutual
theorem expandElement_eq (b : Bbox ℝ) (e : Clipper.El) : expandElement b e = b.expandAll (points e) := by
  match e with
  | .node i t c => simp [expandElement, points, leaves, coords, Bbox.expandAll]
  | .way i t cs => simp [expandElement, points, leaves, coords]
  | .area i t cs => simp [expandElement, points, leaves, coords]
  | .relation i t ms => rw [expandElement, expandElements_eq b ms]; rfl

theorem expandElements_eq (b : Bbox ℝ) (ms : List Clipper.El) : expandElements b ms = b.expandAll ((leavesAll ms).flatMap coords) := by
  match ms with
  | [] => rfl
  | m :: ms =>
    rw [expandElements, expandElement_eq b m, expandElements_eq _ ms, leavesAll, List.flatMap_append, expandAll_append]
    rfl
end

theorem covered_iff {e : Clipper.El} (h : Located e) (p : Geo ℝ) : Covered e p ↔ In (expandElement Bbox.empty e) p := by
  obtain ⟨⟨s1, s2⟩, -⟩ := C14_expand_is_smallest_cover (points e) h.2 h.1
  rw [expandElement_eq]
  exact ⟨fun hc => hc _ s1, fun hp b hb => s2 b hb p hp⟩

theorem box_valid {e : Clipper.El} (h : Located e) : (expandElement Bbox.empty e).isValid = true := by
  rw [expandElement_eq]; exact (C14_expand_is_smallest_cover (points e) h.2 h.1).2

section fold
variable (eng : Engine) (style : ℤ → StyleInfo) (accept : Bbox ℝ → Bbox ℝ → Bool) (e : Clipper.El)

/-- What is saved in a tile which is accepted. -/
noncomputable def tileSaves (st : StyleInfo) (box : Bbox ℝ) (q : QuadKey) : List (QuadKey × Clipper.El) :=
  if accept box (tileBox q) then
    if st.clip then (Clipper.clip eng (tileBox q) e).toList.map fun e' => (q, e') else [(q, e)]
  else []

theorem foldTiles (st : StyleInfo) (box : Bbox ℝ) (qs : List QuadKey) (s : State) :
    qs.foldl (storeTile eng st accept box e) s =
      ⟨s.saves ++ qs.flatMap (tileSaves eng accept e st box), s.wasStored || qs.any fun q => accept box (tileBox q)⟩ := by
  induction qs generalizing s with
  | nil => simp
  | cons q qs ih =>
    rw [List.foldl_cons, ih]
    unfold storeTile tileSaves
    by_cases ha : accept box (tileBox q) = true
    · by_cases hc : st.clip = true <;> simp [ha, hc]
    · simp [ha]

theorem foldLods (ls : List ℤ) (s : State) :
    ls.foldl (storeLod eng style accept e) s =
      ⟨s.saves ++ (ls.filter fun l => !((style l).empty || (style l).skip)).flatMap fun l =>
          (visitTileRange (expandElement Bbox.empty e) l).flatMap (tileSaves eng accept e (style l) (expandElement Bbox.empty e)),
        s.wasStored || (ls.filter fun l => !((style l).empty || (style l).skip)).any fun l =>
          (visitTileRange (expandElement Bbox.empty e) l).any fun q => accept (expandElement Bbox.empty e) (tileBox q)⟩ := by
  induction ls generalizing s with
  | nil => simp
  | cons l ls ih =>
    rw [List.foldl_cons, ih]
    unfold storeLod
    by_cases h : ((style l).empty || (style l).skip) = true
    · simp only [h, if_true]
      rw [List.filter_cons_of_neg (by simp [h])]
    · simp only [h]
      rw [List.filter_cons_of_pos (by simp [h])]
      simp [foldTiles, Bool.or_assoc]

theorem visit_lod {b : Bbox ℝ} {l : ℤ} {q : QuadKey} (h : q ∈ visitTileRange b l) : q.lod = l := ((mem_visit b l q).1 h).2.1

/-- The shape saved for a tile. -/
def Shape (st : StyleInfo) (q : QuadKey) (e' : Clipper.El) : Prop :=
  (st.clip = true → Clipper.clip eng (tileBox q) e = some e') ∧ (st.clip = false → e' = e)

theorem mem_tileSaves (st : StyleInfo) (box : Bbox ℝ) (q q' : QuadKey) (e' : Clipper.El) :
    (q', e') ∈ tileSaves eng accept e st box q ↔ q' = q ∧ accept box (tileBox q) = true ∧ Shape eng e st q e' := by
  unfold tileSaves Shape
  by_cases ha : accept box (tileBox q) = true
  · by_cases hc : st.clip = true
    · simp only [ha, hc, if_true, List.mem_map, Option.mem_toList, Prod.mk.injEq]
      constructor
      · rintro ⟨a, h1, h2, rfl⟩; exact ⟨h2.symm, trivial, fun _ => h1, by simp⟩
      · rintro ⟨rfl, -, h, -⟩; exact ⟨e', h trivial, rfl, rfl⟩
    · simp only [Bool.not_eq_true] at hc
      simp [ha, hc]
  · simp [ha]

theorem mem_store (range : LodRange) (q : QuadKey) (e' : Clipper.El) :
    (q, e') ∈ (store eng style accept e range).saves ↔
      (range.start ≤ q.lod ∧ q.lod ≤ range.stop) ∧ Styled (style q.lod) ∧
      q ∈ visitTileRange (expandElement Bbox.empty e) q.lod ∧ accept (expandElement Bbox.empty e) (tileBox q) = true ∧
      Shape eng e (style q.lod) q e' := by
  unfold store
  rw [foldLods]
  simp only [List.nil_append, List.mem_flatMap, List.mem_filter, LodRange.lods, mem_intRange, mem_tileSaves, Styled]
  constructor
  · rintro ⟨l, ⟨h1, h2⟩, q', h3, rfl, h4, h5⟩
    obtain rfl := visit_lod h3
    exact ⟨h1, by simpa using h2, h3, h4, h5⟩
  · rintro ⟨h1, h2, h3, h4, h5⟩
    exact ⟨q.lod, ⟨h1, by simp [h2.1, h2.2]⟩, q, h3, rfl, h4, h5⟩

theorem wasStored_iff (range : LodRange) :
    (store eng style accept e range).wasStored = true ↔
      ∃ q : QuadKey, (range.start ≤ q.lod ∧ q.lod ≤ range.stop) ∧ Styled (style q.lod) ∧
      q ∈ visitTileRange (expandElement Bbox.empty e) q.lod ∧ accept (expandElement Bbox.empty e) (tileBox q) = true := by
  unfold store
  rw [foldLods]
  simp only [Bool.false_or, List.any_eq_true, List.mem_filter, LodRange.lods, mem_intRange, Styled]
  constructor
  · rintro ⟨l, ⟨h1, h2⟩, q', h3, h4⟩
    obtain rfl := visit_lod h3
    exact ⟨q', h1, by simpa using h2, h3, h4⟩
  · rintro ⟨q, h1, h2, h3, h4⟩
    exact ⟨q.lod, ⟨h1, by simp [h2.1, h2.2]⟩, q, h3, h4⟩

theorem tileSaves_keys (st : StyleInfo) (box : Bbox ℝ) (q : QuadKey) :
    ((tileSaves eng accept e st box q).map Prod.fst).Nodup := by
  unfold tileSaves
  split
  · split
    · cases Clipper.clip eng (tileBox q) e <;> simp
    · simp
  · simp

/-- C19: an element is saved at most once in each tile. -/
theorem C19_once_per_tile (range : LodRange) : ((store eng style accept e range).saves.map Prod.fst).Nodup := by
  unfold store
  rw [foldLods]
  simp only [List.nil_append, List.map_flatMap]
  rw [List.nodup_flatMap]
  have hkey : ∀ (l : ℤ) (q q' : QuadKey),
      q' ∈ (tileSaves eng accept e (style l) (expandElement Bbox.empty e) q).map Prod.fst → q' = q := by
    intro l q q' h
    obtain ⟨⟨a, b⟩, h1, rfl⟩ := List.mem_map.1 h
    exact ((mem_tileSaves ..).1 h1).1
  constructor
  · intro l _
    rw [List.nodup_flatMap]
    refine ⟨fun q _ => tileSaves_keys .., ?_⟩
    refine (C13_no_duplicates _ _).imp ?_
    intro q q' hne
    simp only [Function.onFun, List.disjoint_left]
    intro a ha hb
    exact hne ((hkey _ _ _ ha).symm.trans (hkey _ _ _ hb))
  · refine ((nodup_intRange range.start range.stop).filter _).imp ?_
    intro l l' hne
    simp only [Function.onFun, List.disjoint_left, List.mem_flatMap]
    rintro a ⟨q, h1, h2⟩ ⟨q', h3, h4⟩
    obtain rfl := hkey _ _ _ h2
    obtain rfl := hkey _ _ _ h4
    exact hne ((visit_lod h1).symm.trans (visit_lod h3))

end fold

theorem visit_meets {e : Clipper.El} (h : Located e) (q : QuadKey) (h1 : 0 ≤ q.lod) (h2 : q.lod ≤ 19) :
    q ∈ visitTileRange (expandElement Bbox.empty e) q.lod ↔ Meets e q := by
  rw [C13_visits_owners_partial _ (box_valid h) q.lod h1 h2]
  simp only [Meets, covered_iff h, true_and]

theorem intersects_iff {e : Clipper.El} (h : Located e) (b : Bbox ℝ) (hb : b.isValid = true) :
    (expandElement Bbox.empty e).intersects b = true ↔ MeetsBox e b := by
  rw [(C14_intersects _ b).2 (box_valid h) hb]
  simp only [MeetsBox, covered_iff h]

/-- C19 (partial, for the tile borders see `C13_violated_border`): adding an element with a lod range saves it in exactly the tiles of
the lods of the range with a style which own a point of its bounding box; the saved shape is the clipped element where the style
asks for clipping and the element itself elsewhere. -/
theorem C19_store_range_partial (eng : Engine) (style : ℤ → StyleInfo) (e : Clipper.El) (he : Located e) (range : LodRange)
    (hr : 0 ≤ range.start ∧ range.stop ≤ 19) (q : QuadKey) (e' : Clipper.El) :
    (q, e') ∈ (storeRange eng style e range).saves ↔
      (range.start ≤ q.lod ∧ q.lod ≤ range.stop) ∧ Styled (style q.lod) ∧ Meets e q ∧
      ((style q.lod).clip = true → clip eng (tileBox q) e = some e') ∧ ((style q.lod).clip = false → e' = e) := by
  unfold storeRange
  rw [mem_store]
  constructor
  · rintro ⟨h1, h2, h3, -, h5⟩
    exact ⟨h1, h2, (visit_meets he q (by omega) (by omega)).1 h3, h5⟩
  · rintro ⟨h1, h2, h3, h5⟩
    exact ⟨h1, h2, (visit_meets he q (by omega) (by omega)).2 h3, rfl, h5⟩

/-- C19: the result says whether there is such a tile (its shape may still be clipped away). -/
theorem C19_result_partial (eng : Engine) (style : ℤ → StyleInfo) (e : Clipper.El) (he : Located e) (range : LodRange)
    (hr : 0 ≤ range.start ∧ range.stop ≤ 19) :
    (storeRange eng style e range).wasStored = true ↔
      ∃ q : QuadKey, (range.start ≤ q.lod ∧ q.lod ≤ range.stop) ∧ Styled (style q.lod) ∧ Meets e q := by
  unfold storeRange
  rw [wasStored_iff]
  constructor
  · rintro ⟨q, h1, h2, h3, -⟩
    exact ⟨q, h1, h2, (visit_meets he q (by omega) (by omega)).1 h3⟩
  · rintro ⟨q, h1, h2, h3⟩
    exact ⟨q, h1, h2, (visit_meets he q (by omega) (by omega)).2 h3, rfl⟩

/-- C19 (partial, as before): the variant with a box saves only if the bounding box of the element meets this box. -/
theorem C19_store_in_box_partial (eng : Engine) (style : ℤ → StyleInfo) (e : Clipper.El) (he : Located e) (b : Bbox ℝ)
    (hb : b.isValid = true) (range : LodRange) (hr : 0 ≤ range.start ∧ range.stop ≤ 19) :
    (∀ q e', (q, e') ∈ (storeInBox eng style e b range).saves ↔ MeetsBox e b ∧ (q, e') ∈ (storeRange eng style e range).saves) ∧
    ((storeInBox eng style e b range).wasStored = true ↔ MeetsBox e b ∧ (storeRange eng style e range).wasStored = true) := by
  constructor
  · intro q e'
    unfold storeInBox storeRange
    rw [mem_store, mem_store, ← intersects_iff he b hb]
    simp only [acceptBox, acceptAll]
    tauto
  · unfold storeInBox storeRange
    rw [wasStored_iff, wasStored_iff, ← intersects_iff he b hb]
    simp only [acceptBox, acceptAll]
    constructor
    · rintro ⟨q, h1, h2, h3, h4⟩; exact ⟨h4, q, h1, h2, h3, trivial⟩
    · rintro ⟨h4, q, h1, h2, h3, -⟩; exact ⟨q, h1, h2, h3, h4⟩

theorem accept_iff {e : Clipper.El} (he : Located e) {q q' : QuadKey} (hq : Valid q) (h1 : q.lod ≤ 19) (hl : q'.lod = q.lod)
    (hv : q' ∈ visitTileRange (expandElement Bbox.empty e) q'.lod) :
    acceptTile q (expandElement Bbox.empty e) (tileBox q') = true ↔ q' = q := by
  have h0 : 0 ≤ q.lod := hq.1
  constructor
  · intro h
    simp only [acceptTile, Bool.and_eq_true] at h
    exact Mercator.center_inj hq ((visit_meets he q' (by omega) (by omega)).1 hv).1 hl h1 h.2
  · rintro rfl
    simp only [acceptTile, Bool.and_eq_true]
    exact ⟨((mem_visit _ _ _).1 hv).2.2.2.2.2.2, Mercator.geo_eq_refl _⟩

/-- C19 (partial, as before): the variant with a tile saves in this tile only, as the variant with the range of its lod would. A lod
out of range throws. -/
theorem C19_store_in_tile_partial (eng : Engine) (style : ℤ → StyleInfo) (e : Clipper.El) (he : Located e) (q : QuadKey) (hq : Valid q) :
    (1 ≤ q.lod → q.lod ≤ 19 → ∃ s, storeInTile eng style e q = .ok s ∧
      (∀ q' e', (q', e') ∈ s.saves ↔ q' = q ∧ Styled (style q.lod) ∧ Meets e q ∧
        ((style q.lod).clip = true → clip eng (tileBox q) e = some e') ∧ ((style q.lod).clip = false → e' = e)) ∧
      (s.wasStored = true ↔ Styled (style q.lod) ∧ Meets e q)) ∧
    (¬ (1 ≤ q.lod ∧ q.lod ≤ 19) → storeInTile eng style e q = .throw "domain_error") := by
  constructor
  · intro h1 h2
    have hm : LodRange.make q.lod q.lod = .ok ⟨q.lod, q.lod⟩ := by
      rw [LodRange.make, if_neg]; simp only [minLod, maxLod]; omega
    refine ⟨_, by rw [storeInTile, hm], ?_, ?_⟩
    · intro q' e'
      rw [mem_store]
      constructor
      · rintro ⟨a1, a2, a3, a4, a5⟩
        have hl : q'.lod = q.lod := by simp only at a1; omega
        obtain rfl := (accept_iff he hq h2 hl a3).1 a4
        exact ⟨rfl, a2, (visit_meets he q' (by omega) h2).1 a3, a5⟩
      · rintro ⟨rfl, a2, a3, a5⟩
        have a3' := (visit_meets he q' (by omega) h2).2 a3
        exact ⟨⟨le_rfl, le_rfl⟩, a2, a3', (accept_iff he hq h2 rfl a3').2 rfl, a5⟩
    · rw [wasStored_iff]
      constructor
      · rintro ⟨q', a1, a2, a3, a4⟩
        have hl : q'.lod = q.lod := by simp only at a1; omega
        obtain rfl := (accept_iff he hq h2 hl a3).1 a4
        exact ⟨a2, (visit_meets he q' (by omega) h2).1 a3⟩
      · rintro ⟨a2, a3⟩
        have a3' := (visit_meets he q (by omega) h2).2 a3
        exact ⟨q, ⟨le_rfl, le_rfl⟩, a2, a3', (accept_iff he hq h2 rfl a3').2 rfl⟩
  · intro h
    rw [storeInTile, LodRange.make, if_pos]
    simp only [minLod, maxLod]; omega

/-- C19: an element without coordinates is saved nowhere and the result says so. -/
theorem C19_no_coordinates (eng : Engine) (style : ℤ → StyleInfo) (accept : Bbox ℝ → Bbox ℝ → Bool) (e : Clipper.El)
    (h : points e = []) (range : LodRange) :
    (store eng style accept e range).saves = [] ∧ (store eng style accept e range).wasStored = false := by
  have hv : ∀ l, visitTileRange (expandElement Bbox.empty e) l = [] := by
    intro l
    apply C13_invalid_box
    rw [expandElement_eq, h]
    simp [Bbox.expandAll, Bbox.empty, Bbox.isValid]
  constructor
  · apply List.eq_nil_iff_forall_not_mem.2
    rintro ⟨q, e'⟩ hm
    rw [mem_store, hv] at hm
    simp at hm
  · rw [← Bool.not_eq_true, wasStored_iff]
    rintro ⟨q, h1, h2, h3, h4⟩
    rw [hv] at h3
    simp at h3

theorem clip_two_outside (eng : Engine) (q : QuadKey) (i : UInt64) (t : List Tag) (a b : Geo ℝ)
    (ha : ¬ Inside (tileBox q) a) (hb : ¬ Inside (tileBox q) b) : clip eng (tileBox q) (.way i t [a, b]) = none := by
  have hc : ∀ {c : Geo ℝ}, ¬ Inside (tileBox q) c → (tileBox q).containsPoint c = false := by
    intro c h
    rw [← Bool.not_eq_true]
    exact fun hh => h (((C14_contains (tileBox q) (tileBox q) c c []).1).1 hh)
  simp [clip, clipElement, checkElement, hc ha, hc hb]

theorem tile110 : (tileBox ⟨1, 1, 0⟩).lo = ⟨0, 0⟩ ∧ (tileBox ⟨1, 1, 0⟩).hi.lon = 180 ∧ 60 ≤ (tileBox ⟨1, 1, 0⟩).hi.lat := by
  have e0 : Mercator.tileYToLat 1 1 = 0 := by
    simp only [Mercator.tileYToLat, Mercator.sinh_half]; norm_num
  have e1 : 60 ≤ Mercator.tileYToLat 0 1 := by
    rw [Mercator.le_tileYToLat_iff (by norm_num)]
    have := (Mercator.row_range (a := 60) (by unfold Mercator.latLimit; norm_num) (by unfold Mercator.latLimit; norm_num)).1
    simp only [Int.cast_zero]; positivity
  refine ⟨?_, ?_, ?_⟩
  · simp only [tileBox, zero_add, e0, Mercator.tileXToLon]; norm_num
  · simp only [tileBox, Mercator.tileXToLon]; norm_num
  · simpa only [tileBox] using e1

/-- C19 is violated through the clipper: a way from (60, -10) to (-10, 60) crosses the north-eastern tile of lod 1, the middle point
(25, 25) lies inside it, the result is true, but with clipping the way is not saved in this tile whatever the library returns. -/
theorem C19_violated_crossing_way (eng : Engine) :
    let e : Clipper.El := .way 1 [] [⟨60, -10⟩, ⟨-10, 60⟩]
    let s := storeRange eng (fun _ => ⟨false, false, true⟩) e ⟨1, 1⟩
    Located e ∧ Meets e ⟨1, 1, 0⟩ ∧ Inside (tileBox ⟨1, 1, 0⟩) ⟨(60 + -10) / 2, (-10 + 60) / 2⟩ ∧ s.wasStored = true ∧
    ∀ e', ((⟨1, 1, 0⟩ : QuadKey), e') ∉ s.saves := by
  intro e s
  obtain ⟨t1, t2, t3⟩ := tile110
  have hpts : points e = [⟨60, -10⟩, ⟨-10, 60⟩] := by simp [e, points, leaves, coords]
  have hl : Located e := by
    rw [Located, hpts]
    refine ⟨by simp, ?_⟩
    intro p hp
    simp only [List.mem_cons, List.not_mem_nil, or_false] at hp
    rcases hp with rfl | rfl <;> (unfold OnGlobe; norm_num)
  have hm : Meets e ⟨1, 1, 0⟩ := by
    refine ⟨by unfold Valid; decide, ⟨25, 25⟩, ?_, ?_⟩
    · intro b hb
      rw [hpts] at hb
      obtain ⟨a1, a2, a3, a4⟩ := hb ⟨60, -10⟩ (by simp)
      obtain ⟨b1, b2, b3, b4⟩ := hb ⟨-10, 60⟩ (by simp)
      simp only at *
      exact ⟨by simp only; linarith, by simp only; linarith, by simp only; linarith, by simp only; linarith⟩
    · simp only [Owns, t1, t2]
      exact ⟨by norm_num, .inl (by norm_num), by linarith, .inl (by norm_num)⟩
  refine ⟨hl, hm, ?_, ?_, ?_⟩
  · simp only [Inside, t1, t2]
    exact ⟨by norm_num, by linarith, by norm_num, by norm_num⟩
  · exact (C19_result_partial eng _ e hl ⟨1, 1⟩ ⟨by simp, by simp⟩).2 ⟨⟨1, 1, 0⟩, ⟨le_rfl, le_rfl⟩, ⟨rfl, rfl⟩, hm⟩
  · intro e' h
    have h5 := ((C19_store_range_partial eng _ e hl ⟨1, 1⟩ ⟨by simp, by simp⟩ _ _).1 h).2.2.2.1 rfl
    rw [clip_two_outside] at h5
    · cases h5
    · rintro ⟨-, -, h, -⟩; rw [t1] at h; norm_num at h
    · rintro ⟨h, -⟩; rw [t1] at h; norm_num at h

/-- A node is saved in its tile of lod 1, and also if only this tile is asked for; with a style that skips it is not. -/
example (eng : Engine) : let e : Clipper.El := .node 1 [] ⟨52.52, 13.4⟩
    Located e ∧ Meets e ⟨1, 1, 0⟩ ∧
    ((⟨1, 1, 0⟩ : QuadKey), e) ∈ (storeRange eng (fun _ => ⟨false, false, false⟩) e ⟨1, 1⟩).saves ∧
    (∃ s, storeInTile eng (fun _ => ⟨false, false, false⟩) e ⟨1, 1, 0⟩ = .ok s ∧ ((⟨1, 1, 0⟩ : QuadKey), e) ∈ s.saves) ∧
    ((⟨1, 1, 0⟩ : QuadKey), e) ∉ (storeRange eng (fun _ => ⟨false, true, false⟩) e ⟨1, 1⟩).saves := by
  intro e
  obtain ⟨t1, t2, t3⟩ := tile110
  have hpts : points e = [⟨52.52, 13.4⟩] := by simp [e, points, leaves, coords]
  have hl : Located e := by
    rw [Located, hpts]
    refine ⟨by simp, ?_⟩
    intro p hp
    simp only [List.mem_singleton] at hp
    subst hp; unfold OnGlobe; norm_num
  have hm : Meets e ⟨1, 1, 0⟩ := by
    refine ⟨by unfold Valid; decide, ⟨52.52, 13.4⟩, ?_, ?_⟩
    · intro b hb
      exact hb _ (by rw [hpts]; simp)
    · simp only [Owns, t1, t2]
      exact ⟨by norm_num, .inl (by norm_num), by linarith, .inl (by norm_num)⟩
  refine ⟨hl, hm, ?_, ?_, ?_⟩
  · rw [C19_store_range_partial eng _ e hl ⟨1, 1⟩ ⟨by simp, by simp⟩]
    exact ⟨⟨le_rfl, le_rfl⟩, ⟨rfl, rfl⟩, hm, fun h => by simp at h, fun _ => rfl⟩
  · obtain ⟨s, h1, h2, -⟩ := (C19_store_in_tile_partial eng (fun _ => ⟨false, false, false⟩) e hl ⟨1, 1, 0⟩ hm.1).1
      (by norm_num) (by norm_num)
    exact ⟨s, h1, (h2 _ _).2 ⟨rfl, ⟨rfl, rfl⟩, hm, fun h => by simp at h, fun _ => rfl⟩⟩
  · rw [C19_store_range_partial eng _ e hl ⟨1, 1⟩ ⟨by simp, by simp⟩]
    rintro ⟨-, ⟨-, h⟩, -⟩
    simp at h

end Verif.Props
