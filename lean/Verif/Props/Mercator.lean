import Verif.Props.MercatorSpec
import Verif.Proof.Mercator
import Verif.Props.Bbox
import Mathlib.Tactic.Linarith

namespace Verif.Props
open Verif.Mercator Verif.MercatorSpec Verif.BboxSpec Verif.TilesSpec
open Real

/-- C12: for every coordinate and lod the computed tile is a valid tile of that lod, and its bounding
box contains the clamped coordinate (the north and west borders included, the others excluded). -/
theorem C12_coordinate_in_its_tile (c : Geo ℝ) (lod : ℤ) (h : 0 ≤ lod) :
    let q := toQuadKey c lod
    q.lod = lod ∧ Valid q ∧ In (tileBox q) (clampGeo c) ∧
    (clampGeo c).lon < (tileBox q).hi.lon ∧ (tileBox q).lo.lat < (clampGeo c).lat := by
  intro q
  have hlat := clampLat_range c
  have hlat' := clampLat_range' c
  have hlon := clampLon_range c
  have hx := floor_in_range (t := ((clampGeo c).lon + 180) / 360) (by norm_num at hlon ⊢; linarith)
    (by norm_num at hlon ⊢; linarith) lod h
  have hrow := row_range hlat.1 hlat.2
  have hy := floor_in_range hrow.1 hrow.2 lod h
  have gx := (lonToTileX_iff (clampGeo c).lon q.x lod).1 rfl
  have gy := (latToTileY_iff hlat' q.y lod).1 rfl
  exact ⟨rfl, ⟨h, hx.1, hx.2, hy.1, hy.2⟩, ⟨gy.1.le, gy.2, gx.1, gx.2.le⟩, gx.2, gy.1⟩

/-- Coordinates inside the clamping limits are not moved, so their own tile contains them. -/
theorem C12_no_clamping (c : Geo ℝ) (h1 : |c.lat| ≤ 85.05112877) (h2 : |c.lon| ≤ 179.9999999) :
    clampGeo c = c := by
  rw [abs_le] at h1 h2
  unfold clampGeo
  rw [clamp_id h1.1 h1.2, clamp_id h2.1 h2.2]

theorem tileYToLat_zero (lod : ℤ) : tileYToLat 0 lod = 180 / π * arctan (sinh π) := by
  simp [tileYToLat, sinh_half]

theorem tileYToLat_last (n : ℕ) : tileYToLat (2 ^ n) n = -(180 / π * arctan (sinh π)) := by
  simp only [tileYToLat, zpow_natCast]
  push_cast
  have : π - 2 * π * 2 ^ n / 2 ^ n = -π := by field_simp; ring
  rw [this, sinh_half, sinh_neg, arctan_neg]; ring

theorem onMap_rows {p : Geo ℝ} (h : OnMap p) : (-90 < p.lat ∧ p.lat < 90) ∧ 0 ≤ row p.lat ∧ row p.lat ≤ 1 := by
  obtain ⟨-, -, h3, h4⟩ := h
  rw [← tileYToLat_zero 0] at h3 h4
  have hr := tileYToLat_range 0 0
  have hlat : -90 < p.lat ∧ p.lat < 90 := by constructor <;> linarith
  have e := row_tileYToLat 0 0
  have e0 : row (tileYToLat 0 0) = 0 := by simpa using e
  refine ⟨hlat, ?_, ?_⟩
  · rw [← e0]; exact row_anti hlat hr h4
  · have := row_anti (a := -tileYToLat 0 0) (by constructor <;> linarith) hlat h3
    rw [row_neg hr, e0] at this; linarith

theorem ownsX_iff {lon : ℝ} {lod x : ℤ} (hl : 0 ≤ lod) (hl' : lod ≤ 19) (h1 : -180 ≤ lon) (h2 : lon ≤ 180)
    (hx : 0 ≤ x) (hx' : x < 2 ^ lod.toNat) :
    lonToTileX (clamp lon (-179.9999999) 179.9999999) lod = x ↔
      tileXToLon x lod ≤ lon ∧ (lon < tileXToLon (x + 1) lod ∨ x + 1 = 2 ^ lod.toNat ∧ lon ≤ tileXToLon (x + 1) lod) := by
  have hc := clampLon_cases h1 h2
  rw [lonToTileX_eq, tileXToLon_le_iff, le_tileXToLon_iff, ← not_le (a := tileXToLon _ _), tileXToLon_le_iff, not_le]
  obtain ⟨n, rfl⟩ := Int.eq_ofNat_of_zero_le hl
  simp only [zpow_natCast, Int.toNat_natCast] at *
  rw [cell_iff (by omega) x hx hx' hc.1 hc.2.1 hc.2.2]
  push_cast; rfl

theorem ownsY_iff {lat : ℝ} {lod y : ℤ} (hl : 0 ≤ lod) (hl' : lod ≤ 19) (h : -90 < lat ∧ lat < 90)
    (h0 : 0 ≤ row lat) (h1 : row lat ≤ 1) (hy : 0 ≤ y) (hy' : y < 2 ^ lod.toNat) :
    latToTileY (clamp lat (-85.05112877) 85.05112877) lod = y ↔
      lat ≤ tileYToLat y lod ∧ (tileYToLat (y + 1) lod < lat ∨ y + 1 = 2 ^ lod.toNat ∧ tileYToLat (y + 1) lod ≤ lat) := by
  have hc := clampLat_cases h h0 h1
  rw [latToTileY_eq, le_tileYToLat_iff h, tileYToLat_lt_iff h, tileYToLat_le_iff h]
  obtain ⟨n, rfl⟩ := Int.eq_ofNat_of_zero_le hl
  simp only [zpow_natCast, Int.toNat_natCast] at *
  rw [cell_iff (by omega) y hy hy' h0 h1 hc]
  push_cast; rfl

/-- C12: up to lod 19 every point of the map belongs to exactly the tile computed for it: the computed
tile owns the point, and no other valid tile of the lod does. -/
theorem C12_owner (p : Geo ℝ) (lod : ℤ) (hl : 0 ≤ lod) (hl' : lod ≤ 19) (hp : OnMap p) (q : QuadKey)
    (hq : Valid q) (hlod : q.lod = lod) : Owns q p ↔ toQuadKey p lod = q := by
  obtain ⟨hlat, hr0, hr1⟩ := onMap_rows hp
  subst hlod
  obtain ⟨-, hx, hx', hy, hy'⟩ := hq
  have ex := ownsX_iff hl hl' hp.1 hp.2.1 hx hx'
  have ey := ownsY_iff hl hl' hlat hr0 hr1 hy hy'
  have e : toQuadKey p q.lod = q ↔
      lonToTileX (clamp p.lon (-179.9999999) 179.9999999) q.lod = q.x ∧
      latToTileY (clamp p.lat (-85.05112877) 85.05112877) q.lod = q.y := by
    cases q; simp [toQuadKey, clampGeo]
  rw [e, ex, ey]
  unfold Owns tileBox
  simp only
  tauto

theorem owns_in {q : QuadKey} {p : Geo ℝ} (h : Owns q p) : In (tileBox q) p := by
  obtain ⟨h1, h2, h3, h4⟩ := h
  exact ⟨by rcases h4 with h | h; exacts [h.le, h.2], h3, h1, by rcases h2 with h | h; exacts [h.le, h.2]⟩

theorem tileBox_onMap {q : QuadKey} (hq : Valid q) {p : Geo ℝ} (h : In (tileBox q) p) : OnMap p := by
  obtain ⟨hl, hx, hx', hy, hy'⟩ := hq
  obtain ⟨h1, h2, h3, h4⟩ := h
  have r1 := tileYToLat_range (q.y + 1) q.lod
  have r2 := tileYToLat_range q.y q.lod
  have hlat : -90 < p.lat ∧ p.lat < 90 := by
    simp only [tileBox] at h1 h2; constructor <;> linarith
  simp only [tileBox] at h1 h2 h3 h4
  rw [tileYToLat_le_iff hlat] at h1
  rw [le_tileYToLat_iff hlat] at h2
  rw [tileXToLon_le_iff] at h3
  rw [le_tileXToLon_iff] at h4
  obtain ⟨n, hn⟩ := Int.eq_ofNat_of_zero_le hl
  rw [hn] at h1 h2 h3 h4 hx' hy'
  simp only [zpow_natCast, Int.toNat_natCast] at *
  have hz : (0 : ℝ) < 2 ^ n := by positivity
  have hy0 : (0 : ℝ) ≤ q.y := by exact_mod_cast hy
  have hx0 : (0 : ℝ) ≤ q.x := by exact_mod_cast hx
  have hy1 : ((q.y + 1 : ℤ) : ℝ) ≤ 2 ^ n := by exact_mod_cast hy'
  have hx1 : ((q.x + 1 : ℤ) : ℝ) ≤ 2 ^ n := by exact_mod_cast hx'
  have c0 : 0 ≤ col p.lon := by
    by_contra hc; nlinarith
  have c1 : col p.lon ≤ 1 := by
    by_contra hc; nlinarith
  refine ⟨by unfold col at c0; linarith, by unfold col at c1; linarith, ?_, ?_⟩
  · rw [← tileYToLat_last n, tileYToLat_le_iff hlat, zpow_natCast]; push_cast; linarith
  · rw [← tileYToLat_zero (n : ℤ), le_tileYToLat_iff hlat, zpow_natCast]; push_cast; linarith

/-- C13: a box that is not valid visits nothing. -/
theorem C13_invalid_box (b : Bbox ℝ) (lod : ℤ) (h : b.isValid = false) : visitTileRange b lod = [] := by
  simp [visitTileRange, h]

theorem mem_visit (b : Bbox ℝ) (lod : ℤ) (q : QuadKey) :
    q ∈ visitTileRange b lod ↔ b.isValid = true ∧ q.lod = lod ∧
      (toQuadKey b.lo lod).x ≤ q.x ∧ q.x ≤ (toQuadKey b.hi lod).x ∧
      (toQuadKey b.hi lod).y ≤ q.y ∧ q.y ≤ (toQuadKey b.lo lod).y ∧ b.intersects (tileBox q) = true := by
  unfold visitTileRange
  split
  · rename_i hv
    simp only [List.mem_flatMap, List.mem_filter, List.mem_map, mem_intRange]
    constructor
    · rintro ⟨y, ⟨h1, h2⟩, ⟨x, ⟨h3, h4⟩, rfl⟩, h5⟩
      exact ⟨hv, rfl, h3, h4, h1, h2, h5⟩
    · rintro ⟨-, rfl, h3, h4, h1, h2, h5⟩
      exact ⟨q.y, ⟨h1, h2⟩, ⟨q.x, ⟨h3, h4⟩, rfl⟩, h5⟩
  · rename_i hv
    simp [hv]

/-- C13: no tile is visited twice. -/
theorem C13_no_duplicates (b : Bbox ℝ) (lod : ℤ) : (visitTileRange b lod).Nodup := by
  unfold visitTileRange
  split
  · rw [List.nodup_flatMap]
    refine ⟨fun y _ => ?_, ?_⟩
    · apply List.Nodup.filter
      exact (nodup_intRange _ _).map (fun x x' h => by simpa using h)
    · refine (nodup_intRange _ _).imp ?_
      intro y y' hne
      simp only [Function.onFun, List.disjoint_left, List.mem_filter, List.mem_map]
      rintro q ⟨⟨x, -, rfl⟩, -⟩ ⟨⟨x', -, h⟩, -⟩
      simp only [QuadKey.mk.injEq] at h
      exact hne h.2.2.symm
  · exact List.nodup_nil

/-- C13 (partial): for a valid box the visited tiles are exactly the valid tiles of the lod that own a
point of the box. Missing from the full statement: tiles that only touch the box with a border they do
not own (their east or south side), see `C13_violated_border`. -/
theorem C13_visits_owners_partial (b : Bbox ℝ) (hb : b.isValid = true) (lod : ℤ) (hl : 0 ≤ lod) (hl' : lod ≤ 19)
    (q : QuadKey) :
    q ∈ visitTileRange b lod ↔ q.lod = lod ∧ Valid q ∧ ∃ p, In b p ∧ Owns q p := by
  have hb' := hb
  simp only [Bbox.isValid, Bool.and_eq_true, decide_eq_true_eq] at hb'
  rw [mem_visit]
  constructor
  · rintro ⟨-, rfl, h1, h2, h3, h4, h5⟩
    have v1 := (C12_coordinate_in_its_tile b.lo q.lod hl).2.1
    have v2 := (C12_coordinate_in_its_tile b.hi q.lod hl).2.1
    have hq : Valid q := ⟨hl, v1.2.1.trans h1, h2.trans_lt v2.2.2.1, v2.2.2.2.1.trans h3, h4.trans_lt v1.2.2.2.2⟩
    refine ⟨rfl, hq, ?_⟩
    simp only [Bbox.intersects, Bool.and_eq_true, decide_eq_true_eq, le_min_iff, max_le_iff] at h5
    obtain ⟨⟨⟨i1, i2⟩, i3, i4⟩, ⟨i5, i6⟩, i7, i8⟩ := h5
    -- the corners of the tile are on the map
    have m1 := tileBox_onMap hq (p := (tileBox q).lo) ⟨le_rfl, i1, le_rfl, i5⟩
    have m2 := tileBox_onMap hq (p := (tileBox q).hi) ⟨i1, le_rfl, i5, le_rfl⟩
    obtain ⟨-, hx, hx', hy, hy'⟩ := hq
    -- longitude of the witness
    have lonw : ∃ lon, b.lo.lon ≤ lon ∧ lon ≤ b.hi.lon ∧ -180 ≤ lon ∧ lon ≤ 180 ∧
        lonToTileX (clamp lon (-179.9999999) 179.9999999) q.lod = q.x := by
      rcases h1.eq_or_lt with e | e
      · refine ⟨max b.lo.lon (-180), le_max_left _ _, max_le hb'.2 (m1.1.trans i7), le_max_right _ _,
          max_le (i6.trans m2.2.1) (by norm_num), ?_⟩
        rw [← e]
        simp only [toQuadKey, clampGeo]
        congr 1
        unfold clamp
        rcases le_total b.lo.lon (-180) with g | g
        · rw [max_eq_right g, min_eq_left (by norm_num), max_eq_left (by norm_num), min_eq_left (by linarith),
            max_eq_left (by norm_num; linarith)]
        · rw [max_eq_left g]
      · have own := (ownsX_iff hl hl' m1.1 m1.2.1 hx hx').2 ⟨le_rfl, .inl ?_⟩
        · refine ⟨(tileBox q).lo.lon, ?_, i7, m1.1, m1.2.1, own⟩
          by_contra hc
          rw [not_le] at hc
          have := lonToTileX_mono (clamp_mono (lo := -179.9999999) (hi := 179.9999999) hc.le) q.lod
          simp only [toQuadKey, clampGeo] at e
          omega
        · have hz := zpow_pos2 q.lod
          simp only [tileBox, tileXToLon]
          push_cast
          have : (q.x : ℝ) / 2 ^ q.lod < ((q.x : ℝ) + 1) / 2 ^ q.lod := by gcongr; linarith
          linarith
    have latw : ∃ lat, b.lo.lat ≤ lat ∧ lat ≤ b.hi.lat ∧ (∀ lon, -180 ≤ lon → lon ≤ 180 → OnMap ⟨lat, lon⟩) ∧
        latToTileY (clamp lat (-85.05112877) 85.05112877) q.lod = q.y := by
      rcases h3.eq_or_lt with e | e
      · have hM : tileYToLat 0 0 = 180 / π * arctan (sinh π) := tileYToLat_zero 0
        have hlim : (85.05112877 : ℝ) ≤ 180 / π * arctan (sinh π) := by
          show latLimit ≤ _
          rw [← hM, le_tileYToLat_iff latLimit_range]
          have := row_limit; simp only [zpow_zero, mul_one, Int.cast_zero]; exact this.1.le
        obtain ⟨-, -, a3, a4⟩ := m1
        obtain ⟨-, -, b3, b4⟩ := m2
        refine ⟨min b.hi.lat (180 / π * arctan (sinh π)), le_min hb'.1 (i2.trans b4),
          min_le_left _ _, fun lon h1 h2 => ⟨h1, h2, ?_, min_le_right _ _⟩, ?_⟩
        · exact le_min (a3.trans i3) (by linarith)
        · rw [← e]
          simp only [toQuadKey, clampGeo]
          congr 1
          unfold clamp
          rcases le_total (180 / π * arctan (sinh π)) b.hi.lat with g | g
          · rw [min_eq_right g, min_eq_right hlim, min_eq_right (hlim.trans g)]
          · rw [min_eq_left g]
      · obtain ⟨hlat, hr0, hr1⟩ := onMap_rows m2
        have own := (ownsY_iff hl hl' hlat hr0 hr1 hy hy').2 ⟨le_rfl, .inl ?_⟩
        · refine ⟨(tileBox q).hi.lat, i2, ?_, fun lon h1 h2 => ⟨h1, h2, m2.2.2⟩, own⟩
          by_contra hc
          rw [not_le] at hc
          have r1 := clampLat_range' b.hi
          have r2 := clampLat_range' (tileBox q).hi
          have := latToTileY_anti r1 r2 (clamp_mono (lo := -85.05112877) (hi := 85.05112877) hc.le) q.lod
          simp only [toQuadKey, clampGeo] at e
          simp only [clampGeo] at this
          omega
        · rw [tileYToLat_lt_iff hlat]
          simp only [tileBox]
          rw [row_tileYToLat]; push_cast; linarith
    obtain ⟨lon, l1, l2, l3, l4, l5⟩ := lonw
    obtain ⟨lat, a1, a2, a3, a4⟩ := latw
    refine ⟨⟨lat, lon⟩, ⟨a1, a2, l1, l2⟩, (C12_owner _ q.lod hl hl' (a3 lon l3 l4) q ⟨hl, hx, hx', hy, hy'⟩ rfl).2 ?_⟩
    cases q; simp only [toQuadKey, clampGeo, QuadKey.mk.injEq]; exact ⟨trivial, l5, a4⟩
  · rintro ⟨rfl, hq, p, hp, ho⟩
    have hin := owns_in ho
    have hm := tileBox_onMap hq hin
    have e := (C12_owner p q.lod hl hl' hm q hq rfl).1 ho
    have ex : lonToTileX (clampGeo p).lon q.lod = q.x := congrArg QuadKey.x e
    have ey : latToTileY (clampGeo p).lat q.lod = q.y := congrArg QuadKey.y e
    obtain ⟨p1, p2, p3, p4⟩ := hp
    obtain ⟨t1, t2, t3, t4⟩ := hin
    refine ⟨hb, rfl, ?_, ?_, ?_, ?_, ?_⟩
    · rw [← ex]; exact lonToTileX_mono (clamp_mono p3) _
    · rw [← ex]; exact lonToTileX_mono (clamp_mono p4) _
    · rw [← ey]; exact latToTileY_anti (clampLat_range' _) (clampLat_range' _) (clamp_mono p2) _
    · rw [← ey]; exact latToTileY_anti (clampLat_range' _) (clampLat_range' _) (clamp_mono p1) _
    · simp only [Bbox.intersects, Bool.and_eq_true, decide_eq_true_eq, le_min_iff, max_le_iff]
      exact ⟨⟨⟨t1.trans t2, p1.trans t2⟩, t1.trans p2, p1.trans p2⟩, ⟨t3.trans t4, p3.trans t4⟩, t3.trans p4, p3.trans p4⟩

/-- The full statement fails on borders: the box of the single point (0,0) shares that point with the
north-western tile of lod 1, which is not visited. -/
theorem C13_violated_border :
    ∃ (b : Bbox ℝ) (q : QuadKey) (p : Geo ℝ), b.isValid = true ∧ Valid q ∧ q.lod = 1 ∧ In b p ∧ In (tileBox q) p ∧
      q ∉ visitTileRange b 1 := by
  have e0 : tileYToLat 1 1 = 0 := by
    simp only [tileYToLat, sinh_half]; norm_num
  have e1 : 0 ≤ tileYToLat 0 1 := by
    rw [le_tileYToLat_iff (by norm_num)]
    have := (row_range (a := 0) (by unfold latLimit; norm_num) (by unfold latLimit; norm_num)).1
    simp only [Int.cast_zero]; positivity
  refine ⟨⟨⟨0, 0⟩, ⟨0, 0⟩⟩, ⟨1, 0, 0⟩, ⟨0, 0⟩, by simp [Bbox.isValid], by unfold Valid; decide, rfl,
    ⟨le_rfl, le_rfl, le_rfl, le_rfl⟩, ⟨?_, ?_, ?_, ?_⟩, ?_⟩
  · simp only [tileBox, zero_add]; exact e0.le
  · simp only [tileBox]; exact e1
  · simp only [tileBox, tileXToLon]; norm_num
  · simp only [tileBox, tileXToLon]; norm_num
  · rw [mem_visit]
    rintro ⟨-, -, h, -⟩
    revert h
    simp only [toQuadKey, clampGeo]
    rw [clamp_id (by norm_num) (by norm_num)]
    have : lonToTileX 0 1 = 1 := by
      rw [lonToTileX_iff]; simp only [tileXToLon]; norm_num
    rw [this]; norm_num

/-- A non-trivial case: Berlin is on the map and has an owner on lod 16. -/
example : OnMap ⟨52.52, 13.4⟩ := by
  have h := (row_range (a := 52.52) (by unfold latLimit; norm_num) (by unfold latLimit; norm_num))
  have e : (52.52 : ℝ) ≤ tileYToLat 0 0 := by
    rw [le_tileYToLat_iff (by norm_num)]; simpa using h.1.le
  rw [tileYToLat_zero] at e
  exact ⟨by norm_num, by norm_num, by linarith, e⟩

end Verif.Props
