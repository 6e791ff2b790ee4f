import Mathlib.Analysis.Real.Pi.Bounds
import Mathlib.Analysis.SpecialFunctions.Trigonometric.Inverse
import Mathlib.Analysis.Convex.SpecificFunctions.Deriv
import Mathlib.Tactic.Linarith
import Mathlib.Tactic.LinearCombination
import Mathlib.Tactic.NormNum
import Mathlib.Tactic.Positivity
import Mathlib.Tactic.FieldSimp
import Mathlib.Tactic.Ring
import Verif.Model.Geodesy
import Verif.Props.GeodesySpec

/-! # C69: distances on the globe -/
namespace Verif.Props
open Real
open Verif.Geodesy Verif.GeodesySpec

namespace GeodesyProof

theorem deg2Rad_eq (d : ℝ) : deg2Rad d = rad d := by unfold deg2Rad rad; ring

theorem rad_sub (a b : ℝ) : rad (a - b) = rad a - rad b := by unfold rad; ring

theorem rad_range {p : Geo ℝ} (hp : OnGlobe p) : -(π / 2) ≤ rad p.lat ∧ rad p.lat ≤ π / 2 := by
  obtain ⟨h1, h2⟩ := hp
  unfold rad
  constructor <;> nlinarith [pi_pos]

theorem cos_nonneg_lat {p : Geo ℝ} (hp : OnGlobe p) : 0 ≤ cos (rad p.lat) :=
  cos_nonneg_of_mem_Icc ⟨(rad_range hp).1, (rad_range hp).2⟩

/-- The number `a` of the haversine formula -/
noncomputable def hav (p q : Geo ℝ) : ℝ :=
  sin (rad (p.lat - q.lat) / 2) * sin (rad (p.lat - q.lat) / 2) +
    sin (rad (p.lon - q.lon) / 2) * sin (rad (p.lon - q.lon) / 2) * cos (rad p.lat) * cos (rad q.lat)

/-- The scalar product of the directions -/
noncomputable def dot (p q : Geo ℝ) : ℝ :=
  (direction p).1 * (direction q).1 + (direction p).2.1 * (direction q).2.1 + (direction p).2.2 * (direction q).2.2

theorem sin_half_sq (x : ℝ) : sin (x / 2) * sin (x / 2) = (1 - cos x) / 2 := by
  have h := cos_sq_add_sin_sq (x / 2)
  have h2 := cos_two_mul (x / 2)
  rw [show 2 * (x / 2) = x by ring] at h2
  linear_combination h + h2 / 2

theorem hav_dot (p q : Geo ℝ) : hav p q = (1 - dot p q) / 2 := by
  unfold hav dot direction
  rw [sin_half_sq, sin_half_sq, rad_sub, rad_sub, cos_sub, cos_sub]
  ring

theorem dot_le (p q : Geo ℝ) : -1 ≤ dot p q ∧ dot p q ≤ 1 := by
  have h : ∀ p : Geo ℝ, (direction p).1 ^ 2 + (direction p).2.1 ^ 2 + (direction p).2.2 ^ 2 = 1 := by
    intro p
    unfold direction
    have h1 := cos_sq_add_sin_sq (rad p.lat)
    have h2 := cos_sq_add_sin_sq (rad p.lon)
    simp only
    linear_combination h1 + cos (rad p.lat) ^ 2 * h2
  have hp := h p
  have hq := h q
  unfold dot
  constructor
  · nlinarith [sq_nonneg ((direction p).1 + (direction q).1), sq_nonneg ((direction p).2.1 + (direction q).2.1), sq_nonneg ((direction p).2.2 + (direction q).2.2)]
  · nlinarith [sq_nonneg ((direction p).1 - (direction q).1), sq_nonneg ((direction p).2.1 - (direction q).2.1), sq_nonneg ((direction p).2.2 - (direction q).2.2)]

theorem hav_range (p q : Geo ℝ) : 0 ≤ hav p q ∧ hav p q ≤ 1 := by
  rw [hav_dot]
  obtain ⟨h1, h2⟩ := dot_le p q
  constructor <;> linarith

theorem atan2_hav {a : ℝ} (h0 : 0 ≤ a) (h1 : a ≤ 1) : atan2 (sqrt a) (sqrt (1 - a)) = arcsin (sqrt a) := by
  unfold atan2
  rw [Complex.arg_of_re_nonneg (by simp)]
  have : ‖(⟨sqrt (1 - a), sqrt a⟩ : ℂ)‖ = 1 := by
    rw [Complex.norm_def, Complex.normSq_mk, mul_self_sqrt (by linarith), mul_self_sqrt h0]
    simp
  rw [this, div_one]

/-- The angle which the code computes -/
noncomputable def angle (p q : Geo ℝ) : ℝ := 2 * arcsin (sqrt (hav p q))

theorem distance_eq (p q : Geo ℝ) : distance p q = earthRadius (rad (p.lat - q.lat)) * angle p q := by
  have := atan2_hav (hav_range p q).1 (hav_range p q).2
  unfold distance angle
  simp only [deg2Rad_eq]
  rw [← this]
  rfl

theorem angle_central (p q : Geo ℝ) : IsCentralAngle p q (angle p q) := by
  obtain ⟨h0, h1⟩ := hav_range p q
  have hs : sin (arcsin (sqrt (hav p q))) = sqrt (hav p q) := sin_arcsin (by linarith [sqrt_nonneg (hav p q)]) (sqrt_le_one.2 h1)
  refine ⟨?_, ?_, ?_⟩
  · exact mul_nonneg (by norm_num) (arcsin_nonneg.2 (sqrt_nonneg _))
  · have := arcsin_le_pi_div_two (sqrt (hav p q))
    unfold angle; linarith
  · unfold angle
    rw [cos_two_mul, cos_sq', hs, sq_sqrt h0, hav_dot]
    unfold dot
    ring

theorem earthRadius_range (lat : ℝ) : polarRadius ≤ earthRadius lat ∧ earthRadius lat ≤ equatorialRadius := by
  have hcs := cos_sq_add_sin_sq lat
  have hc := sq_nonneg (cos lat)
  have hs := sq_nonneg (sin lat)
  have hb : (0 : ℝ) ≤ polarRadius := by norm_num [polarRadius]
  have ha : (0 : ℝ) ≤ equatorialRadius := by norm_num [equatorialRadius]
  have hd : 0 < majorAxis * cos lat * (majorAxis * cos lat) + minorAxis * sin lat * (minorAxis * sin lat) := by
    unfold majorAxis minorAxis
    nlinarith
  unfold earthRadius
  simp only
  constructor
  · apply le_sqrt_of_sq_le
    rw [le_div_iff₀ hd]
    unfold majorAxis minorAxis polarRadius
    nlinarith
  · rw [sqrt_le_left ha, div_le_iff₀ hd]
    unfold majorAxis minorAxis equatorialRadius
    nlinarith

end GeodesyProof
open GeodesyProof

/-- C69: the distance is the angle between the points at the center of the globe times a radius between the smallest and the largest one of the
earth. -/
theorem C69_distance (p q : Geo ℝ) :
    ∃ angle, IsCentralAngle p q angle ∧ polarRadius * angle ≤ distance p q ∧ distance p q ≤ equatorialRadius * angle := by
  have h := angle_central p q
  obtain ⟨h1, h2⟩ := earthRadius_range (rad (p.lat - q.lat))
  refine ⟨angle p q, h, ?_, ?_⟩
  · rw [distance_eq]; exact mul_le_mul_of_nonneg_right h1 h.1
  · rw [distance_eq]; exact mul_le_mul_of_nonneg_right h2 h.1

/-- C69: the distance does not depend on the order of the points. -/
theorem C69_symmetric (p q : Geo ℝ) : distance p q = distance q p := by
  have hr : rad (q.lat - p.lat) = -rad (p.lat - q.lat) := by unfold rad; ring
  have he : earthRadius (rad (q.lat - p.lat)) = earthRadius (rad (p.lat - q.lat)) := by
    rw [hr]; unfold earthRadius; simp
  have hd : dot q p = dot p q := by unfold dot; ring
  rw [distance_eq, distance_eq, he, angle, angle, hav_dot, hav_dot, hd]

/-- C69: the distance is zero exactly for points in the same direction from the center. -/
theorem C69_zero (p q : Geo ℝ) : distance p q = 0 ↔ direction p = direction q := by
  have hr : earthRadius (rad (p.lat - q.lat)) ≠ 0 := by
    have := (earthRadius_range (rad (p.lat - q.lat))).1
    have h2 : (0 : ℝ) < polarRadius := by norm_num [polarRadius]
    linarith [this, h2] |> fun h : 0 < earthRadius (rad (p.lat - q.lat)) => h.ne'
  have hlen : ∀ p : Geo ℝ, (direction p).1 ^ 2 + (direction p).2.1 ^ 2 + (direction p).2.2 ^ 2 = 1 := by
    intro p
    unfold direction
    have h1 := cos_sq_add_sin_sq (rad p.lat)
    have h2 := cos_sq_add_sin_sq (rad p.lon)
    simp only
    linear_combination h1 + cos (rad p.lat) ^ 2 * h2
  rw [distance_eq, mul_eq_zero, or_iff_right hr, angle, mul_eq_zero, or_iff_right (by norm_num), arcsin_eq_zero_iff, sqrt_eq_zero (hav_range p q).1,
    hav_dot]
  have key : (1 - dot p q) / 2 = ((direction p).1 - (direction q).1) ^ 2 / 4 + ((direction p).2.1 - (direction q).2.1) ^ 2 / 4 +
      ((direction p).2.2 - (direction q).2.2) ^ 2 / 4 := by
    unfold dot
    linear_combination -(hlen p) / 4 - (hlen q) / 4
  rw [key]
  constructor
  · intro h
    have a1 := sq_nonneg ((direction p).1 - (direction q).1)
    have a2 := sq_nonneg ((direction p).2.1 - (direction q).2.1)
    have a3 := sq_nonneg ((direction p).2.2 - (direction q).2.2)
    refine Prod.ext ?_ (Prod.ext ?_ ?_)
    · exact sub_eq_zero.1 (pow_eq_zero_iff (two_ne_zero) |>.1 (by linarith))
    · exact sub_eq_zero.1 (pow_eq_zero_iff (two_ne_zero) |>.1 (by linarith))
    · exact sub_eq_zero.1 (pow_eq_zero_iff (two_ne_zero) |>.1 (by linarith))
  · intro h
    rw [h]; ring

namespace GeodesyProof

/-- Two points on a meridian -/
theorem angle_meridian (p : Geo ℝ) (d : ℝ) (h0 : 0 ≤ d) (h1 : d ≤ 180) : angle p ⟨p.lat + d, p.lon⟩ = rad d := by
  have hr : 0 ≤ rad d ∧ rad d ≤ π := by unfold rad; constructor <;> nlinarith [pi_pos]
  have hh : hav p ⟨p.lat + d, p.lon⟩ = sin (rad d / 2) ^ 2 := by
    unfold hav
    have e1 : rad (p.lat - (p.lat + d)) / 2 = -(rad d / 2) := by unfold rad; ring
    have e2 : rad (p.lon - p.lon) / 2 = 0 := by unfold rad; ring
    simp only [e1, e2, sin_zero, sin_neg]
    ring
  have hs : 0 ≤ sin (rad d / 2) := sin_nonneg_of_nonneg_of_le_pi (by linarith [hr.1]) (by linarith [hr.2, pi_pos])
  rw [angle, hh, sqrt_sq hs, arcsin_sin (by linarith [hr.1, pi_pos]) (by linarith [hr.2])]
  ring

theorem getOffset_rad (p : Geo ℝ) (m : ℝ) : rad (getOffset p m) = m / earthRadius (rad p.lat) := by
  unfold getOffset rad2Deg
  rw [deg2Rad_eq]
  unfold rad
  field_simp

theorem radius_pos (lat : ℝ) : 0 < earthRadius lat :=
  lt_of_lt_of_le (by norm_num [polarRadius]) (earthRadius_range lat).1

end GeodesyProof

/-- C69: a point which is moved to the north by an offset in metres is at this distance, up to the ratio of the two radii (0.34 percent). Partial: the
distance is not the offset exactly, see `C69_violated_radius`. -/
theorem C69_offset_partial (p : Geo ℝ) (m : ℝ) (h0 : 0 ≤ m) (h1 : m ≤ π * polarRadius) :
    polarRadius / equatorialRadius * m ≤ distance p ⟨p.lat + getOffset p m, p.lon⟩ ∧
    distance p ⟨p.lat + getOffset p m, p.lon⟩ ≤ equatorialRadius / polarRadius * m := by
  have hR := earthRadius_range (rad p.lat)
  have hRp := radius_pos (rad p.lat)
  have hpol : (0 : ℝ) < polarRadius := by norm_num [polarRadius]
  have heq : (0 : ℝ) < equatorialRadius := by norm_num [equatorialRadius]
  have hrad := getOffset_rad p m
  have hle : m / earthRadius (rad p.lat) ≤ π := by
    rw [div_le_iff₀ hRp]
    nlinarith [pi_pos]
  have hge : 0 ≤ m / earthRadius (rad p.lat) := div_nonneg h0 hRp.le
  have hd : getOffset p m = rad (getOffset p m) * 180 / π := by unfold rad; field_simp
  have hang : angle p ⟨p.lat + getOffset p m, p.lon⟩ = m / earthRadius (rad p.lat) := by
    rw [angle_meridian p _ ?_ ?_, hrad]
    · rw [hd, hrad]; positivity
    · rw [hd, hrad, div_le_iff₀ pi_pos]; nlinarith
  rw [distance_eq, hang]
  obtain ⟨k1, k2⟩ := earthRadius_range (rad (p.lat - (p.lat + getOffset p m)))
  generalize earthRadius (rad (p.lat - (p.lat + getOffset p m))) = R' at k1 k2
  constructor
  · rw [div_mul_eq_mul_div, mul_div_assoc']
    rw [div_le_div_iff₀ heq hRp]
    have : polarRadius * m * earthRadius (rad p.lat) ≤ R' * m * equatorialRadius :=
      mul_le_mul (mul_le_mul_of_nonneg_right k1 h0) hR.2 hRp.le (mul_nonneg (hpol.le.trans k1) h0)
    linarith
  · rw [div_mul_eq_mul_div, mul_div_assoc']
    rw [div_le_div_iff₀ hRp hpol]
    have : R' * m * polarRadius ≤ equatorialRadius * m * earthRadius (rad p.lat) :=
      mul_le_mul (mul_le_mul_of_nonneg_right k2 h0) hR.1 hpol.le (mul_nonneg heq.le h0)
    linarith

/-- C69 is false: the distance is computed with the radius at the difference of the latitudes, so that at the south pole every short offset gives a
distance which is longer. -/
theorem C69_violated_radius (m lon : ℝ) (h0 : 0 < m) (h1 : m < polarRadius) :
    m < distance ⟨-90, lon⟩ ⟨-90 + getOffset ⟨-90, lon⟩ m, lon⟩ := by
  have hpole : earthRadius (rad (-90)) = polarRadius := by
    have : rad (-90) = -(π / 2) := by unfold rad; ring
    rw [this]
    unfold earthRadius
    simp only [cos_neg, cos_pi_div_two, sin_neg, sin_pi_div_two]
    rw [show (majorAxis * majorAxis * 0 * (majorAxis * majorAxis * 0) + minorAxis * minorAxis * -1 * (minorAxis * minorAxis * -1)) /
      (majorAxis * 0 * (majorAxis * 0) + minorAxis * -1 * (minorAxis * -1)) = polarRadius ^ 2 by
        unfold minorAxis polarRadius; norm_num]
    exact sqrt_sq (by norm_num [polarRadius])
  have hpol : (0 : ℝ) < polarRadius := by norm_num [polarRadius]
  have hrad : rad (getOffset ⟨-90, lon⟩ m) = m / polarRadius := by rw [getOffset_rad]; simp only [hpole]
  have hlt : m / polarRadius < 1 := (div_lt_one hpol).2 h1
  have hpos : 0 < m / polarRadius := div_pos h0 hpol
  have hd : getOffset ⟨-90, lon⟩ m = rad (getOffset ⟨-90, lon⟩ m) * 180 / π := by unfold rad; field_simp
  have hang := angle_meridian ⟨-90, lon⟩ (getOffset ⟨-90, lon⟩ m) (by rw [hd, hrad]; positivity)
    (by rw [hd, hrad, div_le_iff₀ pi_pos]; nlinarith [pi_gt_three])
  rw [hrad] at hang
  rw [distance_eq, hang]
  have hdiff : rad ((⟨-90, lon⟩ : Geo ℝ).lat - ((⟨-90, lon⟩ : Geo ℝ).lat + getOffset ⟨-90, lon⟩ m)) = -(m / polarRadius) := by
    rw [show (⟨-90, lon⟩ : Geo ℝ).lat - ((⟨-90, lon⟩ : Geo ℝ).lat + getOffset ⟨-90, lon⟩ m) = -getOffset ⟨-90, lon⟩ m by simp]
    rw [← hrad]; unfold rad; ring
  simp only at hdiff ⊢
  rw [hdiff]
  have hR : polarRadius < earthRadius (-(m / polarRadius)) := by
    have hc : 0 < cos (m / polarRadius) := cos_pos_of_mem_Ioo ⟨by linarith [pi_pos], by linarith [pi_gt_three]⟩
    have hcs := cos_sq_add_sin_sq (m / polarRadius)
    unfold earthRadius
    simp only [cos_neg, sin_neg]
    generalize cos (m / polarRadius) = c at hc hcs
    generalize sin (m / polarRadius) = s at hcs
    apply lt_sqrt_of_sq_lt
    have hden : 0 < majorAxis * c * (majorAxis * c) + minorAxis * -s * (minorAxis * -s) := by
      unfold majorAxis minorAxis
      nlinarith [sq_nonneg s, mul_pos hc hc]
    rw [lt_div_iff₀ hden]
    unfold majorAxis minorAxis polarRadius
    nlinarith [sq_nonneg s, mul_pos hc hc]
  calc m = polarRadius * (m / polarRadius) := by field_simp
    _ < _ := mul_lt_mul_of_pos_right hR hpos

/-- C69: converting metres to the north into a coordinate is right up to 0.2 percent. -/
theorem C69_world_north (p : Geo ℝ) (y : ℝ) (h0 : 0 ≤ y) (h1 : y ≤ 20000000) :
    |distance p (worldToGeo p 0 y) - y| ≤ 0.002 * y := by
  have hw : worldToGeo p 0 y = ⟨p.lat + y * 360 / 40008000, p.lon⟩ := by
    unfold worldToGeo circleDistance; simp
  have hang := angle_meridian p (y * 360 / 40008000) (by positivity) (by linarith)
  rw [hw, distance_eq, hang]
  obtain ⟨k1, k2⟩ := earthRadius_range (rad (p.lat - (p.lat + y * 360 / 40008000)))
  simp only
  generalize earthRadius (rad (p.lat - (p.lat + y * 360 / 40008000))) = R at k1 k2
  have e : R * rad (y * 360 / 40008000) = y * (R * π / 20004000) := by unfold rad; ring
  rw [e]
  unfold polarRadius at k1
  unfold equatorialRadius at k2
  have hp1 := pi_gt_d4
  have hp2 := pi_lt_d4
  have b1 : 0.998 ≤ R * π / 20004000 := by rw [le_div_iff₀ (by norm_num)]; nlinarith
  have b2 : R * π / 20004000 ≤ 1.002 := by rw [div_le_iff₀ (by norm_num)]; nlinarith
  rw [abs_le]
  constructor <;> nlinarith

/-- C69: a point which is moved to the east by some metres is not further away than that. -/
theorem C69_world_east (p : Geo ℝ) (x : ℝ) (hp : -90 < p.lat ∧ p.lat < 90) (h0 : 0 ≤ x) (h1 : x ≤ 40075160 * cos (rad p.lat)) :
    distance p (worldToGeo p x 0) ≤ x := by
  have hc : 0 < cos (rad p.lat) := by
    apply cos_pos_of_mem_Ioo
    unfold rad
    constructor <;> nlinarith [pi_pos]
  have hc1 := cos_le_one (rad p.lat)
  obtain ⟨u, hu⟩ : ∃ u, u = x * π / (40075160 * cos (rad p.lat)) := ⟨_, rfl⟩
  have hu0 : 0 ≤ u := by rw [hu]; positivity
  have hupi : u ≤ π := by rw [hu, div_le_iff₀ (by positivity)]; nlinarith [pi_pos]
  have hw : worldToGeo p x 0 = ⟨p.lat, p.lon + u * 360 / π⟩ := by
    unfold worldToGeo latitudeEquator
    rw [deg2Rad_eq, hu]
    simp only [zero_mul, zero_div, add_zero, Geo.mk.injEq, true_and, add_right_inj]
    field_simp
  have hh : hav p (worldToGeo p x 0) = (cos (rad p.lat) * sin u) ^ 2 := by
    rw [hw]
    unfold hav
    have e1 : rad (p.lat - p.lat) / 2 = 0 := by unfold rad; ring
    have e2 : rad (p.lon - (p.lon + u * 360 / π)) / 2 = -u := by unfold rad; field_simp; ring
    simp only [e1, e2, sin_zero, sin_neg]
    ring
  have hsin : 0 ≤ sin u := sin_nonneg_of_nonneg_of_le_pi hu0 hupi
  have hang : angle p (worldToGeo p x 0) ≤ 2 * (cos (rad p.lat) * u) := by
    rw [angle, hh, sqrt_sq (mul_nonneg hc.le hsin)]
    refine mul_le_mul_of_nonneg_left ?_ (by norm_num)
    by_cases hbig : cos (rad p.lat) * u < π / 2
    · rw [arcsin_le_iff_le_sin' ⟨by nlinarith [pi_pos], hbig⟩]
      have hconc := strictConcaveOn_sin_Icc.concaveOn.2 (x := u) ⟨hu0, hupi⟩ (y := 0) ⟨le_refl _, pi_pos.le⟩ hc.le (sub_nonneg.2 hc1) (by ring)
      simpa using hconc
    · exact (arcsin_le_pi_div_two _).trans (not_lt.1 hbig)
  have hlat : rad (p.lat - (worldToGeo p x 0).lat) = 0 := by rw [hw]; unfold rad; simp
  rw [distance_eq, hlat]
  have hR := (earthRadius_range 0).2
  have hRp := radius_pos 0
  unfold equatorialRadius at hR
  calc earthRadius 0 * angle p (worldToGeo p x 0) ≤ earthRadius 0 * (2 * (cos (rad p.lat) * u)) := mul_le_mul_of_nonneg_left hang hRp.le
    _ = x * (2 * π * earthRadius 0 / 40075160) := by rw [hu]; field_simp
    _ ≤ x * 1 := by
      refine mul_le_mul_of_nonneg_left ?_ h0
      rw [div_le_one (by norm_num)]
      nlinarith [pi_lt_d6, pi_pos]
    _ = x := mul_one x

/-- C69: converting metres to the east into a coordinate is right up to 0.2 percent, for offsets up to a fortieth of the circle of latitude. -/
theorem C69_world_east_near (p : Geo ℝ) (x : ℝ) (hp : -90 < p.lat ∧ p.lat < 90) (h0 : 0 ≤ x) (h1 : x ≤ 40075160 * cos (rad p.lat) / 40) :
    |distance p (worldToGeo p x 0) - x| ≤ 0.002 * x := by
  have hc : 0 < cos (rad p.lat) := by
    apply cos_pos_of_mem_Ioo
    unfold rad
    constructor <;> nlinarith [pi_pos]
  have hc1 := cos_le_one (rad p.lat)
  have hup := C69_world_east p x hp h0 (by nlinarith)
  rcases h0.eq_or_lt with rfl | hx
  · have hd : 0 ≤ distance p (worldToGeo p 0 0) := by
      rw [distance_eq]
      exact mul_nonneg (radius_pos _).le (angle_central _ _).1
    rw [abs_le]
    constructor <;> linarith
  obtain ⟨u, hu⟩ : ∃ u, u = x * π / (40075160 * cos (rad p.lat)) := ⟨_, rfl⟩
  have hu0 : 0 < u := by rw [hu]; positivity
  have hu1 : u ≤ π / 40 := by rw [hu, div_le_iff₀ (by positivity)]; nlinarith [pi_pos]
  have hw : worldToGeo p x 0 = ⟨p.lat, p.lon + u * 360 / π⟩ := by
    unfold worldToGeo latitudeEquator
    rw [deg2Rad_eq, hu]
    simp only [zero_mul, zero_div, add_zero, Geo.mk.injEq, true_and, add_right_inj]
    field_simp
  have hh : hav p (worldToGeo p x 0) = (cos (rad p.lat) * sin u) ^ 2 := by
    rw [hw]
    unfold hav
    have e1 : rad (p.lat - p.lat) / 2 = 0 := by unfold rad; ring
    have e2 : rad (p.lon - (p.lon + u * 360 / π)) / 2 = -u := by unfold rad; field_simp; ring
    simp only [e1, e2, sin_zero, sin_neg]
    ring
  have hsin : 0 ≤ sin u := sin_nonneg_of_nonneg_of_le_pi hu0.le (by linarith [pi_pos])
  have hsin1 := sin_le_one u
  have hcs : cos (rad p.lat) * sin u ≤ 1 := by nlinarith
  have hang : 2 * (cos (rad p.lat) * sin u) ≤ angle p (worldToGeo p x 0) := by
    rw [angle, hh, sqrt_sq (mul_nonneg hc.le hsin)]
    refine mul_le_mul_of_nonneg_left ?_ (by norm_num)
    have hy : 0 ≤ cos (rad p.lat) * sin u := mul_nonneg hc.le hsin
    rw [le_arcsin_iff_sin_le ⟨by linarith [pi_pos], by linarith [pi_gt_three]⟩ ⟨by linarith, hcs⟩]
    exact sin_le hy
  have hcube := sin_gt_sub_cube hu0
  have hlat : rad (p.lat - (worldToGeo p x 0).lat) = 0 := by rw [hw]; unfold rad; simp
  have hR : earthRadius 0 = 6378137 := by
    unfold earthRadius
    simp only [cos_zero, sin_zero, mul_one, mul_zero, add_zero]
    rw [show majorAxis * majorAxis * (majorAxis * majorAxis) / (majorAxis * majorAxis) = majorAxis ^ 2 by unfold majorAxis; norm_num, sqrt_sq (by norm_num [majorAxis])]
    rfl
  have hsq : u ^ 2 ≤ 0.0064 := by nlinarith [pi_lt_d4]
  have hlow : 0.9989 * u ≤ sin u := by nlinarith [mul_le_mul_of_nonneg_left hsq hu0.le]
  have hlo : 0.998 * x ≤ distance p (worldToGeo p x 0) := by
    rw [distance_eq, hlat, hR]
    have hxe : x = 40075160 * cos (rad p.lat) * u / π := by rw [hu]; field_simp
    have hpi := pi_gt_d4
    calc 0.998 * x = (0.998 * 40075160 / π) * (cos (rad p.lat) * u) := by rw [hxe]; ring
      _ ≤ (6378137 * 2 * 0.9989) * (cos (rad p.lat) * u) := by
        refine mul_le_mul_of_nonneg_right ?_ (mul_nonneg hc.le hu0.le)
        rw [div_le_iff₀ pi_pos]
        nlinarith
      _ = 6378137 * (2 * (cos (rad p.lat) * (0.9989 * u))) := by ring
      _ ≤ 6378137 * (2 * (cos (rad p.lat) * sin u)) := by gcongr
      _ ≤ _ := by gcongr
  rw [abs_le]
  constructor <;> linarith

example : OnGlobe ⟨52.5, 13.4⟩ := by constructor <;> norm_num
example : (0 : ℝ) < 1000 ∧ (1000 : ℝ) < polarRadius ∧ polarRadius ≤ π * polarRadius := by
  refine ⟨by norm_num, by norm_num [polarRadius], ?_⟩
  have : (0 : ℝ) < polarRadius := by norm_num [polarRadius]
  nlinarith [pi_gt_three]

/-- C69: points between two points: the ends are at 0 and 1, counting from the other end is the same, and every point is on the straight line
between them (in degrees) and within their bounds. -/
theorem C69_between (p q : Geo ℝ) (r : ℝ) :
    newPoint p q 0 = p ∧ newPoint p q 1 = q ∧ newPoint p q r = newPoint q p (1 - r) ∧
    ((newPoint p q r).lat - p.lat) * (q.lon - p.lon) = ((newPoint p q r).lon - p.lon) * (q.lat - p.lat) ∧
    (0 ≤ r → r ≤ 1 → min p.lat q.lat ≤ (newPoint p q r).lat ∧ (newPoint p q r).lat ≤ max p.lat q.lat ∧
      min p.lon q.lon ≤ (newPoint p q r).lon ∧ (newPoint p q r).lon ≤ max p.lon q.lon) := by
  have bounds : ∀ a b : ℝ, 0 ≤ r → r ≤ 1 → min a b ≤ a + (b - a) * r ∧ a + (b - a) * r ≤ max a b := by
    intro a b h0 h1
    rcases le_total a b with h | h
    · rw [min_eq_left h, max_eq_right h]; constructor <;> nlinarith
    · rw [min_eq_right h, max_eq_left h]; constructor <;> nlinarith
  refine ⟨?_, ?_, ?_, ?_, fun h0 h1 => ⟨(bounds _ _ h0 h1).1, (bounds _ _ h0 h1).2, (bounds _ _ h0 h1).1, (bounds _ _ h0 h1).2⟩⟩
  · unfold newPoint; simp
  · unfold newPoint; simp
  · unfold newPoint; congr 1 <;> ring
  · unfold newPoint; simp only; ring

/-- C69: a length in metres which is `f` times the width of the bounding box is scaled to `f` times the scale. -/
theorem C69_scaled (bbox : Bbox ℝ) (hw : bbox.lo.lon < bbox.hi.lon) (scale value f : ℝ)
    (hf : getOffset ⟨(bbox.lo.lat + bbox.hi.lat) / 2, (bbox.lo.lon + bbox.hi.lon) / 2⟩ value = f * (bbox.hi.lon - bbox.lo.lon)) :
    getScaled bbox scale value = f * scale := by
  have hc : bbox.center = ⟨(bbox.lo.lat + bbox.hi.lat) / 2, (bbox.lo.lon + bbox.hi.lon) / 2⟩ := by
    unfold Bbox.center; congr 1 <;> ring
  have hw' : bbox.width = bbox.hi.lon - bbox.lo.lon := rfl
  have : bbox.hi.lon - bbox.lo.lon ≠ 0 := by linarith
  unfold getScaled
  rw [hc, hf, hw']
  field_simp

/-- Every length is some multiple of the width. -/
example (bbox : Bbox ℝ) (hw : bbox.lo.lon < bbox.hi.lon) (p : Geo ℝ) (value : ℝ) : ∃ f, getOffset p value = f * (bbox.hi.lon - bbox.lo.lon) :=
  ⟨getOffset p value / (bbox.hi.lon - bbox.lo.lon), (div_mul_cancel₀ _ (by linarith)).symm⟩

end Verif.Props
