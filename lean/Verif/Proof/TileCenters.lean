import Mathlib.Analysis.SpecialFunctions.Trigonometric.DerivHyp
import Mathlib.Analysis.SpecialFunctions.Trigonometric.ArctanDeriv
import Mathlib.Analysis.Complex.ExponentialBounds
import Mathlib.Analysis.Real.Pi.Bounds
import Mathlib.Analysis.Calculus.MeanValue
import Mathlib.Tactic.Linarith
import Mathlib.Tactic.Positivity
import Verif.Proof.Mercator
import Verif.Props.TilesSpec

/-! Tiles of one lod have different centers, also up to the epsilon of `GeoCoordinate::operator==`. -/
namespace Verif.Mercator
open Real Verif.TilesSpec

theorem gd_deriv (x : ℝ) : HasDerivAt (fun x => arctan (sinh x)) (1 / (1 + sinh x ^ 2) * cosh x) x :=
  (hasDerivAt_sinh x).arctan

theorem exp_pi_le : exp π ≤ 81 := by
  have h1 : π ≤ 4 := pi_le_four
  have h2 : exp π ≤ exp 4 := exp_le_exp.2 h1
  have h3 : exp 4 = exp 1 ^ 4 := by rw [← exp_nat_mul]; norm_num
  have h4 : exp 1 ≤ 3 := by have := exp_one_lt_d9; linarith
  calc exp π ≤ exp 1 ^ 4 := by rw [← h3]; exact h2
    _ ≤ 3 ^ 4 := pow_le_pow_left₀ (exp_pos 1).le h4 4
    _ = 81 := by norm_num

theorem gd_spacing {a b : ℝ} (ha : -π ≤ a) (hab : a ≤ b) (hb : b ≤ π) :
    1 / 81 * (b - a) ≤ arctan (sinh b) - arctan (sinh a) := by
  have hd : Differentiable ℝ (fun x : ℝ => arctan (sinh x)) := fun x => (gd_deriv x).differentiableAt
  refine Convex.mul_sub_le_image_sub_of_le_deriv (convex_Icc (-π) π) (f := fun x : ℝ => arctan (sinh x))
    hd.continuous.continuousOn hd.differentiableOn ?_ a ⟨ha, hab.trans hb⟩ b ⟨ha.trans hab, hb⟩ hab
  intro x hx
  rw [interior_Icc] at hx
  rw [(gd_deriv x).deriv]
  have hc : 0 < cosh x := cosh_pos x
  have e : 1 + sinh x ^ 2 = cosh x ^ 2 := by have := cosh_sq x; linarith
  have hle : cosh x ≤ 81 := by
    rw [cosh_eq]
    have h1 : exp x ≤ exp π := exp_le_exp.2 hx.2.le
    have h2 : exp (-x) ≤ exp π := exp_le_exp.2 (by linarith [hx.1])
    have := exp_pi_le
    linarith
  have e2 : 1 / (cosh x ^ 2) * cosh x = (cosh x)⁻¹ := by field_simp
  rw [e, e2, one_div]
  exact inv_anti₀ hc hle

theorem tileYToLat_spacing (n : ℕ) (hn : n ≤ 19) {y y' : ℤ} (h0 : 0 ≤ y) (h : y < y') (h1 : y' ≤ 2 ^ n) :
    dblEpsilon ≤ tileYToLat y n - tileYToLat y' n := by
  have hp : (0 : ℝ) < 2 ^ n := by positivity
  have hpn : (2 : ℝ) ^ n ≤ 2 ^ 19 := pow_le_pow_right₀ (by norm_num) hn
  have hpi := pi_pos
  have r0 : (0 : ℝ) ≤ y := by exact_mod_cast h0
  have r : (y : ℝ) + 1 ≤ y' := by exact_mod_cast h
  have r1 : (y' : ℝ) ≤ 2 ^ n := by exact_mod_cast h1
  have k1 : 2 * π * y' / 2 ^ n ≤ 2 * π := by
    rw [div_le_iff₀ hp]; exact mul_le_mul_of_nonneg_left r1 (by positivity)
  have k2 : 0 ≤ 2 * π * y / 2 ^ n := by positivity
  have k3 : 2 * π * y' / 2 ^ n - 2 * π * y / 2 ^ n = 2 * π * (y' - y) / 2 ^ n := by ring
  have k4 : 2 * π / 2 ^ n ≤ 2 * π * (y' - y) / 2 ^ n := by
    apply div_le_div_of_nonneg_right _ hp.le
    have : 2 * π * 1 ≤ 2 * π * (y' - y) := mul_le_mul_of_nonneg_left (by linarith) (by positivity)
    linarith
  have k5 : 0 < 2 * π / 2 ^ n := by positivity
  have g := gd_spacing (a := π - 2 * π * y' / 2 ^ n) (b := π - 2 * π * y / 2 ^ n) (by linarith) (by linarith) (by linarith)
  have e : tileYToLat y n - tileYToLat y' n =
      180 / π * (arctan (sinh (π - 2 * π * y / 2 ^ n)) - arctan (sinh (π - 2 * π * y' / 2 ^ n))) := by
    simp only [tileYToLat, sinh_half, zpow_natCast]; ring
  rw [e]
  have m : 180 / π * (1 / 81 * (2 * π / 2 ^ n)) ≤
      180 / π * (arctan (sinh (π - 2 * π * y / 2 ^ n)) - arctan (sinh (π - 2 * π * y' / 2 ^ n))) :=
    mul_le_mul_of_nonneg_left (by linarith) (by positivity)
  refine le_trans ?_ m
  have e2 : 180 / π * (1 / 81 * (2 * π / 2 ^ n)) = 40 / 9 / 2 ^ n := by field_simp; norm_num
  rw [e2, le_div_iff₀ hp, dblEpsilon]
  calc (1 : ℝ) / 2 ^ 52 * 2 ^ n ≤ 1 / 2 ^ 52 * 2 ^ 19 := mul_le_mul_of_nonneg_left hpn (by positivity)
    _ ≤ 40 / 9 := by norm_num

theorem center_inj {q q' : QuadKey} (h : Valid q) (h' : Valid q') (hl : q'.lod = q.lod) (hn : q.lod ≤ 19)
    (hc : (tileBox q).center.eq (tileBox q').center = true) : q' = q := by
  obtain ⟨l, x, y⟩ := q
  obtain ⟨l', x', y'⟩ := q'
  simp only at hl hn
  subst hl
  obtain ⟨v0, v1, v2, v3, v4⟩ := h
  obtain ⟨-, w1, w2, w3, w4⟩ := h'
  simp only at *
  obtain ⟨n, rfl⟩ := Int.eq_ofNat_of_zero_le v0
  simp only [Int.toNat_natCast] at *
  have hn' : n ≤ 19 := by omega
  simp only [Geo.eq, Bool.and_eq_true, decide_eq_true_eq] at hc
  obtain ⟨c1, c2⟩ := hc
  rw [abs_lt] at c1 c2
  simp only [Bbox.center, tileBox] at c1 c2
  have hp : (0 : ℝ) < 2 ^ n := by positivity
  have hpn : (2 : ℝ) ^ n ≤ 2 ^ 19 := pow_le_pow_right₀ (by norm_num) hn'
  have ey : y' = y := by
    rcases lt_trichotomy y y' with hlt | rfl | hlt
    · have a := tileYToLat_spacing n hn' v3 hlt w4.le
      have b := tileYToLat_spacing n hn' (y := y + 1) (y' := y' + 1) (by omega) (by omega) (by omega)
      linarith
    · rfl
    · have a := tileYToLat_spacing n hn' w3 hlt v4.le
      have b := tileYToLat_spacing n hn' (y := y' + 1) (y' := y + 1) (by omega) (by omega) (by omega)
      linarith
  have key : ∀ a b : ℤ, a < b → dblEpsilon ≤ ((b : ℝ) - a) / 2 ^ n * 360 := by
    intro a b hab
    have : (1 : ℝ) ≤ b - a := by
      have : (a : ℝ) + 1 ≤ b := by exact_mod_cast hab
      linarith
    rw [div_mul_eq_mul_div, le_div_iff₀ hp, dblEpsilon]
    calc (1 : ℝ) / 2 ^ 52 * 2 ^ n ≤ 1 / 2 ^ 52 * 2 ^ 19 := mul_le_mul_of_nonneg_left hpn (by positivity)
      _ ≤ 1 * 360 := by norm_num
      _ ≤ (b - a) * 360 := by linarith
  have ex : x' = x := by
    simp only [tileXToLon, zpow_natCast] at c2
    push_cast at c2
    have e : (x : ℝ) / 2 ^ n * 360 - 180 + (((x : ℝ) + 1) / 2 ^ n * 360 - 180 - ((x : ℝ) / 2 ^ n * 360 - 180)) / 2 -
        ((x' : ℝ) / 2 ^ n * 360 - 180 + (((x' : ℝ) + 1) / 2 ^ n * 360 - 180 - ((x' : ℝ) / 2 ^ n * 360 - 180)) / 2) =
        ((x : ℝ) - x') / 2 ^ n * 360 := by ring
    rw [e] at c2
    rcases lt_trichotomy x x' with hlt | rfl | hlt
    · have := key x x' hlt
      have e3 : ((x' : ℝ) - x) / 2 ^ n * 360 = -(((x : ℝ) - x') / 2 ^ n * 360) := by ring
      linarith
    · rfl
    · have := key x' x hlt
      linarith
  rw [ex, ey]

theorem geo_eq_refl (c : Geo ℝ) : c.eq c = true := by
  simp [Geo.eq, dblEpsilon]

end Verif.Mercator
