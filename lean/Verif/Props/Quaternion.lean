import Mathlib.Analysis.SpecialFunctions.Complex.Arg
import Mathlib.Tactic.LinearCombination
import Mathlib.Tactic.FieldSimp
import Mathlib.Tactic.NormNum
import Verif.Props.QuaternionSpec

/-! # C54 and C63: quaternions -/
namespace Verif.Props
open Verif.Quaternion Verif.QuaternionSpec

variable {K : Type} [Field K]

/-- C54: rotating by a quaternion keeps lengths and scalar products. -/
theorem C54_isometry (p : Quat K) (hp : sizeSq p ≠ 0) (u v : Vec3 K) :
    lengthSq (p.apply v) = lengthSq v ∧ Vec3.dot (p.apply u) (p.apply v) = Vec3.dot u v := by
  obtain ⟨x, y, z, w⟩ := p
  obtain ⟨a, b, c⟩ := u
  obtain ⟨d, e, f⟩ := v
  have hn : x * x + y * y + z * z + w * w ≠ 0 := by
    intro h; apply hp; simp only [sizeSq]; linear_combination h
  have hi : 1 / (x * x + y * y + z * z + w * w) * (x * x + y * y + z * z + w * w) = 1 := one_div_mul_cancel hn
  constructor
  · simp only [lengthSq, Quat.apply, Vec3.scale, Quat.norm]
    generalize 1 / (x * x + y * y + z * z + w * w) = i at hi
    linear_combination ((d ^ 2 + e ^ 2 + f ^ 2) * (i * (x * x + y * y + z * z + w * w) + 1)) * hi
  · simp only [Quat.apply, Vec3.dot, Vec3.scale, Quat.norm]
    generalize 1 / (x * x + y * y + z * z + w * w) = i at hi
    linear_combination ((a * d + b * e + c * f) * (i * (x * x + y * y + z * z + w * w) + 1)) * hi

/-- C54: rotating by a product is rotating twice. -/
theorem C54_compose (p q : Quat K) (hp : sizeSq p ≠ 0) (hq : sizeSq q ≠ 0) (v : Vec3 K) :
    (p.mul q).apply v = p.apply (q.apply v) := by
  obtain ⟨x, y, z, w⟩ := p
  obtain ⟨a, b, c, d⟩ := q
  obtain ⟨e, f, g⟩ := v
  have hn : x * x + y * y + z * z + w * w ≠ 0 := by
    intro h; apply hp; simp only [sizeSq]; linear_combination h
  have hm : a * a + b * b + c * c + d * d ≠ 0 := by
    intro h; apply hq; simp only [sizeSq]; linear_combination h
  have hmul : (Quat.mul (⟨x, y, z, w⟩ : Quat K) ⟨a, b, c, d⟩).norm = (x * x + y * y + z * z + w * w) * (a * a + b * b + c * c + d * d) := by
    simp only [Quat.mul, Quat.norm]; ring
  ext <;> (simp only [Quat.apply, Vec3.scale]; rw [hmul]; simp only [Quat.mul, Quat.norm]; field_simp; ring)

/-- C54: the inverse undoes the rotation, the identity does nothing. -/
theorem C54_inverse (p : Quat K) (hp : sizeSq p ≠ 0) (v : Vec3 K) :
    p.inversed.apply (p.apply v) = v ∧ p.mul p.inversed = Quat.identity ∧ Quat.identity.apply v = v := by
  have hn' : p.norm ≠ 0 := by
    intro h; apply hp; simp only [sizeSq]; simp only [Quat.norm] at h; linear_combination h
  obtain ⟨x, y, z, w⟩ := p
  have hn : x * x + y * y + z * z + w * w ≠ 0 := hn'
  have hin : (Quat.inversed (⟨x, y, z, w⟩ : Quat K)).norm = 1 / (x * x + y * y + z * z + w * w) := by
    simp only [Quat.inversed, Quat.norm]; field_simp
  have hid : ∀ v : Vec3 K, Quat.identity.apply v = v := by
    rintro ⟨a, b, c⟩
    simp [Quat.apply, Quat.identity, Vec3.scale, Quat.norm]
  have hl : Quat.mul (Quat.inversed (⟨x, y, z, w⟩ : Quat K)) ⟨x, y, z, w⟩ = Quat.identity := by
    have hi : 1 / (x * x + y * y + z * z + w * w) * (x * x + y * y + z * z + w * w) = 1 := one_div_mul_cancel hn
    simp only [Quat.inversed, Quat.mul, Quat.identity, Quat.norm]
    generalize 1 / (x * x + y * y + z * z + w * w) = i at hi
    ext
    · simp only; ring
    · simp only; ring
    · simp only; ring
    · simp only; linear_combination hi
  refine ⟨?_, ?_, hid v⟩
  · rw [← C54_compose _ _ ?_ hp, hl, hid]
    intro h
    have : sizeSq (Quat.inversed (⟨x, y, z, w⟩ : Quat K)) = (Quat.inversed (⟨x, y, z, w⟩ : Quat K)).norm := by
      simp only [sizeSq, Quat.norm]; ring
    rw [this, hin] at h
    exact one_div_ne_zero hn h
  · have hi : 1 / (x * x + y * y + z * z + w * w) * (x * x + y * y + z * z + w * w) = 1 := one_div_mul_cancel hn
    simp only [Quat.inversed, Quat.mul, Quat.identity, Quat.norm]
    generalize 1 / (x * x + y * y + z * z + w * w) = i at hi
    ext
    · simp only; ring
    · simp only; ring
    · simp only; ring
    · simp only; linear_combination hi

/-- C54: quaternions made from an angle and a unit axis, or from three angles, are unit. -/
theorem C54_unit (s c : K) (h : s ^ 2 + c ^ 2 = 1) (v : Vec3 K) (hv : lengthSq v = 1) : sizeSq (fromAngleAxis s c v) = 1 := by
  simp only [lengthSq] at hv
  simp only [sizeSq, fromAngleAxis]
  linear_combination h + s ^ 2 * hv

theorem C54_euler_unit (c0 s0 c1 s1 c2 s2 : K) (h0 : s0 ^ 2 + c0 ^ 2 = 1) (h1 : s1 ^ 2 + c1 ^ 2 = 1) (h2 : s2 ^ 2 + c2 ^ 2 = 1) :
    sizeSq (fromEulerAngles c0 s0 c1 s1 c2 s2) = 1 := by
  simp only [sizeSq, fromEulerAngles]
  have : (c0 * s1 * c2 - s0 * c1 * s2) ^ 2 + (c0 * c1 * s2 + s0 * s1 * c2) ^ 2 + (s0 * c1 * c2 - c0 * s1 * s2) ^ 2 +
      (c0 * c1 * c2 + s0 * s1 * s2) ^ 2 = (s0 ^ 2 + c0 ^ 2) * (s1 ^ 2 + c1 ^ 2) * (s2 ^ 2 + c2 ^ 2) := by ring
  rw [this, h0, h1, h2]; ring

/-- C54: a rotation about an axis leaves the axis alone and turns a perpendicular vector by the angle: with `s`, `c` sine and cosine of half
the angle, by cosine `c² - s²` and sine `2sc`. -/
theorem C54_angle (s c : K) (h : s ^ 2 + c ^ 2 = 1) (a v : Vec3 K) (ha : lengthSq a = 1) (hp : Vec3.dot a v = 0) :
    (fromAngleAxis s c a).apply a = a ∧
    (fromAngleAxis s c a).apply v = (v.scale (c ^ 2 - s ^ 2)).add ((Vec3.cross a v).scale (2 * s * c)) := by
  have hu := C54_unit s c h a ha
  have hn : (fromAngleAxis s c a).norm = 1 := by
    simp only [sizeSq] at hu; simp only [Quat.norm]; linear_combination hu
  obtain ⟨x, y, z⟩ := a
  obtain ⟨d, e, f⟩ := v
  simp only [lengthSq, Vec3.dot] at ha hp
  constructor
  · ext <;> simp only [Quat.apply, hn] <;> simp only [fromAngleAxis, Vec3.scale]
    · linear_combination x * h + x * s ^ 2 * ha
    · linear_combination y * h + y * s ^ 2 * ha
    · linear_combination z * h + z * s ^ 2 * ha
  · ext <;> simp only [Quat.apply, hn] <;> simp only [fromAngleAxis, Vec3.scale, Vec3.add, Vec3.cross]
    · linear_combination 2 * x * s ^ 2 * hp - d * s ^ 2 * ha
    · linear_combination 2 * y * s ^ 2 * hp - e * s ^ 2 * ha
    · linear_combination 2 * z * s ^ 2 * hp - f * s ^ 2 * ha

/-- C54 is false for the member function `rotate`: it uses components it has overwritten already. -/
theorem C54_violated_rotate : ∃ p q : Quat ℚ, sizeSq p = 1 ∧ sizeSq q = 1 ∧ p.rotate q ≠ p.mul q ∧ sizeSq (p.rotate q) ≠ 1 := by
  refine ⟨⟨3 / 5, 0, 4 / 5, 0⟩, ⟨0, 1, 0, 0⟩, ?_, ?_, ?_, ?_⟩
  · norm_num [sizeSq]
  · norm_num [sizeSq]
  · intro h
    have := congrArg Quat.z h
    norm_num [Quat.rotate, Quat.mul] at this
  · norm_num [sizeSq, Quat.rotate]

/-! ## Interpolation -/

/-- The assumption about `atan2` can be met. -/
theorem C63_atan2_exists : ∃ f, IsAtan2 f := by
  refine ⟨fun s c => Complex.arg ⟨c, s⟩, ?_⟩
  intro s c h
  have hn : ‖(⟨c, s⟩ : ℂ)‖ = 1 := by
    rw [Complex.norm_def, Complex.normSq_mk, Real.sqrt_eq_one]; linear_combination h
  have h0 : (⟨c, s⟩ : ℂ) ≠ 0 := by
    intro h; rw [h] at hn; simp at hn
  rw [Complex.sin_arg, Complex.cos_arg h0, hn]
  simp

/-- C63: between unit quaternions at an angle of at most 90 degrees, and not almost equal, interpolation yields unit quaternions and both
ends. Partial: it is wrong for larger angles, see `C63_violated_far`, and not unit for almost equal ones, see `C63_violated_close`. -/
theorem C63_slerp_partial (atan2 : ℝ → ℝ → ℝ) (ha : IsAtan2 atan2) (q0 q1 : Quat ℝ) (h0 : sizeSq q0 = 1) (h1 : sizeSq q1 = 1)
    (hpos : 0 ≤ inner q0 q1) (hfar : inner q0 q1 ≤ 9999 / 10000) (t : ℝ) :
    sizeSq (slerp atan2 q0 q1 t) = 1 ∧ slerp atan2 q0 q1 0 = q0 ∧ slerp atan2 q0 q1 1 = q1 := by
  set c := inner q0 q1 with hc
  have hcos : q0.w * q1.w + q0.x * q1.x + q0.y * q1.y + q0.z * q1.z = c := by rw [hc, inner]; ring
  set s := Real.sqrt (1 - c * c) with hs
  have hnn : 0 < 1 - c * c := by nlinarith
  have hspos : 0 < s := Real.sqrt_pos.2 hnn
  have hsq : s ^ 2 = 1 - c * c := Real.sq_sqrt hnn.le
  obtain ⟨hsin, hcosw⟩ := ha s c (by rw [hsq]; ring)
  set ω := atan2 s c with hω
  have form : ∀ t, slerp atan2 q0 q1 t =
      ⟨q0.x * (Real.sin ((1 - t) * ω) * (1 / s)) + q1.x * (Real.sin (t * ω) * (1 / s)),
       q0.y * (Real.sin ((1 - t) * ω) * (1 / s)) + q1.y * (Real.sin (t * ω) * (1 / s)),
       q0.z * (Real.sin ((1 - t) * ω) * (1 / s)) + q1.z * (Real.sin (t * ω) * (1 / s)),
       q0.w * (Real.sin ((1 - t) * ω) * (1 / s)) + q1.w * (Real.sin (t * ω) * (1 / s))⟩ := by
    intro t
    simp only [slerp, hcos, if_neg (not_lt.2 hpos), if_neg (not_lt.2 hfar), mul_one, ← hs, ← hω]
  refine ⟨?_, ?_, ?_⟩
  · rw [form]
    set A := Real.sin ((1 - t) * ω) with hA
    set B := Real.sin (t * ω) with hB
    set C := Real.cos (t * ω) with hC
    have hA' : A = s * C - c * B := by
      have : (1 - t) * ω = ω - t * ω := by ring
      rw [hA, this, Real.sin_sub, hsin, hcosw]
    have hBC : B ^ 2 + C ^ 2 = 1 := Real.sin_sq_add_cos_sq _
    have hexp : sizeSq (⟨q0.x * (A * (1 / s)) + q1.x * (B * (1 / s)), q0.y * (A * (1 / s)) + q1.y * (B * (1 / s)),
        q0.z * (A * (1 / s)) + q1.z * (B * (1 / s)), q0.w * (A * (1 / s)) + q1.w * (B * (1 / s))⟩ : Quat ℝ) =
        (1 / s) ^ 2 * (A ^ 2 * sizeSq q0 + B ^ 2 * sizeSq q1 + 2 * A * B * inner q0 q1) := by
      simp only [sizeSq, inner]; ring
    rw [hexp, h0, h1, ← hc]
    have hfin : A ^ 2 * 1 + B ^ 2 * 1 + 2 * A * B * c = s ^ 2 := by
      rw [hA']
      linear_combination s ^ 2 * hBC - B ^ 2 * hsq
    rw [hfin]
    field_simp
  · rw [form]
    ext <;> simp only [sub_zero, one_mul, zero_mul, Real.sin_zero, hsin, mul_zero, add_zero] <;> field_simp
  · rw [form]
    ext <;> simp only [sub_self, one_mul, zero_mul, Real.sin_zero, hsin, mul_zero, zero_add] <;> field_simp

/-- C63 is false for quaternions more than 90 degrees apart: both are negated instead of one, and half way the result is not unit. -/
theorem C63_violated_far (atan2 : ℝ → ℝ → ℝ) (ha : IsAtan2 atan2) : ∃ q0 q1 : Quat ℝ, sizeSq q0 = 1 ∧ sizeSq q1 = 1 ∧
    slerp atan2 q0 q1 0 ≠ q0 ∧ sizeSq (slerp atan2 q0 q1 (1 / 2)) < 1 := by
  refine ⟨⟨0, 0, 0, 1⟩, ⟨4 / 5, 0, 0, -3 / 5⟩, by norm_num [sizeSq], by norm_num [sizeSq], ?_, ?_⟩
  · obtain ⟨hsin, -⟩ := ha (4 / 5) (3 / 5) (by norm_num)
    have hsq : Real.sqrt (1 - 3 / 5 * (3 / 5)) = 4 / 5 := by
      rw [show (1 : ℝ) - 3 / 5 * (3 / 5) = (4 / 5) ^ 2 by norm_num]; exact Real.sqrt_sq (by norm_num)
    intro h
    have := congrArg Quat.w h
    have hlt : (1 : ℝ) * (-3 / 5) + 0 * (4 / 5) + 0 * 0 + 0 * 0 < 0 := by norm_num
    have hneg : -((1 : ℝ) * (-3 / 5) + 0 * (4 / 5) + 0 * 0 + 0 * 0) = 3 / 5 := by norm_num
    have hsmall : ¬ (9999 / 10000 : ℝ) < 3 / 5 := by norm_num
    simp only [slerp, if_pos hlt, hneg, if_neg hsmall, hsq] at this
    simp only [sub_zero, one_mul, zero_mul, Real.sin_zero, hsin] at this
    norm_num at this
  · obtain ⟨hsin, hcos⟩ := ha (4 / 5) (3 / 5) (by norm_num)
    have hsq : Real.sqrt (1 - 3 / 5 * (3 / 5)) = 4 / 5 := by
      rw [show (1 : ℝ) - 3 / 5 * (3 / 5) = (4 / 5) ^ 2 by norm_num]; exact Real.sqrt_sq (by norm_num)
    have hlt : (1 : ℝ) * (-3 / 5) + 0 * (4 / 5) + 0 * 0 + 0 * 0 < 0 := by norm_num
    have hneg : -((1 : ℝ) * (-3 / 5) + 0 * (4 / 5) + 0 * 0 + 0 * 0) = 3 / 5 := by norm_num
    have hsmall : ¬ (9999 / 10000 : ℝ) < 3 / 5 := by norm_num
    have hhalf : ((1 : ℝ) - 1 / 2) = 1 / 2 := by norm_num
    set S := Real.sin (1 / 2 * atan2 (4 / 5) (3 / 5)) with hS
    have hS2 : S ^ 2 = 1 / 5 := by
      have h2 : Real.cos (atan2 (4 / 5) (3 / 5)) = 1 - 2 * S ^ 2 := by
        have := Real.cos_two_mul (1 / 2 * atan2 (4 / 5) (3 / 5))
        rw [show 2 * (1 / 2 * atan2 (4 / 5) (3 / 5)) = atan2 (4 / 5) (3 / 5) by ring] at this
        have h3 := Real.sin_sq_add_cos_sq (1 / 2 * atan2 (4 / 5) (3 / 5))
        rw [this]; linear_combination 2 * h3
      rw [hcos] at h2
      linarith
    simp only [slerp, if_pos hlt, hneg, if_neg hsmall, hsq, hhalf, ← hS, sizeSq]
    nlinarith [hS2]

/-- C63 is false for almost equal quaternions: the linear interpolation is not unit. -/
theorem C63_violated_close (atan2 : ℝ → ℝ → ℝ) : ∃ q0 q1 : Quat ℝ, sizeSq q0 = 1 ∧ sizeSq q1 = 1 ∧
    sizeSq (slerp atan2 q0 q1 (1 / 2)) < 1 := by
  -- 2·200/(200²+1), (200²-1)/(200²+1)
  refine ⟨⟨0, 0, 0, 1⟩, ⟨400 / 40001, 0, 0, 39999 / 40001⟩, by norm_num [sizeSq], by norm_num [sizeSq], ?_⟩
  have hge : ¬ (1 : ℝ) * (39999 / 40001) + 0 * (400 / 40001) + 0 * 0 + 0 * 0 < 0 := by norm_num
  have hcl : (9999 / 10000 : ℝ) < (1 : ℝ) * (39999 / 40001) + 0 * (400 / 40001) + 0 * 0 + 0 * 0 := by norm_num
  simp only [slerp, if_neg hge, if_pos hcl, sizeSq]
  norm_num

example : sizeSq (⟨1, 2, 3, 4⟩ : Quat ℚ) ≠ 0 := by norm_num [sizeSq]
example : 0 ≤ inner (⟨0, 0, 0, 1⟩ : Quat ℝ) ⟨4 / 5, 0, 0, 3 / 5⟩ ∧ inner (⟨0, 0, 0, 1⟩ : Quat ℝ) ⟨4 / 5, 0, 0, 3 / 5⟩ ≤ 9999 / 10000 := by
  norm_num [inner]

end Verif.Props
