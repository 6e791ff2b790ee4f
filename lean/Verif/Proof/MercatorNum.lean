import Mathlib.Analysis.SpecialFunctions.Trigonometric.Deriv
import Mathlib.Analysis.Real.Pi.Bounds
import Mathlib.Analysis.Calculus.Deriv.MeanValue
import Mathlib.Analysis.Complex.ExponentialBounds
import Mathlib.Analysis.Calculus.Deriv.Pow

/-! Numerical bounds at the latitude limit of the projection. -/
namespace Verif.Mercator
open Real

theorem nonneg_of_deriv {f f' : ℝ → ℝ} (h0 : f 0 = 0) (hd : ∀ x, HasDerivAt f (f' x) x)
    (hf' : ∀ x, 0 ≤ x → 0 ≤ f' x) (x : ℝ) (hx : 0 ≤ x) : 0 ≤ f x := by
  have hm : MonotoneOn f (Set.Ici 0) := by
    apply monotoneOn_of_deriv_nonneg (convex_Ici 0)
    · exact fun y _ => (hd y).continuousAt.continuousWithinAt
    · exact fun y _ => (hd y).differentiableAt.differentiableWithinAt
    · intro y hy
      rw [interior_Ici] at hy
      rw [(hd y).deriv]; exact hf' y (le_of_lt hy)
  have := hm (Set.mem_Ici.2 le_rfl) (Set.mem_Ici.2 hx) hx
  rwa [h0] at this

theorem sin_le1 (x : ℝ) (h : 0 ≤ x) : 0 ≤ x - sin x := by
  refine nonneg_of_deriv (f := fun x => x - sin x) (f' := fun x => 1 - cos x) (by simp)
    (fun x => (hasDerivAt_id x).sub (hasDerivAt_sin x)) (fun x _ => ?_) x h
  have := cos_le_one x; linarith

theorem cos_ge2 (x : ℝ) (h : 0 ≤ x) : 0 ≤ cos x - (1 - x ^ 2 / 2) := by
  refine nonneg_of_deriv (f := fun x => cos x - (1 - x ^ 2 / 2)) (f' := fun x => x - sin x) (by simp)
    (fun x => ?_) sin_le1 x h
  have h2 := ((hasDerivAt_pow 2 x).div_const 2).const_sub 1
  exact ((hasDerivAt_cos x).sub h2).congr_deriv (by push_cast; ring)

theorem sin_ge3 (x : ℝ) (h : 0 ≤ x) : 0 ≤ sin x - (x - x ^ 3 / 6) := by
  refine nonneg_of_deriv (f := fun x => sin x - (x - x ^ 3 / 6)) (f' := fun x => cos x - (1 - x ^ 2 / 2))
    (by simp) (fun x => ?_) cos_ge2 x h
  have h2 := (hasDerivAt_id x).sub ((hasDerivAt_pow 3 x).div_const 6)
  exact ((hasDerivAt_sin x).sub h2).congr_deriv (by push_cast; ring)

theorem cos_le4 (x : ℝ) (h : 0 ≤ x) : 0 ≤ 1 - x ^ 2 / 2 + x ^ 4 / 24 - cos x := by
  refine nonneg_of_deriv (f := fun x => 1 - x ^ 2 / 2 + x ^ 4 / 24 - cos x)
    (f' := fun x => sin x - (x - x ^ 3 / 6)) (by simp) (fun x => ?_) sin_ge3 x h
  have h2 := (((hasDerivAt_pow 2 x).div_const 2).const_sub 1).add ((hasDerivAt_pow 4 x).div_const 24)
  exact (h2.sub (hasDerivAt_cos x)).congr_deriv (by push_cast; ring)

theorem sin_le5 (x : ℝ) (h : 0 ≤ x) : 0 ≤ x - x ^ 3 / 6 + x ^ 5 / 120 - sin x := by
  refine nonneg_of_deriv (f := fun x => x - x ^ 3 / 6 + x ^ 5 / 120 - sin x)
    (f' := fun x => 1 - x ^ 2 / 2 + x ^ 4 / 24 - cos x) (by simp) (fun x => ?_) cos_le4 x h
  have h2 := ((hasDerivAt_id x).sub ((hasDerivAt_pow 3 x).div_const 6)).add ((hasDerivAt_pow 5 x).div_const 120)
  exact (h2.sub (hasDerivAt_sin x)).congr_deriv (by push_cast; ring)

theorem cos_ge6 (x : ℝ) (h : 0 ≤ x) : 0 ≤ cos x - (1 - x ^ 2 / 2 + x ^ 4 / 24 - x ^ 6 / 720) := by
  refine nonneg_of_deriv (f := fun x => cos x - (1 - x ^ 2 / 2 + x ^ 4 / 24 - x ^ 6 / 720))
    (f' := fun x => x - x ^ 3 / 6 + x ^ 5 / 120 - sin x) (by simp) (fun x => ?_) sin_le5 x h
  have h2 := ((((hasDerivAt_pow 2 x).div_const 2).const_sub 1).add ((hasDerivAt_pow 4 x).div_const 24)).sub
    ((hasDerivAt_pow 6 x).div_const 720)
  exact ((hasDerivAt_cos x).sub h2).congr_deriv (by push_cast; ring)

theorem sin_ge7 (x : ℝ) (h : 0 ≤ x) : 0 ≤ sin x - (x - x ^ 3 / 6 + x ^ 5 / 120 - x ^ 7 / 5040) := by
  refine nonneg_of_deriv (f := fun x => sin x - (x - x ^ 3 / 6 + x ^ 5 / 120 - x ^ 7 / 5040))
    (f' := fun x => cos x - (1 - x ^ 2 / 2 + x ^ 4 / 24 - x ^ 6 / 720)) (by simp) (fun x => ?_) cos_ge6 x h
  have h2 := (((hasDerivAt_id x).sub ((hasDerivAt_pow 3 x).div_const 6)).add
    ((hasDerivAt_pow 5 x).div_const 120)).sub ((hasDerivAt_pow 7 x).div_const 5040)
  exact ((hasDerivAt_sin x).sub h2).congr_deriv (by push_cast; ring)

/-- Half of the distance of the limit latitude to the pole, in radians: (90 - 85.05112877) / 2 degrees. -/
noncomputable def u0 : ℝ := (90 - 85.05112877) / 2 * π / 180


theorem u0_lo : (0.0431870486103 : ℝ) < u0 := by
  unfold u0; nlinarith [pi_gt_d20]

theorem u0_hi : u0 < (0.0431870486104 : ℝ) := by
  unfold u0; nlinarith [pi_lt_d20]

theorem sin_u0_lo : (0.0431736250157 : ℝ) < sin u0 := by
  have h0 := u0_lo; have h1 := u0_hi
  have mono : sin (0.0431870486103 : ℝ) ≤ sin u0 := by
    apply Real.sin_le_sin_of_le_of_le_pi_div_two <;> nlinarith [pi_gt_three]
  have := sin_ge7 0.0431870486103 (by norm_num)
  norm_num at this ⊢
  linarith

theorem cos_u0_hi : cos u0 < (0.9990675843611 : ℝ) := by
  have h0 := u0_lo; have h1 := u0_hi
  have mono : cos u0 ≤ cos (0.0431870486103 : ℝ) := by
    apply Real.cos_le_cos_of_nonneg_of_le_pi <;> nlinarith [pi_gt_three]
  have := cos_le4 0.0431870486103 (by norm_num)
  norm_num at this ⊢
  linarith

theorem sin_u0_hi : sin u0 < (0.0431736251 : ℝ) := by
  have h0 := u0_lo; have h1 := u0_hi
  have mono : sin u0 ≤ sin (0.0431870486104 : ℝ) := by
    apply Real.sin_le_sin_of_le_of_le_pi_div_two <;> nlinarith [pi_gt_three]
  have := sin_le5 0.0431870486104 (by norm_num)
  norm_num at this ⊢
  linarith

theorem cos_u0_lo : (0.9990675843 : ℝ) < cos u0 := by
  have h0 := u0_lo; have h1 := u0_hi
  have mono : cos (0.0431870486104 : ℝ) ≤ cos u0 := by
    apply Real.cos_le_cos_of_nonneg_of_le_pi <;> nlinarith [pi_gt_three]
  have := cos_ge6 0.0431870486104 (by norm_num)
  norm_num at this ⊢
  linarith

theorem exp_pi_lo : (23.14069263 : ℝ) < exp π := by
  have h : exp (π / 4) ^ 4 = exp π := by
    rw [← exp_nat_mul]; congr 1; push_cast; ring
  have h2 : exp (0.785398163397448 : ℝ) ≤ exp (π / 4) := exp_le_exp.2 (by nlinarith [pi_gt_d20])
  have h3 := Real.sum_le_exp_of_nonneg (x := 0.785398163397448) (by norm_num) 14
  have h4 : (2.193280050692 : ℝ) < exp (π / 4) := by
    refine lt_of_lt_of_le ?_ (h3.trans h2)
    norm_num [Finset.sum_range_succ, Nat.factorial]
  rw [← h]
  calc (23.14069263 : ℝ) < 2.193280050692 ^ 4 := by norm_num
    _ < _ := by gcongr

/-- The limit latitude is strictly inside the square map. -/
theorem limit_inside : cos u0 < exp π * sin u0 := by
  have h1 := sin_u0_lo; have h2 := cos_u0_hi; have h3 := exp_pi_lo
  calc cos u0 < 0.9990675843611 := h2
    _ < 23.14069263 * 0.0431736250157 := by norm_num
    _ < exp π * sin u0 := by gcongr

theorem exp_hi : exp (π - π / 2 ^ 18) < 23.14045 := by
  have h : exp ((π - π / 2 ^ 18) / 4) ^ 4 = exp (π - π / 2 ^ 18) := by
    rw [← exp_nat_mul]; congr 1; push_cast; ring
  have h2 : exp ((π - π / 2 ^ 18) / 4) ≤ exp (0.7853951674 : ℝ) :=
    exp_le_exp.2 (by nlinarith [pi_lt_d20])
  have h3 := Real.exp_bound' (x := 0.7853951674) (by norm_num) (by norm_num) (n := 12) (by norm_num)
  have h4 : exp ((π - π / 2 ^ 18) / 4) < (2.1932743 : ℝ) := by
    refine lt_of_le_of_lt (h2.trans h3) ?_
    norm_num [Finset.sum_range_succ, Nat.factorial]
  rw [← h]
  calc exp ((π - π / 2 ^ 18) / 4) ^ 4 < (2.1932743 : ℝ) ^ 4 := by gcongr
    _ < _ := by norm_num

/-- The limit latitude is in the outermost row of tiles up to lod 19. -/
theorem limit_outer_row : exp (π - π / 2 ^ 18) * sin u0 < cos u0 := by
  have h1 := sin_u0_hi; have h2 := cos_u0_lo; have h3 := exp_hi
  have : 0 < sin u0 := lt_trans (by norm_num) sin_u0_lo
  calc exp (π - π / 2 ^ 18) * sin u0 < 23.14045 * 0.0431736251 := by gcongr
    _ < 0.9990675843 := by norm_num
    _ < cos u0 := h2

end Verif.Mercator
