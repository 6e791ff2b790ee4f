import Verif.Model.Mercator
import Verif.Proof.Tiles
import Verif.Proof.MercatorNum
import Mathlib.Analysis.SpecialFunctions.Arsinh

namespace Verif.Mercator
open Real

/-- The mercator ordinate computed by `latToTileY`, for an angle in radians. -/
noncomputable def merc (φ : ℝ) : ℝ := log (tan φ + 1 / cos φ)

theorem merc_eq (φ : ℝ) (h1 : -(π / 2) < φ) (h2 : φ < π / 2) : merc φ = arsinh (tan φ) := by
  unfold merc arsinh
  have hc : 0 < cos φ := cos_pos_of_mem_Ioo ⟨h1, h2⟩
  have : √(1 + tan φ ^ 2) = 1 / cos φ := by
    have := inv_sqrt_one_add_tan_sq hc
    rw [← this, one_div, inv_inv]
  rw [this]

theorem merc_le_iff (φ n : ℝ) (h1 : -(π / 2) < φ) (h2 : φ < π / 2) :
    merc φ ≤ n ↔ φ ≤ arctan (sinh n) := by
  rw [merc_eq φ h1 h2]
  conv_rhs => rw [← arctan_tan h1 h2]
  rw [arctan_le_arctan_iff, ← sinh_le_sinh, sinh_arsinh]

theorem merc_strictMono (φ ψ : ℝ) (h1 : -(π / 2) < φ) (h2 : φ < π / 2) (h3 : -(π / 2) < ψ) (h4 : ψ < π / 2)
    (h : φ ≤ ψ) : merc φ ≤ merc ψ := by
  rw [merc_le_iff φ _ h1 h2]
  exact h.trans ((merc_le_iff ψ _ h3 h4).1 le_rfl)

theorem merc_neg (φ : ℝ) (h1 : -(π / 2) < φ) (h2 : φ < π / 2) : merc (-φ) = - merc φ := by
  rw [merc_eq φ h1 h2, merc_eq (-φ) (by linarith) (by linarith), tan_neg, arsinh_neg]

theorem merc_pole (u : ℝ) (h1 : 0 < u) (h2 : u < π / 2) : merc (π / 2 - 2 * u) = log (cos u / sin u) := by
  have hs : 0 < sin u := sin_pos_of_pos_of_lt_pi h1 (by linarith)
  have hc : 0 < cos u := cos_pos_of_mem_Ioo ⟨by linarith, h2⟩
  unfold merc
  congr 1
  rw [tan_eq_sin_div_cos, cos_pi_div_two_sub, sin_pi_div_two_sub, cos_two_mul, sin_two_mul]
  field_simp
  ring

/-- The limit of latitude in degrees. -/
noncomputable def latLimit : ℝ := 85.05112877

theorem u0_pos : 0 < u0 := lt_trans (by norm_num) u0_lo
theorem u0_lt : u0 < π / 2 := lt_trans u0_hi (by nlinarith [pi_gt_three])

theorem latLimit_rad : latLimit * π / 180 = π / 2 - 2 * u0 := by unfold latLimit u0; ring

theorem merc_limit_lt : merc (latLimit * π / 180) < π := by
  rw [latLimit_rad, merc_pole _ u0_pos u0_lt]
  have hs : 0 < sin u0 := lt_trans (by norm_num) sin_u0_lo
  have hc : 0 < cos u0 := lt_trans (by norm_num) cos_u0_lo
  rw [log_lt_iff_lt_exp (by positivity), div_lt_iff₀ hs]
  exact limit_inside

theorem merc_limit_gt : π - π / 2 ^ 18 < merc (latLimit * π / 180) := by
  rw [latLimit_rad, merc_pole _ u0_pos u0_lt]
  have hs : 0 < sin u0 := lt_trans (by norm_num) sin_u0_lo
  have hc : 0 < cos u0 := lt_trans (by norm_num) cos_u0_lo
  rw [lt_log_iff_exp_lt (by positivity), lt_div_iff₀ hs]
  exact limit_outer_row

theorem rad_range {lat : ℝ} (h : -90 < lat ∧ lat < 90) :
    -(π / 2) < lat * π / 180 ∧ lat * π / 180 < π / 2 := by
  have := pi_pos
  constructor <;> nlinarith [h.1, h.2]

/-- The fractional row of a latitude. -/
noncomputable def row (lat : ℝ) : ℝ := (1 - merc (lat * π / 180) / π) / 2

theorem latToTileY_eq (lat : ℝ) (lod : ℤ) : latToTileY lat lod = ⌊row lat * (2 : ℝ) ^ lod⌋ := rfl

theorem row_anti {a b : ℝ} (ha : -90 < a ∧ a < 90) (hb : -90 < b ∧ b < 90) (h : a ≤ b) : row b ≤ row a := by
  have hp := pi_pos
  have := merc_strictMono (a * π / 180) (b * π / 180) (rad_range ha).1 (rad_range ha).2 (rad_range hb).1
    (rad_range hb).2 (by gcongr)
  unfold row
  have : merc (a * π / 180) / π ≤ merc (b * π / 180) / π := by gcongr
  linarith

theorem row_neg {a : ℝ} (ha : -90 < a ∧ a < 90) : row (-a) = 1 - row a := by
  unfold row
  rw [show -a * π / 180 = -(a * π / 180) by ring, merc_neg _ (rad_range ha).1 (rad_range ha).2]
  ring

theorem row_limit : 0 < row latLimit ∧ row latLimit < 1 / 2 ^ 19 := by
  have hp := pi_pos
  have h1 := merc_limit_lt; have h2 := merc_limit_gt
  unfold row
  constructor
  · have : merc (latLimit * π / 180) / π < 1 := by rw [div_lt_one hp]; exact h1
    linarith
  · have : 1 - 1 / 2 ^ 18 < merc (latLimit * π / 180) / π := by
      rw [lt_div_iff₀ hp]; calc _ = π - π / 2 ^ 18 := by ring
        _ < _ := h2
    norm_num at this ⊢
    linarith

theorem latLimit_range : -90 < latLimit ∧ latLimit < 90 := by unfold latLimit; norm_num

theorem row_range {a : ℝ} (h1 : -latLimit ≤ a) (h2 : a ≤ latLimit) : 0 < row a ∧ row a < 1 := by
  have hr := row_limit
  have hl := latLimit_range
  have ha : -90 < a ∧ a < 90 := by constructor <;> linarith
  have g1 := row_anti ha hl h2
  have g2 := row_anti (a := -latLimit) (b := a) (by constructor <;> linarith) ha h1
  rw [row_neg hl] at g2
  constructor <;> linarith

theorem sinh_half (n : ℝ) : (0.5 : ℝ) * (exp n - exp (-n)) = sinh n := by rw [sinh_eq]; norm_num; ring

theorem zpow_pos2 (lod : ℤ) : (0 : ℝ) < (2 : ℝ) ^ lod := by positivity

/-- The border latitude of row `y` as a comparison on rows. -/
theorem le_tileYToLat_iff {lat : ℝ} (h : -90 < lat ∧ lat < 90) (y lod : ℤ) :
    lat ≤ tileYToLat y lod ↔ (y : ℝ) ≤ row lat * (2 : ℝ) ^ lod := by
  have hp := pi_pos
  have hz := zpow_pos2 lod
  have hr := rad_range h
  simp only [tileYToLat, sinh_half]
  have e1 : lat ≤ 180 / π * arctan (sinh (π - 2 * π * y / (2 : ℝ) ^ lod)) ↔
      lat * π / 180 ≤ arctan (sinh (π - 2 * π * y / (2 : ℝ) ^ lod)) := by
    rw [div_mul_eq_mul_div, le_div_iff₀ hp, div_le_iff₀ (by norm_num : (0 : ℝ) < 180),
      mul_comm (arctan _)]
  rw [e1, ← merc_le_iff _ _ hr.1 hr.2]
  unfold row
  generalize merc (lat * π / 180) = m
  generalize (2 : ℝ) ^ lod = z at *
  rw [show π - 2 * π * y / z = π * (1 - 2 * y / z) by ring, ← div_le_iff₀' hp]
  generalize m / π = k
  rw [le_sub_comm, div_le_iff₀ hz]
  constructor <;> intro h <;> linarith

theorem tileYToLat_lt_iff {lat : ℝ} (h : -90 < lat ∧ lat < 90) (y lod : ℤ) :
    tileYToLat y lod < lat ↔ row lat * (2 : ℝ) ^ lod < (y : ℝ) := by
  rw [← not_le, le_tileYToLat_iff h, not_le]

theorem tileYToLat_range (y lod : ℤ) : -90 < tileYToLat y lod ∧ tileYToLat y lod < 90 := by
  have hp := pi_pos
  simp only [tileYToLat]
  generalize (0.5 : ℝ) * _ = t
  have h1 := neg_pi_div_two_lt_arctan t
  have h2 := arctan_lt_pi_div_two t
  rw [div_mul_eq_mul_div, lt_div_iff₀ hp, div_lt_iff₀ hp]
  constructor <;> linarith

/-- The row of a latitude is `y` exactly when the latitude is in the half-open strip of the row. -/
theorem latToTileY_iff {lat : ℝ} (h : -90 < lat ∧ lat < 90) (y lod : ℤ) :
    latToTileY lat lod = y ↔ tileYToLat (y + 1) lod < lat ∧ lat ≤ tileYToLat y lod := by
  rw [latToTileY_eq, Int.floor_eq_iff, le_tileYToLat_iff h, tileYToLat_lt_iff h]
  push_cast
  tauto

theorem lonToTileX_iff (lon : ℝ) (x lod : ℤ) :
    lonToTileX lon lod = x ↔ tileXToLon x lod ≤ lon ∧ lon < tileXToLon (x + 1) lod := by
  have hz := zpow_pos2 lod
  unfold lonToTileX tileXToLon
  rw [Int.floor_eq_iff]
  push_cast
  generalize (2 : ℝ) ^ lod = z at *
  have e1 : (x : ℝ) ≤ (lon + 180) / 360 * z ↔ (x : ℝ) / z * 360 - 180 ≤ lon := by
    rw [← div_le_iff₀ hz, le_div_iff₀ (by norm_num)]
    constructor <;> intro h <;> linarith
  have e2 : (lon + 180) / 360 * z < (x : ℝ) + 1 ↔ lon < ((x : ℝ) + 1) / z * 360 - 180 := by
    rw [← lt_div_iff₀ hz, div_lt_iff₀ (by norm_num)]
    constructor <;> intro h <;> linarith
  rw [e1, e2]

theorem lonToTileX_mono {a b : ℝ} (h : a ≤ b) (lod : ℤ) : lonToTileX a lod ≤ lonToTileX b lod := by
  have hz := zpow_pos2 lod
  unfold lonToTileX
  apply Int.floor_le_floor
  gcongr

theorem latToTileY_anti {a b : ℝ} (ha : -90 < a ∧ a < 90) (hb : -90 < b ∧ b < 90) (h : a ≤ b) (lod : ℤ) :
    latToTileY b lod ≤ latToTileY a lod := by
  have hz := zpow_pos2 lod
  rw [latToTileY_eq, latToTileY_eq]
  apply Int.floor_le_floor
  have := row_anti ha hb h
  gcongr

theorem clamp_mono {a b lo hi : ℝ} (h : a ≤ b) : clamp a lo hi ≤ clamp b lo hi := by
  unfold clamp; gcongr

theorem clamp_range {a lo hi : ℝ} (h : lo ≤ hi) : lo ≤ clamp a lo hi ∧ clamp a lo hi ≤ hi :=
  ⟨le_max_left _ _, max_le h (min_le_right _ _)⟩

theorem clamp_id {a lo hi : ℝ} (h1 : lo ≤ a) (h2 : a ≤ hi) : clamp a lo hi = a := by
  unfold clamp; rw [min_eq_left h2, max_eq_right h1]

theorem clampLat_range (c : Geo ℝ) : -latLimit ≤ (clampGeo c).lat ∧ (clampGeo c).lat ≤ latLimit := by
  unfold clampGeo latLimit
  exact clamp_range (by norm_num)

theorem clampLat_range' (c : Geo ℝ) : -90 < (clampGeo c).lat ∧ (clampGeo c).lat < 90 := by
  have := clampLat_range c
  have := latLimit_range
  constructor <;> linarith

theorem clampLon_range (c : Geo ℝ) : -179.9999999 ≤ (clampGeo c).lon ∧ (clampGeo c).lon ≤ 179.9999999 :=
  clamp_range (by norm_num)

theorem floor_in_range {t : ℝ} (h0 : 0 < t) (h1 : t < 1) (lod : ℤ) (hl : 0 ≤ lod) :
    0 ≤ ⌊t * (2 : ℝ) ^ lod⌋ ∧ ⌊t * (2 : ℝ) ^ lod⌋ < 2 ^ lod.toNat := by
  have hz := zpow_pos2 lod
  constructor
  · apply Int.floor_nonneg.2; positivity
  · apply Int.floor_lt.2
    obtain ⟨n, rfl⟩ := Int.eq_ofNat_of_zero_le hl
    simp only [zpow_natCast, Int.toNat_natCast] at hz ⊢
    push_cast
    calc t * 2 ^ n < 1 * 2 ^ n := by gcongr
      _ = _ := one_mul _

end Verif.Mercator

namespace Verif.Mercator
open Real

/-- The fractional column of a longitude. -/
noncomputable def col (lon : ℝ) : ℝ := (lon + 180) / 360

theorem lonToTileX_eq (lon : ℝ) (lod : ℤ) : lonToTileX lon lod = ⌊col lon * (2 : ℝ) ^ lod⌋ := rfl

theorem tileXToLon_le_iff (lon : ℝ) (x lod : ℤ) :
    tileXToLon x lod ≤ lon ↔ (x : ℝ) ≤ col lon * (2 : ℝ) ^ lod := by
  have hz := zpow_pos2 lod
  unfold tileXToLon col
  rw [← div_le_iff₀ hz, le_div_iff₀ (by norm_num)]
  constructor <;> intro h <;> linarith

theorem le_tileXToLon_iff (lon : ℝ) (x lod : ℤ) :
    lon ≤ tileXToLon x lod ↔ col lon * (2 : ℝ) ^ lod ≤ (x : ℝ) := by
  have hz := zpow_pos2 lod
  unfold tileXToLon col
  rw [← le_div_iff₀ hz, div_le_iff₀ (by norm_num)]
  constructor <;> intro h <;> linarith

theorem row_tileYToLat (y lod : ℤ) : row (tileYToLat y lod) * (2 : ℝ) ^ lod = y := by
  have hp := pi_pos
  have hz := zpow_pos2 lod
  unfold row tileYToLat
  simp only [sinh_half]
  generalize hn : π - 2 * π * (y : ℝ) / (2 : ℝ) ^ lod = n
  have e : 180 / π * arctan (sinh n) * π / 180 = arctan (sinh n) := by field_simp
  rw [e, merc_eq _ (neg_pi_div_two_lt_arctan _) (arctan_lt_pi_div_two _), tan_arctan, arsinh_sinh, ← hn]
  field_simp
  ring

theorem tileYToLat_le_iff {lat : ℝ} (h : -90 < lat ∧ lat < 90) (y lod : ℤ) :
    tileYToLat y lod ≤ lat ↔ row lat * (2 : ℝ) ^ lod ≤ (y : ℝ) := by
  have hz := zpow_pos2 lod
  constructor
  · intro hl
    have := row_anti (tileYToLat_range y lod) h hl
    rw [← row_tileYToLat y lod]; gcongr
  · intro hl
    by_contra hc
    rw [not_le] at hc
    have h1 := (le_tileYToLat_iff h y lod).1 hc.le
    have h2 : row lat * (2 : ℝ) ^ lod = row (tileYToLat y lod) * (2 : ℝ) ^ lod := by
      rw [row_tileYToLat]; linarith
    have h3 : row lat = row (tileYToLat y lod) := mul_right_cancel₀ hz.ne' h2
    -- `row` is injective through `merc`
    have hp := pi_pos
    have h4 : merc (lat * π / 180) = merc (tileYToLat y lod * π / 180) := by
      unfold row at h3
      have : merc (lat * π / 180) / π = merc (tileYToLat y lod * π / 180) / π := by linarith
      exact (div_left_inj' hp.ne').1 this
    have hr := rad_range h
    have hr' := rad_range (tileYToLat_range y lod)
    rw [merc_eq _ hr.1 hr.2, merc_eq _ hr'.1 hr'.2, arsinh_inj] at h4
    have := congrArg arctan h4
    rw [arctan_tan hr.1 hr.2, arctan_tan hr'.1 hr'.2] at this
    have : lat * π = tileYToLat y lod * π := by linarith
    exact absurd (mul_right_cancel₀ hp.ne' this) hc.ne

/-- One dimension of tile ownership: `t` is the exact fractional position, `c` the clamped one. -/
theorem cell_iff {t c : ℝ} {n : ℕ} (hn : n ≤ 19) (x : ℤ) (hx : 0 ≤ x) (hx' : x < 2 ^ n)
    (h0 : 0 ≤ t) (h1 : t ≤ 1)
    (hc : (c = t ∧ t < 1) ∨ (0 ≤ c ∧ c < 1 / 2 ^ 19 ∧ t < 1 / 2 ^ 19) ∨
      (1 - 1 / 2 ^ 19 < c ∧ c < 1 ∧ 1 - 1 / 2 ^ 19 < t)) :
    ⌊c * (2 : ℝ) ^ n⌋ = x ↔
      (x : ℝ) ≤ t * (2 : ℝ) ^ n ∧ (t * (2 : ℝ) ^ n < x + 1 ∨ x + 1 = 2 ^ n ∧ t * (2 : ℝ) ^ n ≤ x + 1) := by
  have hz : (0 : ℝ) < 2 ^ n := by positivity
  have hz19 : (2 : ℝ) ^ n * (1 / 2 ^ 19) ≤ 1 := by
    have : (2 : ℝ) ^ n ≤ 2 ^ 19 := pow_le_pow_right₀ (by norm_num) hn
    calc (2 : ℝ) ^ n * (1 / 2 ^ 19) ≤ 2 ^ 19 * (1 / 2 ^ 19) := by gcongr
      _ = 1 := by norm_num
  have hxr : (x : ℝ) + 1 ≤ 2 ^ n := by exact_mod_cast hx'
  have hx0 : (0 : ℝ) ≤ x := by exact_mod_cast hx
  rw [Int.floor_eq_iff]
  rcases hc with ⟨rfl, ht⟩ | ⟨c0, c1, t1⟩ | ⟨c0, c1, t1⟩
  · constructor
    · rintro ⟨a, b⟩; exact ⟨a, .inl b⟩
    · rintro ⟨a, b | ⟨b, _⟩⟩
      · exact ⟨a, b⟩
      · refine ⟨a, ?_⟩
        have : (x : ℝ) + 1 = 2 ^ n := by exact_mod_cast b
        rw [this]
        calc c * 2 ^ n < 1 * 2 ^ n := by gcongr
          _ = _ := one_mul _
  · have hcz : c * 2 ^ n < 1 := by
      calc c * 2 ^ n < 1 / 2 ^ 19 * 2 ^ n := by gcongr
        _ ≤ 1 := by linarith
    have htz : t * 2 ^ n < 1 := by
      calc t * 2 ^ n < 1 / 2 ^ 19 * 2 ^ n := by gcongr
        _ ≤ 1 := by linarith
    have hc0 : 0 ≤ c * 2 ^ n := by positivity
    have ht0 : 0 ≤ t * 2 ^ n := by positivity
    have aux : ∀ r : ℝ, r < 1 → (x : ℝ) ≤ r → x = 0 := by
      intro r hr h
      have : (x : ℝ) < 1 := by linarith
      have : x < 1 := by exact_mod_cast this
      omega
    constructor
    · rintro ⟨a, b⟩
      have := aux _ hcz a
      subst this
      simp only [Int.cast_zero, zero_add]
      exact ⟨ht0, .inl htz⟩
    · rintro ⟨a, -⟩
      have := aux _ htz a
      subst this
      simp only [Int.cast_zero, zero_add]
      exact ⟨hc0, hcz⟩
  · have hcz : (2 : ℝ) ^ n - 1 < c * 2 ^ n := by
      calc (2 : ℝ) ^ n - 1 ≤ (1 - 1 / 2 ^ 19) * 2 ^ n := by linarith
        _ < _ := by gcongr
    have htz : (2 : ℝ) ^ n - 1 < t * 2 ^ n := by
      calc (2 : ℝ) ^ n - 1 ≤ (1 - 1 / 2 ^ 19) * 2 ^ n := by linarith
        _ < _ := by gcongr
    have hc1 : c * 2 ^ n < 2 ^ n := by
      calc c * 2 ^ n < 1 * 2 ^ n := by gcongr
        _ = _ := one_mul _
    have ht1 : t * 2 ^ n ≤ 2 ^ n := by
      calc t * 2 ^ n ≤ 1 * 2 ^ n := by gcongr
        _ = _ := one_mul _
    have aux : ∀ r : ℝ, (2 : ℝ) ^ n - 1 < r → r ≤ x + 1 → x + 1 = 2 ^ n := by
      intro r hr h
      have : (2 : ℝ) ^ n - 1 < x + 1 := by linarith
      have : (2 : ℤ) ^ n - 1 < x + 1 := by exact_mod_cast this
      omega
    constructor
    · rintro ⟨a, b⟩
      have := aux _ hcz b.le
      have e : (x : ℝ) + 1 = 2 ^ n := by exact_mod_cast this
      exact ⟨by linarith, .inr ⟨this, by linarith⟩⟩
    · rintro ⟨a, b⟩
      have := aux _ htz (by rcases b with b | b; exacts [b.le, b.2])
      have e : (x : ℝ) + 1 = 2 ^ n := by exact_mod_cast this
      exact ⟨by linarith, by linarith⟩

/-- The clamped longitude in terms of columns. -/
theorem clampLon_cases {lon : ℝ} (h1 : -180 ≤ lon) (h2 : lon ≤ 180) :
    let c := col (clamp lon (-179.9999999) 179.9999999)
    0 ≤ col lon ∧ col lon ≤ 1 ∧
    ((c = col lon ∧ col lon < 1) ∨ (0 ≤ c ∧ c < 1 / 2 ^ 19 ∧ col lon < 1 / 2 ^ 19) ∨
      (1 - 1 / 2 ^ 19 < c ∧ c < 1 ∧ 1 - 1 / 2 ^ 19 < col lon)) := by
  intro c
  refine ⟨by unfold col; linarith, by unfold col; linarith, ?_⟩
  rcases lt_or_ge lon (-179.9999999) with h | h
  · right; left
    have : c = col (-179.9999999) := by
      simp only [c, clamp]; rw [min_eq_left (by norm_num; linarith), max_eq_left h.le]
    rw [this]; unfold col; norm_num at h ⊢; linarith
  · rcases le_or_gt lon 179.9999999 with h' | h'
    · left
      refine ⟨by simp only [c]; rw [clamp_id h h'], ?_⟩
      unfold col; norm_num at h'; linarith
    · right; right
      have : c = col 179.9999999 := by
        simp only [c, clamp]; rw [min_eq_right h'.le, max_eq_right (by norm_num)]
      rw [this]; unfold col; norm_num at h' ⊢; linarith

/-- The clamped latitude in terms of rows. -/
theorem clampLat_cases {lat : ℝ} (h : -90 < lat ∧ lat < 90) (h0 : 0 ≤ row lat) (h1 : row lat ≤ 1) :
    let c := row (clamp lat (-85.05112877) 85.05112877)
    ((c = row lat ∧ row lat < 1) ∨ (0 ≤ c ∧ c < 1 / 2 ^ 19 ∧ row lat < 1 / 2 ^ 19) ∨
      (1 - 1 / 2 ^ 19 < c ∧ c < 1 ∧ 1 - 1 / 2 ^ 19 < row lat)) := by
  intro c
  have hl := row_limit
  have hr := latLimit_range
  have hn := row_neg hr
  have e : latLimit = 85.05112877 := rfl
  rcases lt_or_ge lat (-latLimit) with g | g
  · right; right
    have : c = row (-latLimit) := by
      simp only [c, clamp, ← e]; rw [min_eq_left (by linarith), max_eq_left g.le]
    have g2 := row_anti h (by constructor <;> linarith) g.le
    rw [this, hn]; refine ⟨by linarith, by linarith, by linarith⟩
  · rcases le_or_gt lat latLimit with g' | g'
    · left
      exact ⟨by simp only [c, ← e]; rw [clamp_id g g'], (row_range g g').2⟩
    · right; left
      have : c = row latLimit := by
        simp only [c, clamp, ← e]; rw [min_eq_right g'.le, max_eq_right (by linarith)]
      have g2 := row_anti hr h g'.le
      rw [this]; exact ⟨by linarith, by linarith, by linarith⟩

end Verif.Mercator
