import Mathlib.Tactic.Linarith
import Mathlib.Tactic.LinearCombination
import Mathlib.Tactic.FieldSimp
import Mathlib.Tactic.NormNum
import Mathlib.Tactic.Push
import Mathlib.Data.Rat.Floor
import Verif.Props.ElevationSpec

/-! # C40 and C41: elevation -/
namespace Verif.Props
open Verif.Elevation Verif.ElevationSpec

namespace ElevationProof

variable {K : Type} [Field K] [LinearOrder K] [IsStrictOrderedRing K] [FloorRing K]

theorem trunc_mono {a b : K} (h : a ≤ b) : trunc a ≤ trunc b := by
  unfold trunc
  by_cases ha : 0 ≤ a
  · have hb : 0 ≤ b := le_trans ha h
    rw [if_pos ha, if_pos hb]; exact Int.floor_mono h
  · by_cases hb : 0 ≤ b
    · rw [if_neg ha, if_pos hb]
      have h1 : ⌈a⌉ ≤ 0 := Int.ceil_le.2 (by push_cast; exact (not_le.1 ha).le)
      have h2 : 0 ≤ ⌊b⌋ := Int.floor_nonneg.2 hb
      omega
    · rw [if_neg ha, if_neg hb]; exact Int.ceil_mono h

theorem trunc_nonneg {a : K} (h : 0 ≤ a) : trunc a = ⌊a⌋ := if_pos h

theorem at_ok {α : Type} (v : List α) (n : Nat) (h : n < v.length) : at_ v (n : Int) = .ok v[n] := by
  unfold at_
  rw [if_neg (by omega)]
  simp [List.getElem?_eq_getElem h]

theorem at_ub {α : Type} (v : List α) (i : Int) (h : (v.length : Int) ≤ i) : at_ v i = .ub "index out of range" := by
  unfold at_
  split
  · rfl
  · have : v[i.toNat]? = none := List.getElem?_eq_none (by omega)
    rw [this]

theorem exists_min (l : List Int) (h : l ≠ []) : ∃ a ∈ l, ∀ b ∈ l, a ≤ b := by
  induction l with
  | nil => exact absurd rfl h
  | cons x l ih =>
    cases l with
    | nil => exact ⟨x, by simp, by simp⟩
    | cons y l =>
      obtain ⟨a, ha, hm⟩ := ih (by simp)
      by_cases hx : x ≤ a
      · refine ⟨x, by simp, ?_⟩
        intro b hb
        rcases List.mem_cons.1 hb with rfl | hb
        · exact le_refl _
        · exact le_trans hx (hm b hb)
      · refine ⟨a, List.mem_cons_of_mem _ ha, ?_⟩
        intro b hb
        rcases List.mem_cons.1 hb with rfl | hb
        · omega
        · exact hm b hb

theorem exists_max (l : List Int) (h : l ≠ []) : ∃ a ∈ l, ∀ b ∈ l, b ≤ a := by
  obtain ⟨a, ha, hm⟩ := exists_min (l.map fun x => -x) (by simpa using h)
  simp only [List.mem_map] at ha
  obtain ⟨x, hx, rfl⟩ := ha
  refine ⟨x, hx, ?_⟩
  intro b hb
  have := hm (-b) (List.mem_map.2 ⟨b, hb, rfl⟩)
  omega

theorem bilinear_between (h0 h1 h2 h3 : Int) (dx dy : K) (hx : 0 ≤ dx) (hx1 : dx ≤ 1) (hy : 0 ≤ dy) (hy1 : dy ≤ 1) :
    Between (bilinear h0 h1 h2 h3 dx dy) [h0, h1, h2, h3] := by
  have w0 : 0 ≤ dy * (1 - dx) := mul_nonneg hy (by linarith)
  have w1 : 0 ≤ dy * dx := mul_nonneg hy hx
  have w2 : 0 ≤ (1 - dy) * (1 - dx) := mul_nonneg (by linarith) (by linarith)
  have w3 : 0 ≤ (1 - dy) * dx := mul_nonneg (by linarith) hx
  constructor
  · obtain ⟨a, ha, hm⟩ := exists_min [h0, h1, h2, h3] (by simp)
    refine ⟨a, ha, ?_⟩
    have e0 : (a : K) ≤ h0 := by exact_mod_cast hm h0 (by simp)
    have e1 : (a : K) ≤ h1 := by exact_mod_cast hm h1 (by simp)
    have e2 : (a : K) ≤ h2 := by exact_mod_cast hm h2 (by simp)
    have e3 : (a : K) ≤ h3 := by exact_mod_cast hm h3 (by simp)
    unfold bilinear
    nlinarith [mul_le_mul_of_nonneg_right e0 w0, mul_le_mul_of_nonneg_right e1 w1, mul_le_mul_of_nonneg_right e2 w2,
      mul_le_mul_of_nonneg_right e3 w3]
  · obtain ⟨a, ha, hm⟩ := exists_max [h0, h1, h2, h3] (by simp)
    refine ⟨a, ha, ?_⟩
    have e0 : (h0 : K) ≤ a := by exact_mod_cast hm h0 (by simp)
    have e1 : (h1 : K) ≤ a := by exact_mod_cast hm h1 (by simp)
    have e2 : (h2 : K) ≤ a := by exact_mod_cast hm h2 (by simp)
    have e3 : (h3 : K) ≤ a := by exact_mod_cast hm h3 (by simp)
    unfold bilinear
    nlinarith [mul_le_mul_of_nonneg_right e0 w0, mul_le_mul_of_nonneg_right e1 w1, mul_le_mul_of_nonneg_right e2 w2,
      mul_le_mul_of_nonneg_right e3 w3]

/-- At the border of the grid the fraction does not matter. -/
theorem bilinear_clamped (a b c e : Int) (dx dy : K) (hx : (a = b ∧ c = e) ∨ (0 ≤ dx ∧ dx ≤ 1)) (hy : (a = c ∧ b = e) ∨ (0 ≤ dy ∧ dy ≤ 1)) :
    Between (bilinear c e a b dx dy) [a, b, c, e] := by
  have perm : ∀ v : K, Between v [c, e, a, b] → Between v [a, b, c, e] := by
    rintro v ⟨⟨p, hp, hp'⟩, ⟨q, hq, hq'⟩⟩
    refine ⟨⟨p, ?_, hp'⟩, ⟨q, ?_, hq'⟩⟩
    · simp only [List.mem_cons, List.not_mem_nil, or_false] at hp ⊢; tauto
    · simp only [List.mem_cons, List.not_mem_nil, or_false] at hq ⊢; tauto
  apply perm
  rcases hx with ⟨rfl, rfl⟩ | ⟨x1, x2⟩
  · have e1 : bilinear c c a a dx dy = bilinear c c a a 0 dy := by unfold bilinear; ring
    rw [e1]
    rcases hy with ⟨rfl, -⟩ | ⟨y1, y2⟩
    · have e2 : bilinear a a a a 0 dy = bilinear a a a a (0 : K) 0 := by unfold bilinear; ring
      rw [e2]; exact bilinear_between _ _ _ _ _ _ (le_refl _) zero_le_one (le_refl _) zero_le_one
    · exact bilinear_between _ _ _ _ _ _ (le_refl _) zero_le_one y1 y2
  · rcases hy with ⟨rfl, rfl⟩ | ⟨y1, y2⟩
    · have e2 : bilinear a b a b dx dy = bilinear a b a b dx 0 := by unfold bilinear; ring
      rw [e2]; exact bilinear_between _ _ _ _ _ _ x1 x2 (le_refl _) zero_le_one
    · exact bilinear_between _ _ _ _ _ _ x1 x2 y1 y2

theorem axis (x s : Int) (r : Nat) (hx : 0 ≤ x) (hs : 0 < s) :
    ∃ i : Nat, i ≤ r ∧ clamp (x.tdiv s) 0 r = i ∧ (i : Int) * s ≤ x ∧ (i = r ∨ x < ((i : Int) + 1) * s) := by
  have hq : x.tdiv s = x / s := Int.tdiv_eq_ediv_of_nonneg hx
  have h0 : 0 ≤ x / s := Int.ediv_nonneg hx hs.le
  have hle : x / s * s ≤ x := Int.ediv_mul_le x hs.ne'
  have hlt : x < (x / s + 1) * s := Int.lt_ediv_add_one_mul_self x hs
  by_cases hr : x / s ≤ r
  · refine ⟨(x / s).toNat, by omega, ?_, ?_, .inr ?_⟩
    · rw [hq, clamp, min_eq_left hr, max_eq_right h0]; omega
    · rw [Int.toNat_of_nonneg h0]; exact hle
    · rw [Int.toNat_of_nonneg h0]; exact hlt
  · refine ⟨r, le_refl _, ?_, ?_, .inl rfl⟩
    · rw [hq, clamp, min_eq_right (by omega)]; omega
    · refine le_trans ?_ hle
      exact Int.mul_le_mul_of_nonneg_right (by omega) hs.le

theorem min_next (i r : Nat) : min ((i : Int) + 1) (r : Int) = ((min (i + 1) r : Nat) : Int) := by omega

theorem frac_bounds (x s : Int) (i : Nat) (hs : 0 < s) (h1 : (i : Int) * s ≤ x) (h2 : x < ((i : Int) + 1) * s) :
    (0 : K) ≤ ((x - (i : Int) * s : Int) : K) / (s : K) ∧ ((x - (i : Int) * s : Int) : K) / (s : K) ≤ 1 := by
  have hsK : (0 : K) < (s : K) := by exact_mod_cast hs
  constructor
  · apply div_nonneg _ hsK.le
    exact_mod_cast (by omega : (0 : Int) ≤ x - i * s)
  · rw [div_le_one hsK]
    have : x - i * s ≤ s := by nlinarith
    exact_mod_cast this

end ElevationProof

open ElevationProof
variable {K : Type} [Field K] [LinearOrder K] [IsStrictOrderedRing K] [FloorRing K]

/-- C40: with at least four heights and a tile which is not smaller than the grid resolution in units of 1e-7 degrees, for every coordinate in
the tile the elevation is computed without reading outside of the heights and lies between the heights of the grid cell which contains the
coordinate; at a grid node it is the height of that node. Partial: fewer than four heights are undefined behaviour, see
`C40_violated_few`; rounding is not modelled. -/
theorem C40_between_partial (heights : List Int) (minLat minLon maxLat maxLon lat lon : K) (h4 : 4 ≤ heights.length)
    (hw : 1 ≤ (maxLon - minLon) / ((Nat.sqrt heights.length : Int) - 1 : Int) * (scale : K))
    (hh : 1 ≤ (maxLat - minLat) / ((Nat.sqrt heights.length : Int) - 1 : Int) * (scale : K))
    (hlat : minLat ≤ lat) (hlon : minLon ≤ lon) :
    ∃ d v, load heights minLat minLon maxLat maxLon = .ok d ∧ getElevation d lat lon = .ok v ∧ 0 < d.xStep ∧ 0 < d.yStep ∧
      ∃ r i j i' j' : Nat, (r + 1) * (r + 1) ≤ heights.length ∧ heights.length < (r + 2) * (r + 2) ∧ i ≤ r ∧ j ≤ r ∧
        i' = min (i + 1) r ∧ j' = min (j + 1) r ∧
        (i : Int) * d.xStep ≤ trunc (lon * scale) - trunc (minLon * scale) ∧
        (i = r ∨ trunc (lon * scale) - trunc (minLon * scale) < ((i : Int) + 1) * d.xStep) ∧
        (j : Int) * d.yStep ≤ trunc (lat * scale) - trunc (minLat * scale) ∧
        (j = r ∨ trunc (lat * scale) - trunc (minLat * scale) < ((j : Int) + 1) * d.yStep) ∧
        ∃ a b c e, heights[i + j * (r + 1)]? = some a ∧ heights[i' + j * (r + 1)]? = some b ∧ heights[i + j' * (r + 1)]? = some c ∧
          heights[i' + j' * (r + 1)]? = some e ∧ Between v [a, b, c, e] ∧
          (trunc (lon * scale) - trunc (minLon * scale) = i * d.xStep → trunc (lat * scale) - trunc (minLat * scale) = j * d.yStep →
            v = (a : K)) := by
  have hs2 : 2 ≤ Nat.sqrt heights.length := Nat.le_sqrt.2 (by omega)
  obtain ⟨r, hr⟩ : ∃ r : Nat, Nat.sqrt heights.length = r + 1 := ⟨Nat.sqrt heights.length - 1, by omega⟩
  have hres : ((Nat.sqrt heights.length : Nat) : Int) - 1 = (r : Int) := by omega
  have hlen : (r + 1) * (r + 1) ≤ heights.length := by rw [← hr]; exact Nat.sqrt_le _
  have hlen2 : heights.length < (r + 2) * (r + 2) := by
    have := Nat.lt_succ_sqrt heights.length
    rw [hr] at this; exact this
  rw [hres] at hw hh
  have hscale : (0 : K) < scale := by unfold scale; norm_num
  have hxs : 0 < trunc ((maxLon - minLon) / ((r : Int) : K) * scale) := by
    rw [trunc_nonneg (by linarith)]
    have : (1 : Int) ≤ ⌊(maxLon - minLon) / ((r : Int) : K) * scale⌋ := Int.le_floor.2 (by exact_mod_cast hw)
    omega
  have hys : 0 < trunc ((maxLat - minLat) / ((r : Int) : K) * scale) := by
    rw [trunc_nonneg (by linarith)]
    have : (1 : Int) ≤ ⌊(maxLat - minLat) / ((r : Int) : K) * scale⌋ := Int.le_floor.2 (by exact_mod_cast hh)
    omega
  set d : EleData := EleData.mk (trunc (minLon * scale)) (trunc (minLat * scale)) (trunc ((maxLon - minLon) / ((r : Int) : K) * scale))
    (trunc ((maxLat - minLat) / ((r : Int) : K) * scale)) (r : Int) heights with hd
  have hload : load heights minLat minLon maxLat maxLon = .ok d := by
    unfold load
    have hne : heights.isEmpty = false := by cases heights <;> simp at h4 ⊢
    simp only [hne, Bool.false_eq_true, if_false, hres]
    rw [if_neg (by omega)]
  have hx : 0 ≤ trunc (lon * scale) - trunc (minLon * scale) := by
    have := trunc_mono (mul_le_mul_of_nonneg_right hlon hscale.le)
    omega
  have hy : 0 ≤ trunc (lat * scale) - trunc (minLat * scale) := by
    have := trunc_mono (mul_le_mul_of_nonneg_right hlat hscale.le)
    omega
  set x := trunc (lon * scale) - trunc (minLon * scale) with hxdef
  set y := trunc (lat * scale) - trunc (minLat * scale) with hydef
  obtain ⟨i, hi, hci, hi1, hi2⟩ := axis x d.xStep r hx hxs
  obtain ⟨j, hj, hcj, hj1, hj2⟩ := axis y d.yStep r hy hys
  set i' := min (i + 1) r with hi'
  set j' := min (j + 1) r with hj'
  have bound : ∀ a b : Nat, a ≤ r → b ≤ r → a + b * (r + 1) < heights.length := by
    intro a b ha hb
    have : b * (r + 1) ≤ r * (r + 1) := Nat.mul_le_mul_right _ hb
    have e : (r + 1) * (r + 1) = r * (r + 1) + r + 1 := by ring
    omega
  have hi'r : i' ≤ r := Nat.min_le_right _ _
  have hj'r : j' ≤ r := Nat.min_le_right _ _
  set dx : K := ((x - (i : Int) * d.xStep : Int) : K) / (d.xStep : K) with hdx
  set dy : K := ((y - (j : Int) * d.yStep : Int) : K) / (d.yStep : K) with hdy
  have b00 := bound i j hi hj
  have b10 := bound i' j hi'r hj
  have b01 := bound i j' hi hj'r
  have b11 := bound i' j' hi'r hj'r
  have hget : getElevation d lat lon =
      .ok (bilinear heights[i + j' * (r + 1)] heights[i' + j' * (r + 1)] heights[i + j * (r + 1)] heights[i' + j * (r + 1)] dx dy) := by
    unfold getElevation
    simp only
    rw [if_neg (by simp only [not_or]; exact ⟨hxs.ne', hys.ne'⟩)]
    have e1 : (trunc (lon * scale) - d.xStart) = x := rfl
    have e2 : (trunc (lat * scale) - d.yStart) = y := rfl
    have e3 : d.resolution = (r : Int) := rfl
    have e4 : d.heights = heights := rfl
    simp only [e1, e2, e3, e4, hci, hcj, min_next, ← hi', ← hj']
    have c1 : ((i : Int) + (j : Int) * ((r : Int) + 1)) = ((i + j * (r + 1) : Nat) : Int) := by push_cast; ring
    have c2 : ((i : Int) + (j' : Int) * ((r : Int) + 1)) = ((i + j' * (r + 1) : Nat) : Int) := by push_cast; ring
    have c3 : ((i' : Int) + (j : Int) * ((r : Int) + 1)) = ((i' + j * (r + 1) : Nat) : Int) := by push_cast; ring
    have c4 : ((i' : Int) + (j' : Int) * ((r : Int) + 1)) = ((i' + j' * (r + 1) : Nat) : Int) := by push_cast; ring
    rw [c1, c2, c3, c4, at_ok _ _ b00, at_ok _ _ b01, at_ok _ _ b10, at_ok _ _ b11]
    simp only [Outcome.bind]
    rw [hdx, hdy]
  refine ⟨d, _, hload, hget, hxs, hys, r, i, j, i', j', hlen, hlen2, hi, hj, rfl, rfl, hi1, hi2, hj1, hj2, heights[i + j * (r + 1)],
    heights[i' + j * (r + 1)], heights[i + j' * (r + 1)], heights[i' + j' * (r + 1)], List.getElem?_eq_getElem b00,
    List.getElem?_eq_getElem b10, List.getElem?_eq_getElem b01, List.getElem?_eq_getElem b11, ?_, ?_⟩
  · refine bilinear_clamped _ _ _ _ dx dy ?_ ?_
    · rcases hi2 with h | h
      · have ei : i' = i := by omega
        left; constructor <;> congr 2 <;> rw [ei]
      · exact .inr (frac_bounds (K := K) x d.xStep i hxs hi1 h)
    · rcases hj2 with h | h
      · have ej : j' = j := by omega
        left; constructor <;> congr 2 <;> rw [ej]
      · exact .inr (frac_bounds (K := K) y d.yStep j hys hj1 h)
  · intro hxi hyj
    have zx : dx = 0 := by rw [hdx, hxi]; simp
    have zy : dy = 0 := by rw [hdy, hyj]; simp
    rw [zx, zy]
    simp [bilinear]

/-- C40: differences of coordinates in a tile (at most 180 degrees wide) fit into 32 bits. -/
theorem C40_no_overflow (lo x : K) (h1 : lo ≤ x) (h2 : x - lo ≤ 180) (hlo : -180 ≤ lo) (hx : x ≤ 180) :
    0 ≤ trunc (x * scale) - trunc (lo * scale) ∧ trunc (x * scale) - trunc (lo * scale) < 2 ^ 31 ∧
    -(2 ^ 31) ≤ trunc (lo * scale) ∧ trunc (x * scale) < 2 ^ 31 := by
  have hs : (scale : K) = 10000000 := rfl
  have m := trunc_mono (mul_le_mul_of_nonneg_right h1 (by rw [hs]; norm_num : (0 : K) ≤ scale))
  have up : ∀ z : K, (trunc z : K) ≤ z + 1 := by
    intro z; unfold trunc; split
    · exact le_trans (Int.floor_le z) (by linarith)
    · exact (Int.ceil_lt_add_one z).le
  have low : ∀ z : K, z - 1 ≤ (trunc z : K) := by
    intro z; unfold trunc; split
    · have := Int.lt_floor_add_one z; linarith
    · exact le_trans (by linarith) (Int.le_ceil z)
  refine ⟨by omega, ?_, ?_, ?_⟩
  · have : ((trunc (x * scale) - trunc (lo * scale) : Int) : K) < ((2 ^ 31 : Int) : K) := by
      push_cast
      have e1 := up (x * scale)
      have e2 := low (lo * scale)
      rw [hs] at e1 e2 ⊢
      nlinarith
    exact_mod_cast this
  · have : ((-(2 ^ 31) : Int) : K) ≤ ((trunc (lo * scale) : Int) : K) := by
      push_cast
      have e2 := low (lo * scale)
      rw [hs] at e2 ⊢
      nlinarith
    exact_mod_cast this
  · have : ((trunc (x * scale) : Int) : K) < ((2 ^ 31 : Int) : K) := by
      push_cast
      have e1 := up (x * scale)
      rw [hs] at e1 ⊢
      nlinarith
    exact_mod_cast this

omit [IsStrictOrderedRing K] in
/-- C40 is false for one to three heights: infinity is converted to an integer. -/
theorem C40_violated_few (heights : List Int) (h0 : heights ≠ []) (h4 : heights.length < 4) (minLat minLon maxLat maxLon : K) :
    load heights minLat minLon maxLat maxLon = .ub "conversion of infinity" := by
  have hlen : 0 < heights.length := List.length_pos_iff.2 h0
  have h1 : Nat.sqrt heights.length = 1 := by
    have a : 1 ≤ Nat.sqrt heights.length := Nat.le_sqrt.2 (by omega)
    have b : Nat.sqrt heights.length < 2 := Nat.sqrt_lt.2 (by omega)
    omega
  unfold load
  have hne : heights.isEmpty = false := by cases heights <;> simp at h0 ⊢
  simp [hne, h1]

example : ∃ d v, load [10, 20, 30, 40] (0 : ℚ) 0 1 1 = .ok d ∧ getElevation d (1 / 2 : ℚ) (1 / 2) = .ok v ∧
    Between v [10, 20, 30, 40] := by
  obtain ⟨d, v, h1, h2, -, -, r, i, j, i', j', h5, h6, h7, h8, rfl, rfl, -, -, -, -, a, b, c, e, h9, h10, h11, h12, ⟨⟨p, hp, hp'⟩, q, hq, hq'⟩, -⟩ :=
    C40_between_partial (K := ℚ) [10, 20, 30, 40] 0 0 1 1 (1 / 2) (1 / 2) (by simp)
      (by have : Nat.sqrt 4 = 2 := by decide +kernel
          simp [this, scale]) (by have : Nat.sqrt 4 = 2 := by decide +kernel
                                  simp [this, scale]) (by norm_num) (by norm_num)
  have m : ∀ z ∈ [a, b, c, e], z ∈ [(10 : Int), 20, 30, 40] := by
    intro z hz
    simp only [List.mem_cons, List.not_mem_nil, or_false] at hz
    rcases hz with rfl | rfl | rfl | rfl
    exacts [List.mem_of_getElem? h9, List.mem_of_getElem? h10, List.mem_of_getElem? h11, List.mem_of_getElem? h12]
  exact ⟨d, v, h1, h2, ⟨p, m p hp, hp'⟩, q, m q hq, hq'⟩

/-! ## SRTM -/

namespace ElevationProof

/-- The two bytes are read correctly on a platform with signed or unsigned characters. -/
def Decodable (signed : Bool) (b0 b1 : UInt8) : Prop := (signed = true → b1.toNat < 128) ∧ (signed = false → b0.toNat < 128)

theorem decode (signed : Bool) (b0 b1 : UInt8) (h : Decodable signed b0 b1) :
    shiftOr (charValue signed b0) (charValue signed b1) = sampleValue b0 b1 := by
  have l0 := b0.toNat_lt
  have l1 := b1.toNat_lt
  cases signed with
  | true =>
    have h1 := h.1 rfl
    unfold charValue sampleValue shiftOr
    simp only [true_and]
    rw [if_neg (by omega : ¬ 128 ≤ b1.toNat), if_neg (by omega : ¬ ((b1.toNat : Int) < 0))]
    split <;> omega
  | false =>
    have h0 := h.2 rfl
    unfold charValue sampleValue shiftOr
    simp only [Bool.false_eq_true, false_and, if_false]
    rw [if_neg (by omega : ¬ ((b1.toNat : Int) < 0)), if_neg (by omega : ¬ 128 ≤ b0.toNat)]

theorem readPx_ok (signed : Bool) (n : Nat) (spp : Int) (data : List UInt8) (hlen : data.length = n * n * 2) (y x : Nat) (hy : y < n) (hx : x < n)
    (hdec : ∀ (i : Nat) b0 b1, data[2 * i]? = some b0 → data[2 * i + 1]? = some b1 → Decodable signed b0 b1) :
    ∃ v, readPx signed ⟨n, spp, ((n : Int) * n - n) * 2, data⟩ y x = .ok v ∧ Sample data n y x v := by
  obtain ⟨k, hk⟩ : ∃ k, n = y + 1 + k := ⟨n - 1 - y, by omega⟩
  have hk' : n - 1 - y = k := by omega
  have hp : ((n : Int) * n - n) * 2 + 2 * ((x : Int) - n * y) = ((2 * (k * n + x) : Nat) : Int) := by
    push_cast
    rw [hk]
    push_cast
    ring
  have hb : 2 * (k * n + x) + 1 < data.length := by
    rw [hlen]
    have : k * n + x < n * n := by
      have h1 : (k + 1) * n ≤ n * n := Nat.mul_le_mul_right _ (by omega)
      nlinarith
    omega
  have hp1 : ((2 * (k * n + x) : Nat) : Int) + 1 = ((2 * (k * n + x) + 1 : Nat) : Int) := by push_cast; ring
  have g0 : data[2 * (k * n + x)]? = some data[2 * (k * n + x)] := List.getElem?_eq_getElem (by omega)
  have g1 : data[2 * (k * n + x) + 1]? = some data[2 * (k * n + x) + 1] := List.getElem?_eq_getElem hb
  refine ⟨sampleValue data[2 * (k * n + x)] data[2 * (k * n + x) + 1], ?_, _, _, ?_, ?_, rfl⟩
  · unfold readPx
    simp only
    rw [hp, hp1, at_ok _ _ (by omega), at_ok _ _ hb]
    simp only [Outcome.bind, Outcome.ok.injEq]
    exact decode signed _ _ (hdec _ _ _ g0 g1)
  · rw [hk']; exact g0
  · rw [hk']; exact g1

/-- Cells in memory are the contents of the files. -/
def Cached (file : FileName → Option (List UInt8)) (cells : Assoc Key Cell) : Prop :=
  ∀ k c, cells.find k = some c → readCell (file (fileName k)) = .ok c

theorem loadCells_ok (file : FileName → Option (List UInt8)) (ks : List Key) (cells : Assoc Key Cell) (hc : Cached file cells)
    (hf : ∀ k ∈ ks, ∃ c, readCell (file (fileName k)) = .ok c) :
    ∃ cells', loadCells file ks cells = .ok cells' ∧ Cached file cells' ∧ (∀ k ∈ ks, ∃ c, cells'.find k = some c) ∧
      ∀ k c, cells.find k = some c → cells'.find k = some c := by
  induction ks generalizing cells with
  | nil => exact ⟨cells, rfl, hc, by simp, fun _ _ h => h⟩
  | cons k ks ih =>
    unfold loadCells
    cases hk : cells.find k with
    | some c =>
      obtain ⟨cells', h1, h2, h3, h4⟩ := ih cells hc fun k hk => hf k (by simp [hk])
      refine ⟨cells', h1, h2, ?_, h4⟩
      intro k' hk'
      rcases List.mem_cons.1 hk' with rfl | hk'
      · exact ⟨c, h4 _ _ hk⟩
      · exact h3 k' hk'
    | none =>
      obtain ⟨c, hcell⟩ := hf k (by simp)
      have hfind : ∀ j, (cells.emplace k c).find j = if k = j then some c else cells.find j := by
        intro j
        simp only [Assoc.emplace, hk, Assoc.find]
      have hc' : Cached file (cells.emplace k c) := by
        intro j d hj
        rw [hfind] at hj
        split at hj
        · rename_i he; subst he; cases hj; exact hcell
        · exact hc j d hj
      obtain ⟨cells', h1, h2, h3, h4⟩ := ih (cells.emplace k c) hc' fun k hk => hf k (by simp [hk])
      refine ⟨cells', by simp only [hcell, Outcome.bind]; exact h1, h2, ?_, ?_⟩
      · intro k' hk'
        rcases List.mem_cons.1 hk' with rfl | hk'
        · exact ⟨c, h4 _ _ (by rw [hfind, if_pos rfl])⟩
        · exact h3 k' hk'
      · intro j d hj
        apply h4
        rw [hfind]
        split
        · rename_i he; subst he; rw [hk] at hj; cases hj
        · exact hj

theorem mem_cellKeys {minLat minLon maxLat maxLon lat lon : K} (h1 : minLat ≤ lat) (h2 : lat ≤ maxLat) (h3 : minLon ≤ lon) (h4 : lon ≤ maxLon) :
    (trunc lat, trunc lon) ∈ cellKeys minLat minLon maxLat maxLon := by
  have a1 := trunc_mono h1
  have a2 := trunc_mono h2
  have a3 := trunc_mono h3
  have a4 := trunc_mono h4
  simp only [cellKeys, List.mem_flatMap, List.mem_map, List.mem_range, Prod.mk.injEq]
  exact ⟨(trunc lat - trunc minLat).toNat, by omega, (trunc lon - trunc minLon).toNat, by omega, by omega, by omega⟩

theorem readCell_form {file : Option (List UInt8)} {c : Cell} (h : readCell file = .ok c) :
    ∃ data n spp, file = some data ∧ (n = 1201 ∧ spp = 3 ∨ n = 3601 ∧ spp = 1) ∧ data.length = n * n * 2 ∧
      c = ⟨(n : Nat), (spp : Nat), ((n : Int) * n - n) * 2, data⟩ := by
  unfold readCell at h
  split at h
  · cases h
  · rename_i data
    split at h
    · rename_i hl; cases h; exact ⟨data, 1201, 3, rfl, .inl ⟨rfl, rfl⟩, hl, by norm_num⟩
    · split at h
      · rename_i hl; cases h; exact ⟨data, 3601, 1, rfl, .inr ⟨rfl, rfl⟩, hl, by norm_num⟩
      · cases h

end ElevationProof

open ElevationProof

/-- C41: for a coordinate of at least one degree north and east, in a tile whose cell files are present and well formed, the height is the
interpolation of the four samples around the coordinate in the file which covers it, whatever is in memory already. Partial: provided that
the sample values of the file survive the decoding (`C41_violated_signed`, `C41_violated_unsigned`); on the other hemispheres and next to
the equator and the zero meridian wrong files are read or memory outside of the data (`C41_violated_name`, `C41_violated_south`). -/
theorem C41_srtm_partial (signed : Bool) (file : FileName → Option (List UInt8)) (cells : Assoc Key Cell) (hc : Cached file cells)
    (minLat minLon maxLat maxLon lat lon : K) (h1 : minLat ≤ lat) (h2 : lat ≤ maxLat) (h3 : minLon ≤ lon) (h4 : lon ≤ maxLon)
    (hlat : 1 ≤ lat) (hlon : 1 ≤ lon) (hf : ∀ k ∈ cellKeys minLat minLon maxLat maxLon, ∃ c, readCell (file (fileName k)) = .ok c)
    (hdec : ∀ data, file (properName lat lon) = some data → ∀ (i : Nat) b0 b1, data[2 * i]? = some b0 → data[2 * i + 1]? = some b1 →
      (signed = true → b1.toNat < 128) ∧ (signed = false → b0.toNat < 128)) :
    ∃ cells' h data n spp, getSrtm signed file cells minLat minLon maxLat maxLon lat lon = .ok (cells', h) ∧ Cached file cells' ∧
      file (properName lat lon) = some data ∧ (n = 1201 ∧ spp = 3 ∨ n = 3601 ∧ spp = 1) ∧
      ∃ (r c : Nat) (a b d e : Int), (r : Int) = ⌊Int.fract lat * 3600 / (spp : Nat)⌋ ∧ (c : Int) = ⌊Int.fract lon * 3600 / (spp : Nat)⌋ ∧
        r + 1 < n ∧ c + 1 < n ∧ Sample data n r c a ∧ Sample data n r (c + 1) b ∧ Sample data n (r + 1) c d ∧
        Sample data n (r + 1) (c + 1) e ∧
        h = ((a : K) * (1 - Int.fract (Int.fract lon * 3600 / (spp : Nat))) + b * Int.fract (Int.fract lon * 3600 / (spp : Nat))) *
              (1 - Int.fract (Int.fract lat * 3600 / (spp : Nat))) +
            (d * (1 - Int.fract (Int.fract lon * 3600 / (spp : Nat))) + e * Int.fract (Int.fract lon * 3600 / (spp : Nat))) *
              Int.fract (Int.fract lat * 3600 / (spp : Nat)) ∧
        Between h [a, b, d, e] := by
  have flat : (1 : Int) ≤ ⌊lat⌋ := Int.le_floor.2 (by exact_mod_cast hlat)
  have flon : (1 : Int) ≤ ⌊lon⌋ := Int.le_floor.2 (by exact_mod_cast hlon)
  have tlat : trunc lat = ⌊lat⌋ := trunc_nonneg (by linarith)
  have tlon : trunc lon = ⌊lon⌋ := trunc_nonneg (by linarith)
  have hname : fileName (trunc lat, trunc lon) = properName lat lon := by
    simp only [fileName, properName, tlat, tlon]
    rw [if_pos (by omega), if_pos (by omega), if_pos (by omega), if_pos (by omega)]
  have core : ∀ cell, readCell (file (properName lat lon)) = .ok cell →
      ∃ h data n spp, interpolate signed cell ((lat - (trunc lat : K)) * 3600) ((lon - (trunc lon : K)) * 3600) = .ok h ∧
      file (properName lat lon) = some data ∧ (n = 1201 ∧ spp = 3 ∨ n = 3601 ∧ spp = 1) ∧
      ∃ (r c : Nat) (a b d e : Int), (r : Int) = ⌊Int.fract lat * 3600 / (spp : Nat)⌋ ∧ (c : Int) = ⌊Int.fract lon * 3600 / (spp : Nat)⌋ ∧
        r + 1 < n ∧ c + 1 < n ∧ Sample data n r c a ∧ Sample data n r (c + 1) b ∧ Sample data n (r + 1) c d ∧
        Sample data n (r + 1) (c + 1) e ∧
        h = ((a : K) * (1 - Int.fract (Int.fract lon * 3600 / (spp : Nat))) + b * Int.fract (Int.fract lon * 3600 / (spp : Nat))) *
              (1 - Int.fract (Int.fract lat * 3600 / (spp : Nat))) +
            (d * (1 - Int.fract (Int.fract lon * 3600 / (spp : Nat))) + e * Int.fract (Int.fract lon * 3600 / (spp : Nat))) *
              Int.fract (Int.fract lat * 3600 / (spp : Nat)) ∧
        Between h [a, b, d, e] := by
    intro cell hcell
    obtain ⟨data, n, spp, hfile, hn, hlen, rfl⟩ := readCell_form hcell
    have hspp : 0 < spp := by omega
    have hprod : (n - 1) * spp = 3600 := by rcases hn with ⟨rfl, rfl⟩ | ⟨rfl, rfl⟩ <;> norm_num
    have hsK : (0 : K) < ((spp : Nat) : K) := by exact_mod_cast hspp
    -- one axis
    have ax : ∀ z : K, ∃ m : Nat, (m : Int) = ⌊Int.fract z * 3600 / (spp : Nat)⌋ ∧ m + 1 < n := by
      intro z
      have f0 : 0 ≤ Int.fract z * 3600 / (spp : Nat) := div_nonneg (mul_nonneg (Int.fract_nonneg z) (by norm_num)) hsK.le
      have fl : 0 ≤ ⌊Int.fract z * 3600 / (spp : Nat)⌋ := Int.floor_nonneg.2 f0
      refine ⟨⌊Int.fract z * 3600 / (spp : Nat)⌋.toNat, by omega, ?_⟩
      have hlt : Int.fract z * 3600 / (spp : Nat) < ((n - 1 : Nat) : K) := by
        rw [div_lt_iff₀ hsK]
        have : (((n - 1) * spp : Nat) : K) = 3600 := by rw [hprod]; norm_num
        push_cast at this ⊢
        rw [this]
        have := Int.fract_lt_one z
        linarith
      have : ⌊Int.fract z * 3600 / (spp : Nat)⌋ < ((n - 1 : Nat) : Int) := Int.floor_lt.2 (by exact_mod_cast hlt)
      omega
    obtain ⟨r, hr, hr1⟩ := ax lat
    obtain ⟨c, hcc, hc1⟩ := ax lon
    have dec := hdec data hfile
    obtain ⟨a, ra, sa⟩ := readPx_ok signed n spp data hlen r c (by omega) (by omega) dec
    obtain ⟨b, rb, sb⟩ := readPx_ok signed n spp data hlen r (c + 1) (by omega) (by omega) dec
    obtain ⟨d, rd, sd⟩ := readPx_ok signed n spp data hlen (r + 1) c (by omega) (by omega) dec
    obtain ⟨e, re, se⟩ := readPx_ok signed n spp data hlen (r + 1) (c + 1) (by omega) (by omega) dec
    have secs : ∀ z : K, 0 ≤ z → (z - (trunc z : K)) * 3600 = Int.fract z * 3600 := by
      intro z hz; rw [trunc_nonneg hz]; rfl
    have fm : ∀ z : K, fmod (Int.fract z * 3600) (spp : Nat) / (spp : Nat) = Int.fract (Int.fract z * 3600 / (spp : Nat)) := by
      intro z
      have f0 : 0 ≤ Int.fract z * 3600 / (spp : Nat) := div_nonneg (mul_nonneg (Int.fract_nonneg z) (by norm_num)) hsK.le
      unfold fmod
      rw [trunc_nonneg f0, Int.fract, sub_div, mul_div_assoc, mul_div_cancel_left₀ _ hsK.ne']
      simp only [Int.fract]
    have t : ∀ z : K, trunc (Int.fract z * 3600 / (spp : Nat)) = ⌊Int.fract z * 3600 / (spp : Nat)⌋ := by
      intro z
      exact trunc_nonneg (div_nonneg (mul_nonneg (Int.fract_nonneg z) (by norm_num)) hsK.le)
    have hint : interpolate signed ⟨(n : Nat), (spp : Nat), ((n : Int) * n - n) * 2, data⟩ ((lat - (trunc lat : K)) * 3600)
        ((lon - (trunc lon : K)) * 3600) =
        .ok (bilinear d e a b (Int.fract (Int.fract lon * 3600 / (spp : Nat))) (Int.fract (Int.fract lat * 3600 / (spp : Nat)))) := by
      unfold interpolate
      simp only [Int.cast_natCast]
      rw [secs lat (by linarith), secs lon (by linarith), t, t, ← hr, ← hcc, ra]
      simp only [Outcome.bind]
      have n1 : ((r : Int) + 1) = ((r + 1 : Nat) : Int) := by push_cast; rfl
      have n2 : ((c : Int) + 1) = ((c + 1 : Nat) : Int) := by push_cast; rfl
      rw [n1, n2, rd]
      simp only
      rw [rb]
      simp only
      rw [re]
      simp only
      rw [fm, fm]
    refine ⟨_, data, n, spp, hint, hfile, hn, r, c, a, b, d, e, hr, hcc, hr1, hc1, sa, sb, sd, se, ?_, ?_⟩
    · unfold bilinear; ring
    · obtain ⟨⟨p, hp, hp'⟩, ⟨q, hq, hq'⟩⟩ := bilinear_between d e a b (Int.fract (Int.fract lon * 3600 / (spp : Nat)))
        (Int.fract (Int.fract lat * 3600 / (spp : Nat))) (Int.fract_nonneg _) (Int.fract_lt_one _).le (Int.fract_nonneg _) (Int.fract_lt_one _).le
      refine ⟨⟨p, ?_, hp'⟩, ⟨q, ?_, hq'⟩⟩
      · simp only [List.mem_cons, List.not_mem_nil, or_false] at hp ⊢; tauto
      · simp only [List.mem_cons, List.not_mem_nil, or_false] at hq ⊢; tauto
  unfold getSrtm
  simp only
  cases hk : cells.find (trunc lat, trunc lon) with
  | some cell =>
    have := hc _ _ hk
    rw [hname] at this
    obtain ⟨h, data, n, spp, e1, e2, e3, e4⟩ := core cell this
    exact ⟨cells, h, data, n, spp, by simp only [e1, Outcome.bind], hc, e2, e3, e4⟩
  | none =>
    obtain ⟨cells', l1, l2, l3, -⟩ := loadCells_ok file _ cells hc hf
    obtain ⟨cell, hcell⟩ := l3 _ (mem_cellKeys h1 h2 h3 h4)
    have := l2 _ _ hcell
    rw [hname] at this
    obtain ⟨h, data, n, spp, e1, e2, e3, e4⟩ := core cell this
    exact ⟨cells', h, data, n, spp, by simp only [l1, Outcome.bind, hcell, e1], l2, e2, e3, e4⟩

/-- C41: the order of the keys is the lexicographic one, so different cells are not confused. -/
theorem C41_keys (a b : Key) : (keyLt a b = false ∧ keyLt b a = false) ↔ a = b := by
  obtain ⟨a1, a2⟩ := a
  obtain ⟨b1, b2⟩ := b
  simp only [keyLt, Bool.or_eq_false_iff, Bool.and_eq_false_iff, decide_eq_false_iff_not, Prod.mk.injEq, ge_iff_le]
  omega

/-- C41: the order of the keys is by latitude, then by longitude. -/
theorem C41_key_order (a b : Key) : keyLt a b = true ↔ a.1 < b.1 ∨ (a.1 = b.1 ∧ a.2 < b.2) := by
  obtain ⟨a1, a2⟩ := a
  obtain ⟨b1, b2⟩ := b
  simp only [keyLt, Bool.or_eq_true, Bool.and_eq_true, decide_eq_true_eq, ge_iff_le]
  omega

/-- C41 is false where characters are signed: the height 200 (bytes 0, 200) is read as -56. -/
theorem C41_violated_signed (cell : Cell) (y x : Nat) (p : Nat) (hp : cell.offset + 2 * ((x : Int) - cell.totalPx * y) = p)
    (h0 : cell.data[p]? = some 0) (h1 : cell.data[p + 1]? = some 200) :
    readPx true cell y x = .ok (-56) ∧ sampleValue 0 200 = 200 := by
  refine ⟨?_, by decide⟩
  have l1 : p < cell.data.length := by by_contra h; rw [List.getElem?_eq_none (by omega)] at h0; cases h0
  have l2 : p + 1 < cell.data.length := by by_contra h; rw [List.getElem?_eq_none (by omega)] at h1; cases h1
  unfold readPx
  simp only [hp]
  rw [show ((p : Int) + 1) = ((p + 1 : Nat) : Int) by push_cast; rfl, at_ok _ _ l1, at_ok _ _ l2]
  rw [List.getElem?_eq_getElem l1, Option.some.injEq] at h0
  rw [List.getElem?_eq_getElem l2, Option.some.injEq] at h1
  simp only [Outcome.bind, h0, h1]
  decide

/-- C41 is false where characters are unsigned: the height -1 (bytes 255, 255) is read as 65535. -/
theorem C41_violated_unsigned (cell : Cell) (y x : Nat) (p : Nat) (hp : cell.offset + 2 * ((x : Int) - cell.totalPx * y) = p)
    (h0 : cell.data[p]? = some 255) (h1 : cell.data[p + 1]? = some 255) :
    readPx false cell y x = .ok 65535 ∧ sampleValue 255 255 = -1 := by
  refine ⟨?_, by decide⟩
  have l1 : p < cell.data.length := by by_contra h; rw [List.getElem?_eq_none (by omega)] at h0; cases h0
  have l2 : p + 1 < cell.data.length := by by_contra h; rw [List.getElem?_eq_none (by omega)] at h1; cases h1
  unfold readPx
  simp only [hp]
  rw [show ((p : Int) + 1) = ((p + 1 : Nat) : Int) by push_cast; rfl, at_ok _ _ l1, at_ok _ _ l2]
  rw [List.getElem?_eq_getElem l1, Option.some.injEq] at h0
  rw [List.getElem?_eq_getElem l2, Option.some.injEq] at h1
  simp only [Outcome.bind, h0, h1]
  decide

/-- C41 is false next to the equator and the zero meridian, and on the southern hemisphere: another file is read. -/
theorem C41_violated_name :
    fileName (trunc (1 / 2 : ℚ), trunc (1 / 2 : ℚ)) ≠ properName (1 / 2 : ℚ) (1 / 2) ∧
    fileName (trunc (-67 / 2 : ℚ), trunc (37 / 2 : ℚ)) ≠ properName (-67 / 2 : ℚ) (37 / 2) := by
  constructor <;> with_unfolding_all decide +kernel

/-- C41 is false on the southern hemisphere: already one sample below a whole degree memory behind the data is read. -/
theorem C41_violated_south (signed : Bool) (n spp : Nat) (data : List UInt8) (hn : 0 < n) (hspp : 0 < spp) (hlen : data.length = n * n * 2)
    (secondsLat secondsLon : K) (h1 : secondsLat ≤ -(spp : K)) (h2 : 0 ≤ secondsLon) :
    interpolate signed ⟨n, spp, ((n : Int) * n - n) * 2, data⟩ secondsLat secondsLon = .ub "index out of range" := by
  have hsK : (0 : K) < (spp : K) := by exact_mod_cast hspp
  have hq : secondsLat / (spp : K) ≤ -1 := by rw [div_le_iff₀ hsK]; linarith
  have hy : trunc (secondsLat / (spp : K)) ≤ -1 := by
    unfold trunc
    rw [if_neg (by linarith)]
    exact Int.ceil_le.2 (by push_cast; exact hq)
  have hx : 0 ≤ trunc (secondsLon / (spp : K)) := by
    have := div_nonneg h2 hsK.le
    rw [trunc_nonneg this]; exact Int.floor_nonneg.2 this
  unfold interpolate
  simp only [Int.cast_natCast]
  unfold readPx
  simp only
  rw [at_ub]
  · rfl
  · rw [hlen]
    push_cast
    have hnI : (0 : Int) < n := by exact_mod_cast hn
    nlinarith

/-- The hypotheses of the theorem can be met: every file is a flat cell (height 0). -/
example : ∃ cells' h, getSrtm true (fun _ => some (List.replicate (1201 * 1201 * 2) 0)) [] (52 : ℚ) 13 53 14 (105 / 2) (27 / 2) =
    .ok (cells', h) := by
  obtain ⟨cells', h, -, -, -, e, -⟩ := C41_srtm_partial (K := ℚ) true (fun _ => some (List.replicate (1201 * 1201 * 2) 0)) []
    (fun _ _ h => by cases h) 52 13 53 14 (105 / 2) (27 / 2) (by norm_num) (by norm_num) (by norm_num) (by norm_num) (by norm_num)
    (by norm_num) (fun k _ => ⟨_, by unfold readCell; simp only [List.length_replicate, if_true]; rfl⟩)
    (fun data hd i b0 b1 h0 h1 => by
      cases hd
      rw [List.getElem?_replicate] at h0 h1
      split at h0 <;> cases h0
      split at h1 <;> cases h1
      exact ⟨fun _ => by decide, fun _ => by decide⟩)
  exact ⟨cells', h, e⟩

end Verif.Props
