import Mathlib.Tactic.Ring
import Mathlib.Tactic.Linarith
import Mathlib.Tactic.NormNum
import Mathlib.Tactic.FieldSimp
import Mathlib.Tactic.LinearCombination
import Mathlib.Analysis.Real.Sqrt
import Mathlib.Topology.LocallyFinite
import Mathlib.Topology.Algebra.Ring.Real
import Mathlib.Topology.Order.Real
import Mathlib.Data.Set.Finite.Lattice
import Verif.Model.Noise
import Verif.Props.Color

/-! # C79: noise -/
set_option linter.unusedSectionVars false

namespace Verif.Props
open Verif.Noise
open Verif.MeshBuilder (Vec2)

namespace NoiseProof
variable {K : Type} [Field K] [LinearOrder K] [IsStrictOrderedRing K] [FloorRing K]

theorem hash_length : hashTable.length = 512 := by decide +kernel
theorem hash_lt : ∀ n ∈ hashTable, n < 256 := by decide +kernel
theorem twice_again (l : List Nat) (hl : l.length = 256) (i : Nat) (h : i < 256) : (l ++ l)[i + 256]? = (l ++ l)[i]? := by
  rw [List.getElem?_append_right (by omega), hl, List.getElem?_append_left (by omega), Nat.add_sub_cancel]
theorem hash_again (i : Nat) (h : i < 256) : hashTable[i + 256]? = hashTable[i]? := twice_again hashRow (by decide +kernel) i h

theorem mask_lt (i : Int) : mask i < 256 := by unfold mask; omega

/-- The table as function -/
def at' (i : Nat) : Nat := hashTable[i]?.getD 0

theorem read_hash (i : Nat) (h : i < 512) : readAt hashTable i = .ok (at' i) ∧ at' i < 256 := by
  have : hashTable[i]? = some (hashTable[i]'(by rw [hash_length]; exact h)) := List.getElem?_eq_getElem _
  constructor
  · unfold readAt at'; rw [this]; rfl
  · unfold at'; rw [this]; exact hash_lt _ (List.getElem_mem _)

theorem at_succ (i : Int) : at' (mask i + 1) = at' (mask (i + 1)) := by
  by_cases h : mask i = 255
  · have : mask (i + 1) = 0 := by unfold mask at *; omega
    rw [h, this]
    have := hash_again 0 (by omega)
    unfold at'; rw [show 255 + 1 = 0 + 256 from rfl, this]
  · have : mask (i + 1) = mask i + 1 := by unfold mask at *; omega
    rw [this]

theorem at_add_succ (n : Nat) (hn : n < 256) (i : Int) : at' (n + (mask i + 1)) = at' (n + mask (i + 1)) := by
  by_cases h : mask i = 255
  · have : mask (i + 1) = 0 := by unfold mask at *; omega
    rw [h, this]
    have := hash_again n hn
    unfold at'; rw [show n + (255 + 1) = n + 256 from rfl, this]; rfl
  · have : mask (i + 1) = mask i + 1 := by unfold mask at *; omega
    rw [this]

/-- The gradient at a point of the lattice -/
def grad (r : K) (i j : Int) : Vec2 K := (gradients2D r)[at' (at' (mask i) + mask j) % 8]?.getD ⟨1, 0⟩

/-- The noise in the cell of a point of the lattice -/
def cell (r : K) (i j : Int) (u v : K) : K := blend r (grad r i j) (grad r (i + 1) j) (grad r i (j + 1)) (grad r (i + 1) (j + 1)) u v

omit [IsStrictOrderedRing K] in
theorem gradientAt_eq (r : K) (h i : Nat) (hh : h + i < 512) : gradientAt r h i = .ok ((gradients2D r)[at' (h + i) % 8]?.getD ⟨1, 0⟩) := by
  unfold gradientAt
  rw [(read_hash _ hh).1]
  simp only [Outcome.bind]
  have : at' (h + i) % 8 < (gradients2D r).length := by show _ < 8; omega
  unfold readAt
  rw [List.getElem?_eq_getElem this]; rfl

omit [IsStrictOrderedRing K] in
theorem perlin_eq (r x y f : K) (hf : ¬ f < 1 / 100000) (hx : -2 ^ 31 ≤ ⌊x * f⌋ ∧ ⌊x * f⌋ < 2 ^ 31) (hy : -2 ^ 31 ≤ ⌊y * f⌋ ∧ ⌊y * f⌋ < 2 ^ 31) :
    perlin2D r x y f = .ok (cell r ⌊x * f⌋ ⌊y * f⌋ (x * f - ⌊x * f⌋) (y * f - ⌊y * f⌋)) := by
  unfold perlin2D toInt
  rw [if_neg hf, if_pos hx, if_pos hy]
  simp only [Outcome.bind]
  have m1 := mask_lt ⌊x * f⌋
  have m2 := mask_lt ⌊y * f⌋
  obtain ⟨a1, a2⟩ := read_hash (mask ⌊x * f⌋) (by omega)
  obtain ⟨b1, b2⟩ := read_hash (mask ⌊x * f⌋ + 1) (by omega)
  rw [a1, b1]
  simp only
  rw [gradientAt_eq r _ _ (by omega), gradientAt_eq r _ _ (by omega), gradientAt_eq r _ _ (by omega), gradientAt_eq r _ _ (by omega)]
  simp only
  unfold cell grad
  rw [at_add_succ _ a2, at_add_succ _ b2, at_succ]

omit [FloorRing K] in
theorem grad_unit [FloorRing K] (r : K) (hr : 0 < r) (hr2 : r * r = 2) (i j : Int) : (grad r i j).x * (grad r i j).x + (grad r i j).y * (grad r i j).y = 1 := by
  have hall : ∀ n < 8, ∀ g, (gradients2D r)[n]? = some g → g.x * g.x + g.y * g.y = 1 := by
    intro n hn g hg
    have hne := hr.ne'
    have key : (1 / r) * (1 / r) = 1 / 2 := by rw [div_mul_div_comm, one_mul, hr2]
    have key' : (-1 / r) * (-1 / r) = 1 / 2 := by rw [div_mul_div_comm, neg_one_mul, neg_neg, hr2]
    match n, hn with
    | 0, _ => cases hg; norm_num
    | 1, _ => cases hg; norm_num
    | 2, _ => cases hg; norm_num
    | 3, _ => cases hg; norm_num
    | 4, _ => cases hg; simp only; rw [key]; norm_num
    | 5, _ => cases hg; simp only; rw [key, key']; norm_num
    | 6, _ => cases hg; simp only; rw [key, key']; norm_num
    | 7, _ => cases hg; simp only; rw [key']; norm_num
  unfold grad
  have hlt : at' (at' (mask i) + mask j) % 8 < 8 := Nat.mod_lt _ (by omega)
  have : (gradients2D r)[at' (at' (mask i) + mask j) % 8]? = some ((gradients2D r)[at' (at' (mask i) + mask j) % 8]'(by show _ < 8; exact hlt)) :=
    List.getElem?_eq_getElem _
  rw [this]
  exact hall _ hlt _ this

omit [FloorRing K] in
theorem smooth_range [FloorRing K] (t : K) (h0 : 0 ≤ t) (h1 : t ≤ 1) : 0 ≤ smooth t ∧ smooth t ≤ 1 := by
  have a : ∀ t : K, 0 ≤ t → 0 ≤ smooth t := by
    intro t h0
    unfold smooth
    apply mul_nonneg (by positivity)
    nlinarith [sq_nonneg (t - 5 / 4)]
  refine ⟨a t h0, ?_⟩
  have b := a (1 - t) (by linarith)
  have : smooth (1 - t) = 1 - smooth t := by unfold smooth; ring
  linarith

/-- The expected square of the distance to a corner along one axis -/
theorem spread (t : K) : (1 - smooth t) * (t * t) + smooth t * ((t - 1) * (t - 1)) ≤ 1 / 4 := by
  have e : 1 / 4 - ((1 - smooth t) * (t * t) + smooth t * ((t - 1) * (t - 1))) =
      (t - 1 / 2) * (t - 1 / 2) * (11 / 4 - 10 * ((t - 1 / 2) * (t - 1 / 2)) + 12 * ((t - 1 / 2) * (t - 1 / 2)) * ((t - 1 / 2) * (t - 1 / 2))) := by
    unfold smooth; ring
  have : 0 ≤ (t - 1 / 2) * (t - 1 / 2) * (11 / 4 - 10 * ((t - 1 / 2) * (t - 1 / 2)) + 12 * ((t - 1 / 2) * (t - 1 / 2)) * ((t - 1 / 2) * (t - 1 / 2))) := by
    apply mul_nonneg (mul_self_nonneg _)
    nlinarith [sq_nonneg ((t - 1 / 2) * (t - 1 / 2) - 5 / 12)]
  linarith

omit [FloorRing K] in
theorem jensen (s a b : K) (h0 : 0 ≤ s) (h1 : s ≤ 1) : ((1 - s) * a + s * b) * ((1 - s) * a + s * b) ≤ (1 - s) * (a * a) + s * (b * b) := by
  have : 0 ≤ (1 - s) * s * ((a - b) * (a - b)) := mul_nonneg (mul_nonneg (by linarith) h0) (mul_self_nonneg _)
  nlinarith

theorem cauchy (g : Vec2 K) (hg : g.x * g.x + g.y * g.y = 1) (x y : K) : dot g x y * dot g x y ≤ x * x + y * y := by
  unfold dot
  nlinarith [mul_self_nonneg (g.x * y - g.y * x)]

theorem cell_bound (r : K) (hr : 0 < r) (hr2 : r * r = 2) (i j : Int) (u v : K) (hu0 : 0 ≤ u) (hu1 : u ≤ 1) (hv0 : 0 ≤ v) (hv1 : v ≤ 1) :
    |cell r i j u v| ≤ 1 := by
  obtain ⟨s0, s1⟩ := smooth_range u hu0 hu1
  obtain ⟨t0, t1⟩ := smooth_range v hv0 hv1
  have c00 := cauchy _ (grad_unit r hr hr2 i j) u v
  have c10 := cauchy _ (grad_unit r hr hr2 (i + 1) j) (u - 1) v
  have c01 := cauchy _ (grad_unit r hr hr2 i (j + 1)) u (v - 1)
  have c11 := cauchy _ (grad_unit r hr hr2 (i + 1) (j + 1)) (u - 1) (v - 1)
  have eu := spread u
  have ev := spread v
  have e : cell r i j u v = ((1 - smooth v) * ((1 - smooth u) * dot (grad r i j) u v + smooth u * dot (grad r (i + 1) j) (u - 1) v) +
      smooth v * ((1 - smooth u) * dot (grad r i (j + 1)) u (v - 1) + smooth u * dot (grad r (i + 1) (j + 1)) (u - 1) (v - 1))) * r := by
    unfold cell blend; simp only; ring
  rw [e]
  generalize dot (grad r i j) u v = v00 at c00
  generalize dot (grad r (i + 1) j) (u - 1) v = v10 at c10
  generalize dot (grad r i (j + 1)) u (v - 1) = v01 at c01
  generalize dot (grad r (i + 1) (j + 1)) (u - 1) (v - 1) = v11 at c11
  generalize smooth u = s at s0 s1 eu
  generalize smooth v = t at t0 t1 ev
  have j1 := jensen s v00 v10 s0 s1
  have j2 := jensen s v01 v11 s0 s1
  have j3 := jensen t ((1 - s) * v00 + s * v10) ((1 - s) * v01 + s * v11) t0 t1
  have q1 : (1 - s) * (v00 * v00) + s * (v10 * v10) ≤ (1 - s) * (u * u + v * v) + s * ((u - 1) * (u - 1) + v * v) :=
    add_le_add (mul_le_mul_of_nonneg_left c00 (by linarith)) (mul_le_mul_of_nonneg_left c10 s0)
  have q2 : (1 - s) * (v01 * v01) + s * (v11 * v11) ≤ (1 - s) * (u * u + (v - 1) * (v - 1)) + s * ((u - 1) * (u - 1) + (v - 1) * (v - 1)) :=
    add_le_add (mul_le_mul_of_nonneg_left c01 (by linarith)) (mul_le_mul_of_nonneg_left c11 s0)
  have q3 := add_le_add (mul_le_mul_of_nonneg_left (j1.trans q1) (show 0 ≤ 1 - t by linarith)) (mul_le_mul_of_nonneg_left (j2.trans q2) t0)
  have q4 := j3.trans q3
  generalize (1 - t) * ((1 - s) * v00 + s * v10) + t * ((1 - s) * v01 + s * v11) = n at q4
  have hn : n * n ≤ 1 / 2 := by
    have : (1 - t) * ((1 - s) * (u * u + v * v) + s * ((u - 1) * (u - 1) + v * v)) +
        t * ((1 - s) * (u * u + (v - 1) * (v - 1)) + s * ((u - 1) * (u - 1) + (v - 1) * (v - 1))) =
        ((1 - s) * (u * u) + s * ((u - 1) * (u - 1))) + ((1 - t) * (v * v) + t * ((v - 1) * (v - 1))) := by ring
    linarith
  apply abs_le_of_sq_le_sq' _ zero_le_one |> abs_le.2
  calc (n * r) ^ 2 = n * n * (r * r) := by ring
    _ ≤ 1 ^ 2 := by rw [hr2]; linarith

omit [IsStrictOrderedRing K] in
theorem cell_right (r : K) (i j : Int) (v : K) : cell r (i + 1) j 0 v = cell r i j 1 v := by
  unfold cell blend smooth dot; simp only; ring

omit [IsStrictOrderedRing K] in
theorem cell_up (r : K) (i j : Int) (u : K) : cell r i (j + 1) u 0 = cell r i j u 1 := by
  unfold cell blend smooth dot; simp only; ring

/-- The noise as function of the scaled coordinates -/
noncomputable def value (r : K) (x y : K) : K := cell r ⌊x⌋ ⌊y⌋ (x - ⌊x⌋) (y - ⌊y⌋)

theorem value_cell (r : K) (i j : Int) (x y : K) (hx0 : (i : K) ≤ x) (hx1 : x ≤ i + 1) (hy0 : (j : K) ≤ y) (hy1 : y ≤ j + 1) :
    value r x y = cell r i j (x - i) (y - j) := by
  have hx : ∀ J : Int, ∀ w, cell r ⌊x⌋ J (x - ⌊x⌋) w = cell r i J (x - i) w := by
    intro J w
    rcases hx1.lt_or_eq with h | h
    · rw [Int.floor_eq_iff.2 ⟨hx0, h⟩]
    · have : ⌊x⌋ = i + 1 := by rw [h]; exact_mod_cast Int.floor_intCast (i + 1)
      rw [this, h]
      push_cast
      rw [sub_self, cell_right, add_sub_cancel_left]
  have hy : ∀ I : Int, ∀ w, cell r I ⌊y⌋ w (y - ⌊y⌋) = cell r I j w (y - j) := by
    intro I w
    rcases hy1.lt_or_eq with h | h
    · rw [Int.floor_eq_iff.2 ⟨hy0, h⟩]
    · have : ⌊y⌋ = j + 1 := by rw [h]; exact_mod_cast Int.floor_intCast (j + 1)
      rw [this, h]
      push_cast
      rw [sub_self, cell_up, add_sub_cancel_left]
  unfold value
  rw [hx, hy]

theorem value_continuous (r : ℝ) : Continuous fun p : ℝ × ℝ => value r p.1 p.2 := by
  let cells : Int × Int → Set (ℝ × ℝ) := fun c => {p | (c.1 : ℝ) ≤ p.1 ∧ p.1 ≤ c.1 + 1 ∧ (c.2 : ℝ) ≤ p.2 ∧ p.2 ≤ c.2 + 1}
  have hclosed : ∀ c, IsClosed (cells c) := by
    intro c
    refine (isClosed_le continuous_const continuous_fst).inter ((isClosed_le continuous_fst continuous_const).inter
      ((isClosed_le continuous_const continuous_snd).inter (isClosed_le continuous_snd continuous_const)))
  have hfinite : LocallyFinite cells := by
    intro p
    refine ⟨{q | (p.1 - 1 < q.1 ∧ q.1 < p.1 + 1) ∧ (p.2 - 1 < q.2 ∧ q.2 < p.2 + 1)}, ?_, ?_⟩
    · apply IsOpen.mem_nhds
      · exact ((isOpen_lt continuous_const continuous_fst).inter (isOpen_lt continuous_fst continuous_const)).inter
          ((isOpen_lt continuous_const continuous_snd).inter (isOpen_lt continuous_snd continuous_const))
      · exact ⟨⟨by linarith, by linarith⟩, by linarith, by linarith⟩
    · apply Set.Finite.subset ((Set.finite_Icc (⌊p.1⌋ - 3) (⌊p.1⌋ + 3)).prod (Set.finite_Icc (⌊p.2⌋ - 3) (⌊p.2⌋ + 3)))
      rintro ⟨i, j⟩ ⟨q, ⟨h1, h2, h3, h4⟩, ⟨h5, h6⟩, h7, h8⟩
      have f1 := Int.floor_le p.1
      have f2 := Int.lt_floor_add_one p.1
      have f3 := Int.floor_le p.2
      have f4 := Int.lt_floor_add_one p.2
      simp only at h1 h2 h3 h4
      refine ⟨⟨?_, ?_⟩, ?_, ?_⟩ <;> simp only
      · have : ((⌊p.1⌋ - 3 : Int) : ℝ) ≤ (i : ℝ) := by push_cast; linarith
        exact_mod_cast this
      · have : ((i : Int) : ℝ) ≤ ((⌊p.1⌋ + 3 : Int) : ℝ) := by push_cast; linarith
        exact_mod_cast this
      · have : ((⌊p.2⌋ - 3 : Int) : ℝ) ≤ (j : ℝ) := by push_cast; linarith
        exact_mod_cast this
      · have : ((j : Int) : ℝ) ≤ ((⌊p.2⌋ + 3 : Int) : ℝ) := by push_cast; linarith
        exact_mod_cast this
  refine hfinite.continuous ?_ hclosed ?_
  · apply Set.eq_univ_of_forall
    intro p
    refine Set.mem_iUnion.2 ⟨(⌊p.1⌋, ⌊p.2⌋), Int.floor_le _, (Int.lt_floor_add_one _).le, Int.floor_le _, (Int.lt_floor_add_one _).le⟩
  · rintro ⟨i, j⟩
    have : Continuous fun p : ℝ × ℝ => cell r i j (p.1 - i) (p.2 - j) := by
      unfold cell blend smooth dot
      simp only
      fun_prop
    exact this.continuousOn.congr fun p hp => value_cell r i j p.1 p.2 hp.1 hp.2.1 hp.2.2.1 hp.2.2.2

end NoiseProof
open NoiseProof
variable {K : Type} [Field K] [LinearOrder K] [IsStrictOrderedRing K] [FloorRing K]

/-- A scaled coordinate is within the range of `int`. -/
def NoiseProof.InRange (v : K) : Prop := -2 ^ 31 ≤ v ∧ v < 2 ^ 31

theorem NoiseProof.InRange.floor {v : K} (h : InRange v) : -2 ^ 31 ≤ ⌊v⌋ ∧ ⌊v⌋ < 2 ^ 31 := by
  obtain ⟨h1, h2⟩ := h
  constructor
  · rw [Int.le_floor]; push_cast; norm_num at h1 ⊢; exact h1
  · rw [Int.floor_lt]; push_cast; norm_num at h2 ⊢; exact h2

/-- C79: for all coordinates whose products with the frequency are in the range of `int`, noise never reads outside of its tables, and its value is
between -1 and 1. -/
theorem C79_bounded (r : K) (hr : 0 < r) (hr2 : r * r = 2) (x y f : K) (hx : InRange (x * f)) (hy : InRange (y * f)) :
    ∃ n, perlin2D r x y f = .ok n ∧ |n| ≤ 1 := by
  by_cases hf : f < 1 / 100000
  · refine ⟨0, by unfold perlin2D; rw [if_pos hf], by simp⟩
  · refine ⟨_, perlin_eq r x y f hf hx.floor hy.floor, ?_⟩
    have a1 := Int.floor_le (x * f)
    have a2 := (Int.lt_floor_add_one (x * f)).le
    have b1 := Int.floor_le (y * f)
    have b2 := (Int.lt_floor_add_one (y * f)).le
    exact cell_bound r hr hr2 _ _ _ _ (by linarith) (by linarith) (by linarith) (by linarith)

omit [IsStrictOrderedRing K] in
/-- C79: a frequency of (nearly) zero means no noise. -/
theorem C79_off (r x y f : K) (hf : f < 1 / 100000) : perlin2D r x y f = .ok 0 := by unfold perlin2D; rw [if_pos hf]

/-- C79: there is no noise at the points of the lattice. -/
theorem C79_lattice (r f : K) (hf : 1 / 100000 ≤ f) (x y : K) (i j : Int) (hi : x * f = i) (hj : y * f = j) (hx : InRange (x * f)) (hy : InRange (y * f)) :
    perlin2D r x y f = .ok 0 := by
  rw [perlin_eq r x y f (not_lt.2 hf) hx.floor hy.floor, hi, hj, Int.floor_intCast, Int.floor_intCast, sub_self, sub_self]
  congr 1
  unfold cell blend smooth dot
  simp

/-- C79: noise has no steps: it is a continuous function of both coordinates, also across the borders of the cells and where the table starts
again. -/
theorem C79_continuous (r f : ℝ) : ∃ n : ℝ × ℝ → ℝ, Continuous n ∧
    ∀ x y, InRange (x * f) → InRange (y * f) → perlin2D r x y f = .ok (n (x, y)) := by
  by_cases hf : f < 1 / 100000
  · exact ⟨fun _ => 0, continuous_const, fun x y _ _ => C79_off r x y f hf⟩
  · refine ⟨fun p => value r (p.1 * f) (p.2 * f), ?_, ?_⟩
    · have hc : Continuous fun p : ℝ × ℝ => (p.1 * f, p.2 * f) := by fun_prop
      have := (value_continuous r).comp hc
      generalize value r = w at this ⊢
      exact this
    · intro x y hx hy
      simp only [value]
      exact perlin_eq r x y f hf hx.floor hy.floor

/-- C79: the time for which a gradient is evaluated is between 0 and 1, so that a gradient with a last stop at 1 always gives one of its colors or a
color between two neighbours (C33). -/
theorem C79_color (r : K) (hr : 0 < r) (hr2 : r * r = 2) (x y f : K) (hx : InRange (x * f)) (hy : InRange (y * f)) :
    ∃ t, colorTime r x y f = .ok t ∧ 0 ≤ t ∧ t ≤ 1 := by
  obtain ⟨n, h1, h2⟩ := C79_bounded r hr hr2 x y f hx hy
  obtain ⟨h3, h4⟩ := abs_le.1 h2
  refine ⟨(n + 1) / 2, by unfold colorTime; rw [h1]; rfl, by linarith, by linarith⟩

/-- C79: a gradient whose last stop is at 1 or later is never evaluated behind its last stop. -/
theorem C79_gradient (r : K) (hr : 0 < r) (hr2 : r * r = 2) (x y f : K) (hx : InRange (x * f)) (hy : InRange (y * f)) (l : List (K × Color.Color))
    (last : K × Color.Color) (hl : l.getLast? = some last) (h1 : 1 ≤ last.1) :
    ∃ t, colorTime r x y f = .ok t ∧
      ((∃ p, l[0]? = some p ∧ Color.evaluate l t = .ok p.2 ∧ (1 < l.length → t ≤ p.1)) ∨
      ∃ i A B c, l[i]? = some A ∧ l[i + 1]? = some B ∧ A.1 < t ∧ t ≤ B.1 ∧ Color.evaluate l t = .ok c ∧ ColorSpec.Between 1 A.2 B.2 c) := by
  obtain ⟨t, h2, h3, h4⟩ := C79_color r hr hr2 x y f hx hy
  exact ⟨t, h2, C33_between_partial l t last hl (h4.trans h1)⟩

/-- The square root of two, and a place where the noise is not zero. -/
example : 0 < Real.sqrt 2 ∧ Real.sqrt 2 * Real.sqrt 2 = 2 := ⟨by simp, Real.mul_self_sqrt (by norm_num)⟩

/-- In the middle of the first cell, with 3/2 instead of the root. -/
example : (match perlin2D (3 / 2 : ℚ) (1 / 2) (1 / 2) 1 with | .ok n => n != 0 | _ => false) = true := by decide +kernel

end Verif.Props
