import Mathlib.Tactic.Ring
import Mathlib.Tactic.Linarith
import Mathlib.Tactic.LinearCombination
import Mathlib.Tactic.FieldSimp
import Mathlib.Tactic.NormNum
import Verif.Model.Geometry
import Verif.Props.GeometrySpec

/-! # Properties of geometry helpers -/
namespace Verif.Props
open Verif.Geometry
open Verif.Polygon (Vec)
open Verif.GeometrySpec

variable {K : Type} [Field K] [LinearOrder K] [IsStrictOrderedRing K]

/-- A common ordinate of two lines, from the equation without denominators. -/
theorem GeometryProof.meet (a b c d : K) {den : K} (hd : den ≠ 0) (n m : K) (h : a * den + n * (b - a) = (den - m) * c + m * d) :
    a + n / den * (b - a) = (1 - m / den) * c + m / den * d := by
  have e1 : n / den * den = n := div_mul_cancel₀ n hd
  have e2 : m / den * den = m := div_mul_cancel₀ m hd
  apply mul_right_cancel₀ hd
  linear_combination h + (b - a) * e1 + (c - d) * e2

/-- C55: the reported parameter is in [0,1], and the point which belongs to it is on both segments. -/
theorem C55_point (a b c d : Vec K) (r : K) (h : getIntersection a b c d = some r) :
    0 ≤ r ∧ r ≤ 1 ∧ OnSegment a b (getPointAlongLine a b r) ∧ OnSegment c d (getPointAlongLine a b r) := by
  unfold getIntersection at h
  simp only [] at h
  split at h
  · cases h
  · rename_i hd
    split at h
    · cases h
    · rename_i hr
      simp only [not_or, not_lt, gt_iff_lt] at hr
      obtain ⟨⟨r0, r1⟩, s0, s1⟩ := hr
      have hr := Option.some.inj h
      rw [hr] at r0 r1
      refine ⟨r0, r1, ⟨r, r0, r1, ?_, ?_⟩, ?_⟩
      · unfold getPointAlongLine; ring
      · unfold getPointAlongLine; ring
      · refine ⟨_, s0, s1, ?_, ?_⟩
        · rw [← hr]
          exact GeometryProof.meet _ _ _ _ hd _ _ (by ring)
        · rw [← hr]
          exact GeometryProof.meet _ _ _ _ hd _ _ (by ring)

/-- C55: nothing is reported exactly if the segments are parallel or have no common point. -/
theorem C55_none (a b c d : Vec K) :
    getIntersection a b c d = none ↔ Parallel a b c d ∨ ¬ ∃ p, OnSegment a b p ∧ OnSegment c d p := by
  constructor
  · intro h
    by_cases hp : Parallel a b c d
    · exact .inl hp
    · right
      rintro ⟨p, ⟨t, t0, t1, tx, ty⟩, ⟨s, s0, s1, sx, sy⟩⟩
      have hd : (b.x - a.x) * (d.y - c.y) - (b.y - a.y) * (d.x - c.x) ≠ 0 := fun e => hp (sub_eq_zero.1 e)
      have e1 : (1 - t) * a.x + t * b.x = (1 - s) * c.x + s * d.x := tx.symm.trans sx
      have e2 : (1 - t) * a.y + t * b.y = (1 - s) * c.y + s * d.y := ty.symm.trans sy
      have ht : ((a.y - c.y) * (d.x - c.x) - (a.x - c.x) * (d.y - c.y)) / ((b.x - a.x) * (d.y - c.y) - (b.y - a.y) * (d.x - c.x)) = t := by
        rw [div_eq_iff hd]
        linear_combination (d.x - c.x) * e2 - (d.y - c.y) * e1
      have hs : ((a.y - c.y) * (b.x - a.x) - (a.x - c.x) * (b.y - a.y)) / ((b.x - a.x) * (d.y - c.y) - (b.y - a.y) * (d.x - c.x)) = s := by
        rw [div_eq_iff hd]
        linear_combination (b.x - a.x) * e2 - (b.y - a.y) * e1
      unfold getIntersection at h
      simp only [] at h
      rw [if_neg hd, ht, hs, if_neg (by simp only [not_or, not_lt, gt_iff_lt]; exact ⟨⟨t0, t1⟩, s0, s1⟩)] at h
      cases h
  · rintro (h | h)
    · unfold getIntersection
      simp only []
      rw [if_pos (sub_eq_zero.2 h)]
    · cases hr : getIntersection a b c d with
      | none => rfl
      | some r => exact absurd ⟨_, (C55_point a b c d r hr).2.2.1, (C55_point a b c d r hr).2.2.2⟩ h

example : getIntersection (K := ℚ) ⟨0, 0⟩ ⟨4, 4⟩ ⟨0, 2⟩ ⟨2, 0⟩ = some (1 / 4) := by decide +kernel

/-- Parallel segments with common points are an example of the first case. -/
example : getIntersection (K := ℚ) ⟨0, 0⟩ ⟨4, 0⟩ ⟨1, 0⟩ ⟨2, 0⟩ = none := (C55_none _ _ _ _).2 (.inl (by unfold Parallel; norm_num))

namespace GeometryProof

theorem side_sum (a b c p : Vec K) : side a b p + side b c p + side c a p = side a b c := by unfold side; ring

theorem side_weights (a b c p : Vec K) : side b c p * (a.y - p.y) + side c a p * (b.y - p.y) + side a b p * (c.y - p.y) = 0 := by unfold side; ring

theorem crossing_up (p i j : Vec K) (hi : i.y ≤ p.y) (hj : p.y < j.y) : geoCrossing p i j = decide (0 < side i j p) := by
  unfold geoCrossing side
  have h : 0 < j.y - i.y := by linarith
  rw [show decide (i.y > p.y) = false from decide_eq_false (by simpa using hi), show decide (j.y > p.y) = true from decide_eq_true hj]
  simp only [bne, Bool.false_eq_true, BEq.rfl, Bool.true_and]
  rw [show (false == true) = false from rfl, Bool.not_false, Bool.true_and]
  congr 1
  rw [← sub_lt_iff_lt_add, lt_div_iff₀ h, sub_pos, mul_comm (p.x - i.x)]

theorem crossing_symm (p i j : Vec K) : geoCrossing p i j = geoCrossing p j i := by
  unfold geoCrossing
  by_cases h : i.y = j.y
  · simp [h]
  · have h1 : j.y - i.y ≠ 0 := fun e => h (sub_eq_zero.1 e).symm
    have h2 : i.y - j.y ≠ 0 := fun e => h (sub_eq_zero.1 e)
    rw [show (j.x - i.x) * (p.y - i.y) / (j.y - i.y) + i.x = (i.x - j.x) * (p.y - j.y) / (i.y - j.y) + j.x by field_simp; ring]
    congr 1
    exact bne_comm

theorem crossing_down (p i j : Vec K) (hi : p.y < i.y) (hj : j.y ≤ p.y) : geoCrossing p i j = decide (side i j p < 0) := by
  rw [crossing_symm, crossing_up p j i hj hi]
  congr 1
  have : side j i p = - side i j p := by unfold side; ring
  rw [this, neg_pos]

theorem crossing_same (p i j : Vec K) (h : (i.y ≤ p.y ∧ j.y ≤ p.y) ∨ (p.y < i.y ∧ p.y < j.y)) : geoCrossing p i j = false := by
  unfold geoCrossing
  rcases h with ⟨h1, h2⟩ | ⟨h1, h2⟩
  · rw [show decide (i.y > p.y) = false from decide_eq_false (by simpa using h1), show decide (j.y > p.y) = false from decide_eq_false (by simpa using h2)]; rfl
  · rw [show decide (i.y > p.y) = true from decide_eq_true h1, show decide (j.y > p.y) = true from decide_eq_true h2]; rfl

theorem crossing_self (p i : Vec K) : geoCrossing p i i = false := crossing_same p i i (by rcases le_or_gt i.y p.y with h | h <;> simp [h])

/-- The number of crossings of the edges of a line, as parity. -/
def lineParity (p : Vec K) : List (Vec K) → Bool
  | a :: b :: rest => xor (geoCrossing p a b) (lineParity p (b :: rest))
  | _ => false

theorem geoParity_eq (p : Vec K) (l : List (Vec K)) : ∀ (j : Vec K) (c : Bool), geoParity p j l c = xor c (lineParity p (j :: l)) := by
  induction l with
  | nil => intro j c; simp [geoParity, lineParity]
  | cons i rest ih =>
    intro j c
    rw [geoParity, ih, lineParity, crossing_symm p i j]
    cases geoCrossing p j i <;> cases c <;> simp

theorem lineParity_snoc (p : Vec K) (l : List (Vec K)) (a b : Vec K) : lineParity p (l ++ [a, b]) = xor (lineParity p (l ++ [a])) (geoCrossing p a b) := by
  induction l with
  | nil => simp [lineParity]
  | cons x l ih =>
    cases l with
    | nil => simp [lineParity]
    | cons y l =>
      simp only [List.cons_append] at ih ⊢
      rw [lineParity, ih, lineParity, Bool.xor_assoc]

/-- The ring test is the parity of the closed line. -/
theorem isPointInRing_cons (p a : Vec K) (l : List (Vec K)) : isPointInRing p (a :: l) = lineParity p (a :: (l ++ [a])) := by
  rcases List.eq_nil_or_concat l with rfl | ⟨m, z, rfl⟩
  · show geoParity p a [a] false = _
    rw [geoParity_eq]; simp
  · unfold isPointInRing
    rw [show (a :: m.concat z).getLast? = some z by rw [List.concat_eq_append, ← List.cons_append, List.getLast?_append]; rfl]
    show geoParity p z (a :: m.concat z) false = _
    rw [geoParity_eq, Bool.false_xor, lineParity]
    rw [List.concat_eq_append, List.append_assoc, List.singleton_append, ← List.cons_append, ← List.cons_append, lineParity_snoc, Bool.xor_comm]

theorem lineParity_append (p : Vec K) (a : Vec K) (l r : List (Vec K)) : lineParity p (l ++ a :: r) = xor (lineParity p (l ++ [a])) (lineParity p (a :: r)) := by
  induction l with
  | nil => simp [lineParity]
  | cons x l ih =>
    cases l with
    | nil => simp [lineParity]
    | cons y l =>
      simp only [List.cons_append] at ih ⊢
      rw [lineParity, ih, lineParity, Bool.xor_assoc]

theorem triangle_eq (p a b c : Vec K) : isPointInRing p [a, b, c] = xor (geoCrossing p a b) (xor (geoCrossing p b c) (geoCrossing p c a)) := by
  rw [isPointInRing_cons]
  simp [lineParity]

theorem triangle_rot (p a b c : Vec K) : isPointInRing p [a, b, c] = isPointInRing p [b, c, a] := by
  rw [triangle_eq, triangle_eq]
  cases geoCrossing p a b <;> cases geoCrossing p b c <;> cases geoCrossing p c a <;> rfl

theorem in_rot (a b c p : Vec K) (h : InTriangle a b c p) : InTriangle b c a p := by
  rcases h with ⟨h1, h2, h3⟩ | ⟨h1, h2, h3⟩
  · exact .inl ⟨h2, h3, h1⟩
  · exact .inr ⟨h2, h3, h1⟩

theorem out_rot (a b c p : Vec K) (h : OutTriangle a b c p) : OutTriangle b c a p := by
  have e : side b c a = side a b c := by unfold side; ring
  unfold OutTriangle at h ⊢
  rw [e]
  tauto

/-- What is claimed about a triangle. -/
def Right (a b c p : Vec K) : Prop := (InTriangle a b c p → isPointInRing p [a, b, c] = true) ∧ (OutTriangle a b c p → isPointInRing p [a, b, c] = false)

theorem right_rot (a b c p : Vec K) (h : Right b c a p) : Right a b c p := by
  unfold Right at h ⊢
  rw [triangle_rot]
  exact ⟨fun h' => h.1 (in_rot a b c p h'), fun h' => h.2 (out_rot a b c p h')⟩

theorem weights_pos {s1 s2 s3 u v q : K} (h1 : 0 < s1) (h3 : 0 ≤ s3) (h2 : s2 < 0) (hu : u ≤ 0) (hv : 0 < v) (hq : 0 < q)
    (w : s2 * u + s3 * v + s1 * q = 0) : False := by
  have e1 := mul_nonneg_of_nonpos_of_nonpos h2.le hu
  have e2 := mul_nonneg h3 hv.le
  have e3 := mul_pos h1 hq
  linarith

theorem weights_neg {s1 s2 s3 u v q : K} (h1 : s1 ≤ 0) (h3 : s3 < 0) (h2 : 0 < s2) (hu : u ≤ 0) (hv : 0 < v) (hq : 0 < q)
    (w : s2 * u + s3 * v + s1 * q = 0) : False := by
  have e1 := mul_nonpos_of_nonneg_of_nonpos h2.le hu
  have e2 := mul_neg_of_neg_of_pos h3 hv
  have e3 := mul_nonpos_of_nonpos_of_nonneg h1 hq.le
  linarith

/-- One corner is below the point, the others are above. -/
theorem right_below (a b c p : Vec K) (ha : a.y ≤ p.y) (hb : p.y < b.y) (hc : p.y < c.y) : Right a b c p := by
  have w := side_weights a b c p
  have sum := side_sum a b c p
  unfold Right
  rw [triangle_eq, crossing_up p a b ha hb, crossing_same p b c (.inr ⟨hb, hc⟩), crossing_down p c a hc ha, Bool.false_xor]
  constructor
  · rintro (⟨h1, h2, h3⟩ | ⟨h1, h2, h3⟩)
    · rw [decide_eq_true h1, decide_eq_false (not_lt.2 h3.le)]; rfl
    · rw [decide_eq_false (not_lt.2 h1.le), decide_eq_true h3]; rfl
  · intro h
    have k1 : 0 < side a b p → 0 ≤ side c a p → False := by
      intro h1 h3
      have h2 : side b c p < 0 := by rcases h with h0 | ⟨h0, h | h | h⟩ | ⟨h0, h⟩ <;> linarith
      exact weights_pos h1 h3 h2 (sub_nonpos.2 ha) (sub_pos.2 hb) (sub_pos.2 hc) w
    have k2 : side a b p ≤ 0 → side c a p < 0 → False := by
      intro h1 h3
      have h2 : 0 < side b c p := by rcases h with h0 | ⟨h0, h⟩ | ⟨h0, h | h | h⟩ <;> linarith
      exact weights_neg h1 h3 h2 (sub_nonpos.2 ha) (sub_pos.2 hb) (sub_pos.2 hc) w
    rcases lt_or_ge 0 (side a b p) with h1 | h1
    · rw [decide_eq_true h1, decide_eq_true (not_le.1 fun h3 => k1 h1 h3)]; rfl
    · rw [decide_eq_false (not_lt.2 h1), decide_eq_false (fun h3 => k2 h1 h3)]; rfl

/-- One corner is above the point, the others are not. -/
theorem right_above (a b c p : Vec K) (ha : p.y < a.y) (hb : b.y ≤ p.y) (hc : c.y ≤ p.y) : Right a b c p := by
  have w := side_weights a b c p
  have sum := side_sum a b c p
  unfold Right
  rw [triangle_eq, crossing_down p a b ha hb, crossing_same p b c (.inl ⟨hb, hc⟩), crossing_up p c a hc ha, Bool.false_xor]
  constructor
  · rintro (⟨h1, h2, h3⟩ | ⟨h1, h2, h3⟩)
    · rw [decide_eq_false (not_lt.2 h1.le), decide_eq_true h3]; rfl
    · rw [decide_eq_true h1, decide_eq_false (not_lt.2 h3.le)]; rfl
  · intro h
    have k1 : side a b p < 0 → side c a p ≤ 0 → False := by
      intro h1 h3
      have h2 : 0 < side b c p := by rcases h with h0 | ⟨h0, h⟩ | ⟨h0, h | h | h⟩ <;> linarith
      have e1 := mul_pos h2 (sub_pos.2 ha)
      have e2 := mul_nonneg_of_nonpos_of_nonpos h3 (sub_nonpos.2 hb)
      have e3 := mul_nonneg_of_nonpos_of_nonpos h1.le (sub_nonpos.2 hc)
      linarith
    have k2 : 0 ≤ side a b p → 0 < side c a p → False := by
      intro h1 h3
      have h2 : side b c p < 0 := by rcases h with h0 | ⟨h0, h | h | h⟩ | ⟨h0, h⟩ <;> linarith
      have e1 := mul_neg_of_neg_of_pos h2 (sub_pos.2 ha)
      have e2 := mul_nonpos_of_nonneg_of_nonpos h3.le (sub_nonpos.2 hb)
      have e3 := mul_nonpos_of_nonneg_of_nonpos h1 (sub_nonpos.2 hc)
      linarith
    rcases lt_or_ge (side a b p) 0 with h1 | h1
    · rw [decide_eq_true h1, decide_eq_true (not_le.1 fun h3 => k1 h1 h3)]; rfl
    · rw [decide_eq_false (not_lt.2 h1), decide_eq_false (fun h3 => k2 h1 h3)]; rfl

theorem right_same (a b c p : Vec K) (h : (a.y ≤ p.y ∧ b.y ≤ p.y ∧ c.y ≤ p.y) ∨ (p.y < a.y ∧ p.y < b.y ∧ p.y < c.y)) : Right a b c p := by
  have w := side_weights a b c p
  unfold Right
  rw [triangle_eq, crossing_same p a b (by tauto), crossing_same p b c (by tauto), crossing_same p c a (by tauto)]
  refine ⟨fun hin => ?_, fun _ => rfl⟩
  exfalso
  rcases h with ⟨ha, hb, hc⟩ | ⟨ha, hb, hc⟩
  · have ha := sub_nonpos.2 ha
    have hb := sub_nonpos.2 hb
    have hc := sub_nonpos.2 hc
    have key : a.y - p.y = 0 ∧ b.y - p.y = 0 ∧ c.y - p.y = 0 := by
      rcases hin with ⟨h1, h2, h3⟩ | ⟨h1, h2, h3⟩
      · have e1 := mul_nonpos_of_nonneg_of_nonpos h2.le ha
        have e2 := mul_nonpos_of_nonneg_of_nonpos h3.le hb
        have e3 := mul_nonpos_of_nonneg_of_nonpos h1.le hc
        have f1 : side b c p * (a.y - p.y) = 0 := by linarith
        have f2 : side c a p * (b.y - p.y) = 0 := by linarith
        have f3 : side a b p * (c.y - p.y) = 0 := by linarith
        exact ⟨(mul_eq_zero.1 f1).resolve_left h2.ne', (mul_eq_zero.1 f2).resolve_left h3.ne', (mul_eq_zero.1 f3).resolve_left h1.ne'⟩
      · have e1 := mul_nonneg_of_nonpos_of_nonpos h2.le ha
        have e2 := mul_nonneg_of_nonpos_of_nonpos h3.le hb
        have e3 := mul_nonneg_of_nonpos_of_nonpos h1.le hc
        have f1 : side b c p * (a.y - p.y) = 0 := by linarith
        have f2 : side c a p * (b.y - p.y) = 0 := by linarith
        have f3 : side a b p * (c.y - p.y) = 0 := by linarith
        exact ⟨(mul_eq_zero.1 f1).resolve_left h2.ne, (mul_eq_zero.1 f2).resolve_left h3.ne, (mul_eq_zero.1 f3).resolve_left h1.ne⟩
    have z : side a b p = 0 := by
      unfold side
      linear_combination -(b.x - a.x) * key.1 + (p.x - a.x) * (key.1 - key.2.1)
    rcases hin with ⟨h1, _, _⟩ | ⟨h1, _, _⟩ <;> rw [z] at h1 <;> exact lt_irrefl _ h1
  · have ha := sub_pos.2 ha
    have hb := sub_pos.2 hb
    have hc := sub_pos.2 hc
    rcases hin with ⟨h1, h2, h3⟩ | ⟨h1, h2, h3⟩
    · have := mul_pos h2 ha
      have := mul_pos h3 hb
      have := mul_pos h1 hc
      linarith
    · have := mul_neg_of_neg_of_pos h2 ha
      have := mul_neg_of_neg_of_pos h3 hb
      have := mul_neg_of_neg_of_pos h1 hc
      linarith

theorem right (a b c p : Vec K) : Right a b c p := by
  rcases le_or_gt a.y p.y with ha | ha <;> rcases le_or_gt b.y p.y with hb | hb <;> rcases le_or_gt c.y p.y with hc | hc
  · exact right_same a b c p (.inl ⟨ha, hb, hc⟩)
  · exact right_rot a b c p (right_rot b c a p (right_above c a b p hc ha hb))
  · exact right_rot a b c p (right_above b c a p hb hc ha)
  · exact right_below a b c p ha hb hc
  · exact right_above a b c p ha hb hc
  · exact right_rot a b c p (right_below b c a p hb hc ha)
  · exact right_rot a b c p (right_rot b c a p (right_below c a b p hc ha hb))
  · exact right_same a b c p (.inr ⟨ha, hb, hc⟩)

/-- A ring is in parity what the triangles of its fan are together. -/
theorem ring_fan (p o : Vec K) (l : List (Vec K)) :
    isPointInRing p (o :: l) = odd ((fan o l).map fun t => isPointInRing p [t.1, t.2.1, t.2.2]) := by
  rw [isPointInRing_cons]
  induction l with
  | nil => simp [lineParity, fan, odd, crossing_self]
  | cons a l ih =>
    cases l with
    | nil =>
      simp only [List.cons_append, List.nil_append, lineParity, fan, List.map_nil, odd, Bool.xor_false]
      rw [crossing_symm p a o, Bool.xor_self]
    | cons b rest =>
      rw [fan, List.map_cons, odd, ← ih, triangle_eq]
      simp only [List.cons_append, lineParity]
      rw [crossing_symm p b o]
      generalize geoCrossing p o a = x
      generalize geoCrossing p a b = y
      generalize geoCrossing p o b = z
      generalize lineParity p (b :: (rest ++ [o])) = u
      cases x <;> cases y <;> cases z <;> cases u <;> rfl

/-- Closing a ring does not matter. -/
theorem ring_closed (p o : Vec K) (l : List (Vec K)) : isPointInRing p (o :: (l ++ [o])) = isPointInRing p (o :: l) := by
  rw [isPointInRing_cons, isPointInRing_cons, List.append_assoc, List.singleton_append, ← List.cons_append, lineParity_snoc, crossing_self, Bool.xor_false]
  rfl

/-- The opposite point. -/
def opposite (a : Vec K) : Vec K := ⟨-a.x, -a.y⟩

theorem side_opposite (a b c : Vec K) : side (opposite a) (opposite b) (opposite c) = side a b c := by unfold side opposite; ring

/-- The test of polygons is the one of rings turned by 180 degrees. -/
theorem crossing_opposite (p i j : Vec K) : Polygon.crossing p i j = geoCrossing (opposite p) (opposite i) (opposite j) := by
  unfold Polygon.crossing geoCrossing opposite
  simp only [gt_iff_lt, neg_lt_neg_iff, ge_iff_le]
  by_cases hi : i.y < p.y <;> by_cases hj : j.y < p.y
  · simp [hi, hj]
  · have hd : 0 < j.y - i.y := by linarith
    have e : -p.x < (-j.x - -i.x) * (-p.y - -i.y) / (-j.y - -i.y) + -i.x ↔ i.x + (p.y - i.y) / (j.y - i.y) * (j.x - i.x) < p.x := by
      have : (-j.x - -i.x) * (-p.y - -i.y) / (-j.y - -i.y) + -i.x = - (i.x + (p.y - i.y) / (j.y - i.y) * (j.x - i.x)) := by
        have h1 : -j.y - -i.y ≠ 0 := by intro h; linarith
        have h2 := hd.ne'
        rw [show -j.y - -i.y = -(j.y - i.y) by ring]
        field_simp
        ring
      rw [this, neg_lt_neg_iff]
    have hj' : p.y ≤ j.y := not_lt.1 hj
    simp only [hi, hj, hj', true_and, true_or, decide_true, decide_false, bne_self_eq_false, Bool.true_and, e, false_and, or_false]
    rw [show (true != false) = true from rfl, Bool.true_and]
    by_cases hx : i.x ≤ p.x ∨ j.x ≤ p.x
    · rw [if_pos hx]
    · rw [if_neg hx]
      symm
      apply decide_eq_false
      simp only [not_or, not_le] at hx
      have t0 : 0 < (p.y - i.y) / (j.y - i.y) := div_pos (sub_pos.2 hi) hd
      have t1 : (p.y - i.y) / (j.y - i.y) ≤ 1 := by rw [div_le_one hd]; linarith
      have := mul_le_mul_of_nonneg_left hx.2.le t0.le
      have := mul_le_mul_of_nonneg_left hx.1.le (sub_nonneg.2 t1)
      rw [not_lt]
      linarith
  · have hd : 0 < i.y - j.y := by linarith
    have e : -p.x < (-j.x - -i.x) * (-p.y - -i.y) / (-j.y - -i.y) + -i.x ↔ i.x + (p.y - i.y) / (j.y - i.y) * (j.x - i.x) < p.x := by
      have : (-j.x - -i.x) * (-p.y - -i.y) / (-j.y - -i.y) + -i.x = - (i.x + (p.y - i.y) / (j.y - i.y) * (j.x - i.x)) := by
        have h1 : -j.y - -i.y ≠ 0 := by intro h; linarith
        have h2 : j.y - i.y ≠ 0 := by intro h; linarith
        rw [show -j.y - -i.y = -(j.y - i.y) by ring]
        field_simp
        ring
      rw [this, neg_lt_neg_iff]
    have hi' : p.y ≤ i.y := not_lt.1 hi
    simp only [hi, hj, hi', true_and, or_true, decide_true, decide_false, Bool.true_and, e, false_and, false_or, true_and]
    rw [show (false != true) = true from rfl, Bool.true_and]
    by_cases hx : i.x ≤ p.x ∨ j.x ≤ p.x
    · rw [if_pos (by simpa using hx)]
    · rw [if_neg (by simpa using hx)]
      symm
      apply decide_eq_false
      simp only [not_or, not_le] at hx
      have t : (p.y - i.y) / (j.y - i.y) = (i.y - p.y) / (i.y - j.y) := by
        rw [← neg_div_neg_eq]; congr 1 <;> ring
      have t0 : 0 ≤ (p.y - i.y) / (j.y - i.y) := by rw [t]; exact div_nonneg (sub_nonneg.2 hi') hd.le
      have t1 : (p.y - i.y) / (j.y - i.y) ≤ 1 := by rw [t, div_le_one hd]; linarith
      have := mul_le_mul_of_nonneg_left hx.2.le t0
      have := mul_le_mul_of_nonneg_left hx.1.le (sub_nonneg.2 t1)
      rw [not_lt]
      linarith
  · have hi' : p.y ≤ i.y := not_lt.1 hi
    simp [hi, hj]

theorem parity_opposite (p : Vec K) (l : List (Vec K)) : ∀ (j : Vec K) (c : Bool),
    geoParity (opposite p) (opposite j) (l.map opposite) c = xor c (Polygon.parity p j l) := by
  induction l with
  | nil => intro j c; simp [geoParity, Polygon.parity]
  | cons i l ih =>
    intro j c
    rw [List.map_cons, geoParity, ih, Polygon.parity, crossing_opposite]
    cases geoCrossing (opposite p) (opposite i) (opposite j) <;> cases c <;> simp

theorem polygon_opposite (p : Vec K) (l : List (Vec K)) : Polygon.isPointInPolygon p l = isPointInRing (opposite p) (l.map opposite) := by
  unfold Polygon.isPointInPolygon isPointInRing
  rw [List.getLast?_map]
  cases l.getLast? with
  | none => rfl
  | some z => simp only [Option.map_some, parity_opposite, Bool.false_xor]

theorem fan_opposite (o : Vec K) (l : List (Vec K)) : fan (opposite o) (l.map opposite) = (fan o l).map fun t => (opposite t.1, opposite t.2.1, opposite t.2.2) := by
  induction l with
  | nil => rfl
  | cons a l ih =>
    cases l with
    | nil => rfl
    | cons b l =>
      simp only [List.map_cons] at ih ⊢
      rw [fan, fan, ih, List.map_cons]

theorem odd_congr {T : Type} (l : List T) (f g : T → Bool) (h : ∀ t ∈ l, f t = g t) : odd (l.map f) = odd (l.map g) := by
  rw [List.map_congr_left h]

end GeometryProof

open GeometryProof

/-- C68: the tests for a point in a triangle give what they should for all points which are not on its border. -/
theorem C68_triangle (a b c p : Vec K) :
    (InTriangle a b c p → isPointInRing p [a, b, c] = true ∧ Polygon.isPointInPolygon p [a, b, c] = true) ∧
    (OutTriangle a b c p → isPointInRing p [a, b, c] = false ∧ Polygon.isPointInPolygon p [a, b, c] = false) := by
  have h1 := right a b c p
  have h2 := right (opposite a) (opposite b) (opposite c) (opposite p)
  unfold Right InTriangle OutTriangle at h1 h2
  simp only [side_opposite] at h2
  rw [polygon_opposite]
  exact ⟨fun h => ⟨h1.1 h, h2.1 h⟩, fun h => ⟨h1.2 h, h2.2 h⟩⟩

open Classical in
/-- C68: for any ring, a point is reported to be inside exactly if it is inside of an odd number of the triangles from the first point to the edges:
the even-odd rule. This is for points which are not on the borders of these triangles. Closing the ring by its first point does not matter. -/
theorem C68_even_odd (o p : Vec K) (l : List (Vec K)) (h : ∀ t ∈ fan o l, InTriangle t.1 t.2.1 t.2.2 p ∨ OutTriangle t.1 t.2.1 t.2.2 p) :
    isPointInRing p (o :: l) = odd ((fan o l).map fun t => decide (InTriangle t.1 t.2.1 t.2.2 p)) ∧
    isPointInRing p (o :: (l ++ [o])) = odd ((fan o l).map fun t => decide (InTriangle t.1 t.2.1 t.2.2 p)) ∧
    Polygon.isPointInPolygon p (o :: l) = odd ((fan o l).map fun t => decide (InTriangle t.1 t.2.1 t.2.2 p)) := by
  have key : ∀ a b c : Vec K, InTriangle a b c p ∨ OutTriangle a b c p →
      isPointInRing p [a, b, c] = decide (InTriangle a b c p) ∧ Polygon.isPointInPolygon p [a, b, c] = decide (InTriangle a b c p) := by
    intro a b c hc
    obtain ⟨h1, h2⟩ := C68_triangle a b c p
    rcases hc with hi | ho
    · rw [decide_eq_true hi]; exact h1 hi
    · have hn : ¬ InTriangle a b c p := by
        intro hi
        have := (h1 hi).1
        rw [(h2 ho).1] at this
        cases this
      rw [decide_eq_false hn]; exact h2 ho
  refine ⟨?_, ?_, ?_⟩
  · rw [ring_fan]
    exact odd_congr _ _ _ fun t ht => (key _ _ _ (h t ht)).1
  · rw [ring_closed, ring_fan]
    exact odd_congr _ _ _ fun t ht => (key _ _ _ (h t ht)).1
  · rw [polygon_opposite, List.map_cons, ring_fan, fan_opposite, List.map_map]
    apply odd_congr
    intro t ht
    have := (key _ _ _ (h t ht)).2
    rw [polygon_opposite] at this
    exact this

/-- C68: the point which the triangle library gets for a hole is inside of the hole; a hole is left out or stored together with such a point.
A triangle needs an area. -/
theorem C68_hole (epsilon huge tiny : K) (p p' : Polygon.Poly K) (contour : List (Vec K))
    (harea : ∀ a b c, contour = [a, b, c] → side a b c ≠ 0) (h : Polygon.addContour epsilon huge tiny p contour true = .ok p') :
    p' = p ∨ ∃ inside : Vec K, p'.holes = p.holes ++ [inside.x, inside.y] ∧ Polygon.isPointInPolygon inside contour = true := by
  have holes : ∀ (vs : List (Vec K)) (o n i : Nat) (q : Polygon.Poly K), (Polygon.addPoints o n i q vs).holes = q.holes := by
    intro vs
    induction vs with
    | nil => intros; rfl
    | cons v vs ih => intro o n i q; rw [Polygon.addPoints, ih]
  unfold Polygon.addContour at h
  split at h
  case h_2 => cases h
  simp only [if_true] at h
  cases hf : Polygon.findPointInPolygon huge tiny contour with
  | none => rw [hf] at h; cases h; exact .inl rfl
  | some inside =>
    rw [hf] at h
    simp only at h
    cases h
    refine .inr ⟨inside, holes .., ?_⟩
    unfold Polygon.findPointInPolygon at hf
    split at hf
    · rename_i a b c _ _
      cases hf
      refine ((C68_triangle a b c _).1 ?_).2
      have hs := harea a b c rfl
      have e1 : side a b ⟨(a.x + b.x + c.x) / 3, (a.y + b.y + c.y) / 3⟩ = side a b c / 3 := by unfold side; ring
      have e2 : side b c ⟨(a.x + b.x + c.x) / 3, (a.y + b.y + c.y) / 3⟩ = side a b c / 3 := by unfold side; ring
      have e3 : side c a ⟨(a.x + b.x + c.x) / 3, (a.y + b.y + c.y) / 3⟩ = side a b c / 3 := by unfold side; ring
      unfold InTriangle
      rw [e1, e2, e3]
      rcases lt_or_gt_of_ne hs with hn | hp
      · right; have : side a b c / 3 < 0 := by linarith
        exact ⟨this, this, this⟩
      · left; have : 0 < side a b c / 3 := by linarith
        exact ⟨this, this, this⟩
    · have := List.find?_some hf
      simp only [Bool.and_eq_true] at this
      exact this.2

/-- A hole of four points gets a point beside its first edge. -/
example : (Polygon.findPointInPolygon (1000 : ℚ) (1 / 1000) [⟨1, 1⟩, ⟨3, 1⟩, ⟨3, 2⟩, ⟨1, 2⟩]).map (fun q => (q.x, q.y)) = some (2, 1187 / 687) := by
  decide +kernel

/-- A point in a square with a notch, and one in the notch. -/
example : isPointInRing (K := ℚ) ⟨1, 1 / 2⟩ [⟨0, 0⟩, ⟨4, 0⟩, ⟨4, 4⟩, ⟨2, 1⟩, ⟨0, 4⟩] = true ∧
    isPointInRing (K := ℚ) ⟨2, 3⟩ [⟨0, 0⟩, ⟨4, 0⟩, ⟨4, 4⟩, ⟨2, 1⟩, ⟨0, 4⟩] = false := by decide +kernel

example : InTriangle (K := ℚ) ⟨0, 0⟩ ⟨4, 0⟩ ⟨4, 4⟩ ⟨3, 1⟩ ∧ OutTriangle (K := ℚ) ⟨0, 0⟩ ⟨4, 4⟩ ⟨2, 1⟩ ⟨3, 1⟩ ∧ OutTriangle (K := ℚ) ⟨0, 0⟩ ⟨2, 1⟩ ⟨0, 4⟩ ⟨3, 1⟩ := by
  unfold InTriangle OutTriangle side; norm_num

/-- The border belongs to the polygon on some sides only: of two opposite sides of a square one is inside. -/
example : isPointInRing (K := ℚ) ⟨0, 1⟩ [⟨0, 0⟩, ⟨2, 0⟩, ⟨2, 2⟩, ⟨0, 2⟩] = true ∧ isPointInRing (K := ℚ) ⟨2, 1⟩ [⟨0, 0⟩, ⟨2, 0⟩, ⟨2, 2⟩, ⟨0, 2⟩] = false := by
  decide +kernel

open Classical in
/-- C68: a closed ring contains another one exactly if every point of the other one is inside of an odd number of the triangles from its first point
to its edges. This is for points which are not on the borders of these triangles. -/
theorem C68_contains (o : Vec K) (l other : List (Vec K))
    (h : ∀ c ∈ other, ∀ t ∈ fan o l, InTriangle t.1 t.2.1 t.2.2 c ∨ OutTriangle t.1 t.2.1 t.2.2 c) :
    Geometry.containsRing (o :: (l ++ [o])) other = true ↔
      ∀ c ∈ other, odd ((fan o l).map fun t => decide (InTriangle t.1 t.2.1 t.2.2 c)) = true := by
  unfold Geometry.containsRing
  rw [List.all_eq_true]
  constructor
  · intro hc c hm
    rw [← (C68_even_odd o c l (h c hm)).2.1]
    exact hc c hm
  · intro hc c hm
    rw [(C68_even_odd o c l (h c hm)).2.1]
    exact hc c hm

/-- A triangle with one corner outside is not contained, one with all corners inside is. -/
example : Geometry.containsRing [(⟨0, 0⟩ : Vec ℚ), ⟨10, 0⟩, ⟨0, 10⟩, ⟨0, 0⟩] [⟨1, 2⟩, ⟨2, 1⟩, ⟨3, 3⟩] = true ∧
    Geometry.containsRing [(⟨0, 0⟩ : Vec ℚ), ⟨10, 0⟩, ⟨0, 10⟩, ⟨0, 0⟩] [⟨1, 2⟩, ⟨2, 1⟩, ⟨13, 3⟩] = false := by decide +kernel

end Verif.Props
