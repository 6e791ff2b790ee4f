import Verif.Props.BboxSpec
import Mathlib.Tactic.Linarith
import Mathlib.Tactic.NormNum
import Mathlib.Data.Rat.Defs
import Mathlib.Algebra.Order.Ring.Rat
import Mathlib.Algebra.Field.Rat

namespace Verif.Props
open Verif.BboxSpec
open Bbox
variable {α : Type} [Field α] [LinearOrder α]

theorem expandAll_fields (b : Bbox α) (ps : List (Geo α)) :
    expandAll b ps = ⟨⟨(ps.map Geo.lat).foldl min b.lo.lat, (ps.map Geo.lon).foldl min b.lo.lon⟩,
      ⟨(ps.map Geo.lat).foldl max b.hi.lat, (ps.map Geo.lon).foldl max b.hi.lon⟩⟩ := by
  induction ps generalizing b with
  | nil => rfl
  | cons p ps ih => simp [expandAll, ih, expand]

theorem expandAll_in (b : Bbox α) (ps : List (Geo α)) :
    (∀ p, In b p → In (expandAll b ps) p) ∧ ∀ p ∈ ps, In (expandAll b ps) p := by
  induction ps generalizing b with
  | nil => simp [expandAll]
  | cons c ps ih =>
    refine ⟨fun p hp => (ih _).1 p ?_, fun p hp => ?_⟩
    · obtain ⟨h1, h2, h3, h4⟩ := hp
      exact ⟨(min_le_left _ _).trans h1, h2.trans (le_max_left _ _), (min_le_left _ _).trans h3,
        h4.trans (le_max_left _ _)⟩
    · rcases List.mem_cons.1 hp with rfl | hp
      · exact (ih _).1 _ ⟨min_le_right _ _, le_max_right _ _, min_le_right _ _, le_max_right _ _⟩
      · exact (ih _).2 p hp

/-- What the corners of the expanded box are bounded by. -/
theorem expandAll_least (b b' : Bbox α) (ps : List (Geo α)) (h : ∀ p ∈ ps, In b' p)
    (h1 : b'.lo.lat ≤ b.lo.lat) (h2 : b.hi.lat ≤ b'.hi.lat) (h3 : b'.lo.lon ≤ b.lo.lon)
    (h4 : b.hi.lon ≤ b'.hi.lon) :
    b'.lo.lat ≤ (expandAll b ps).lo.lat ∧ (expandAll b ps).hi.lat ≤ b'.hi.lat ∧
    b'.lo.lon ≤ (expandAll b ps).lo.lon ∧ (expandAll b ps).hi.lon ≤ b'.hi.lon := by
  induction ps generalizing b with
  | nil => exact ⟨h1, h2, h3, h4⟩
  | cons c ps ih =>
    obtain ⟨g1, g2, g3, g4⟩ := h c (by simp)
    exact ih _ (fun p hp => h p (by simp [hp])) (le_min h1 g1) (max_le h2 g2) (le_min h3 g3) (max_le h4 g4)

/-- C14: expanding the default (empty) box by coordinates on the globe gives the smallest box that
covers them; for a non-empty list that box is valid. -/
theorem C14_expand_is_smallest_cover [IsStrictOrderedRing α] (ps : List (Geo α)) (hp : ∀ p ∈ ps, OnGlobe p)
    (hne : ps ≠ []) :
    SmallestCover (expandAll Bbox.empty ps) ps ∧ (expandAll (Bbox.empty : Bbox α) ps).isValid = true := by
  refine ⟨⟨(expandAll_in _ _).2, ?_⟩, ?_⟩
  · intro b' h p hin
    obtain ⟨c, cs, rfl⟩ := List.exists_cons_of_ne_nil hne
    obtain ⟨g1, g2, g3, g4⟩ := h c (by simp)
    obtain ⟨k1, k2, k3, k4⟩ := hp c (by simp)
    have e : expand (Bbox.empty : Bbox α) c = ⟨c, c⟩ := by
      simp only [expand, Bbox.empty, min_eq_right k2, min_eq_right k4, max_eq_right k1, max_eq_right k3]
    have := expandAll_least (⟨c, c⟩ : Bbox α) b' cs (fun p hp => h p (by simp [hp])) g1 g2 g3 g4
    rw [expandAll, e] at hin
    obtain ⟨m1, m2, m3, m4⟩ := hin
    exact ⟨this.1.trans m1, m2.trans this.2.1, this.2.2.1.trans m3, m4.trans this.2.2.2⟩
  · obtain ⟨c, cs, rfl⟩ := List.exists_cons_of_ne_nil hne
    obtain ⟨g1, g2, g3, g4⟩ := (expandAll_in (Bbox.empty : Bbox α) (c :: cs)).2 c (by simp)
    simp only [isValid, Bool.and_eq_true, decide_eq_true_eq]
    exact ⟨g1.trans g2, g3.trans g4⟩

/-- The default box itself covers nothing and is invalid. -/
theorem C14_empty_box [IsStrictOrderedRing α] :
    (Bbox.empty : Bbox α).isValid = false ∧ ∀ p : Geo α, ¬ In Bbox.empty p := by
  have h : (-90 : α) < 90 := by linarith [show (0 : α) < 90 by norm_num]
  refine ⟨by simp [isValid, Bbox.empty, h], ?_⟩
  rintro p ⟨h1, h2, -, -⟩
  simp only [Bbox.empty] at h1 h2
  exact absurd (h1.trans h2) (not_le.2 h)

/-- Coordinates beyond the globe are covered, but not tightly: the box of one point at longitude 200
starts at longitude 180. -/
theorem C14_violated_out_of_range :
    expandAll (Bbox.empty : Bbox ℚ) [⟨0, 200⟩] = ⟨⟨0, 180⟩, ⟨0, 200⟩⟩ := by decide +kernel

/-- C14: the order of the coordinates does not matter. -/
theorem C14_expand_order_independent (b : Bbox α) (ps qs : List (Geo α)) (h : ps.Perm qs) :
    expandAll b ps = expandAll b qs := by
  induction h generalizing b with
  | nil => rfl
  | cons c _ ih => exact ih _
  | swap c d l =>
    simp only [expandAll]
    congr 1
    simp only [expand, min_assoc, max_assoc, min_comm d.lat c.lat, min_comm d.lon c.lon,
      max_comm d.lat c.lat, max_comm d.lon c.lon]
  | trans _ _ h1 h2 => exact (h1 b).trans (h2 b)

/-- C14: expanding by a box is expanding by its two corners, for valid boxes. -/
theorem C14_expand_box (b r : Bbox α) (h : r.isValid = true) :
    expandBox b r = expandAll b [r.lo, r.hi] := by
  simp only [isValid, Bool.and_eq_true, decide_eq_true_eq] at h
  simp only [expandBox, expandAll, expand, min_assoc, max_assoc, min_eq_left h.1, min_eq_left h.2,
    max_eq_right h.1, max_eq_right h.2]

/-- C14: `intersects` is symmetric, and for valid boxes it means sharing a point. -/
theorem C14_intersects (a b : Bbox α) :
    a.intersects b = b.intersects a ∧
    (a.isValid = true → b.isValid = true → (a.intersects b = true ↔ ∃ p, In a p ∧ In b p)) := by
  constructor
  · simp only [intersects, max_comm b.lo.lat, max_comm b.lo.lon, min_comm b.hi.lat, min_comm b.hi.lon]
  · intro ha hb
    simp only [isValid, Bool.and_eq_true, decide_eq_true_eq] at ha hb
    simp only [intersects, Bool.and_eq_true, decide_eq_true_eq, le_min_iff, max_le_iff]
    constructor
    · rintro ⟨⟨⟨h1, h2⟩, h3, h4⟩, ⟨h5, h6⟩, h7, h8⟩
      refine ⟨⟨max a.lo.lat b.lo.lat, max a.lo.lon b.lo.lon⟩, ?_, ?_⟩
      · exact ⟨le_max_left _ _, max_le ha.1 h3, le_max_left _ _, max_le ha.2 h7⟩
      · exact ⟨le_max_right _ _, max_le h2 hb.1, le_max_right _ _, max_le h6 hb.2⟩
    · rintro ⟨p, ⟨a1, a2, a3, a4⟩, b1, b2, b3, b4⟩
      exact ⟨⟨⟨hb.1, a1.trans b2⟩, b1.trans a2, ha.1⟩, ⟨hb.2, a3.trans b4⟩, b3.trans a4, ha.2⟩

/-- C14: `contains` for points is being strictly inside; for a valid box it is every point of the box
being strictly inside; and it is monotone under expansion by coordinates or boxes. -/
theorem C14_contains (b r : Bbox α) (p c : Geo α) (cs : List (Geo α)) :
    (b.containsPoint p = true ↔ Inside b p) ∧
    (r.isValid = true → (b.containsBox r = true ↔ ∀ p, In r p → Inside b p)) ∧
    (b.containsPoint p = true → (b.expandBox r).containsPoint p = true) ∧
    (b.containsPoint p = true → (b.expandAll cs).containsPoint p = true) := by
  have hp : ∀ (b : Bbox α) (p : Geo α), b.containsPoint p = true ↔ Inside b p := by
    intro b p
    simp only [containsPoint, Bool.and_eq_true, decide_eq_true_eq, Inside, gt_iff_lt]
    tauto
  refine ⟨hp b p, ?_, ?_, ?_⟩
  · intro hr
    simp only [isValid, Bool.and_eq_true, decide_eq_true_eq] at hr
    simp only [containsBox, Bool.and_eq_true, hp]
    constructor
    · rintro ⟨⟨a1, a2, a3, a4⟩, b1, b2, b3, b4⟩ p ⟨p1, p2, p3, p4⟩
      exact ⟨a1.trans_le p1, p2.trans_lt b2, a3.trans_le p3, p4.trans_lt b4⟩
    · intro h
      exact ⟨h _ ⟨le_rfl, hr.1, le_rfl, hr.2⟩, h _ ⟨hr.1, le_rfl, hr.2, le_rfl⟩⟩
  · simp only [hp]
    rintro ⟨h1, h2, h3, h4⟩
    exact ⟨(min_le_left _ _).trans_lt h1, h2.trans_le (le_max_left _ _), (min_le_left _ _).trans_lt h3,
      h4.trans_le (le_max_left _ _)⟩
  · simp only [hp]
    induction cs generalizing b with
    | nil => exact id
    | cons d ds ih =>
      rintro ⟨h1, h2, h3, h4⟩
      exact ih _ ⟨(min_le_left _ _).trans_lt h1, h2.trans_le (le_max_left _ _),
        (min_le_left _ _).trans_lt h3, h4.trans_le (le_max_left _ _)⟩

/-- C14: the center of a valid box lies in it, at the same distance from both sides. -/
theorem C14_center [IsStrictOrderedRing α] (b : Bbox α) (h : b.isValid = true) :
    In b b.center ∧ b.center.lat - b.lo.lat = b.hi.lat - b.center.lat ∧
    b.center.lon - b.lo.lon = b.hi.lon - b.center.lon := by
  simp only [isValid, Bool.and_eq_true, decide_eq_true_eq] at h
  simp only [In, center]
  refine ⟨⟨?_, ?_, ?_, ?_⟩, ?_, ?_⟩ <;> linarith

example : (∀ p ∈ [(⟨52, 13⟩ : Geo ℚ), ⟨51, 14⟩], OnGlobe p) ∧
    expandAll (Bbox.empty : Bbox ℚ) [⟨52, 13⟩, ⟨51, 14⟩] = ⟨⟨51, 13⟩, ⟨52, 14⟩⟩ := by
  constructor
  · intro p hp
    simp only [List.mem_cons, List.not_mem_nil, or_false] at hp
    rcases hp with rfl | rfl <;> (unfold OnGlobe; norm_num)
  · decide +kernel
example : (⟨⟨0, 0⟩, ⟨1, 1⟩⟩ : Bbox ℚ).intersects ⟨⟨1, 1⟩, ⟨2, 2⟩⟩ = true ∧
    (⟨⟨0, 0⟩, ⟨1, 1⟩⟩ : Bbox ℚ).intersects ⟨⟨2, 0⟩, ⟨3, 2⟩⟩ = false := by decide +kernel

end Verif.Props
