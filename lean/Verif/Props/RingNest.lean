import Verif.Model.RingContains
import Verif.Props.Multipolygon
import Mathlib.Algebra.Order.Field.Basic
import Mathlib.Tactic.Linarith
import Mathlib.Tactic.FieldSimp

/-! # C36 continued: with the test for rings which the code uses an outer ring is always found -/
namespace Verif.Props
open Verif.Multipolygon Verif.MultipolygonSpec
open Verif.Polygon (Vec)

namespace RingNestProof
variable {K : Type} [Field K] [LinearOrder K] [IsStrictOrderedRing K]

/-- A ray to the east meets an edge not farther east than one of its ends. -/
theorem crossing_left {p i j : Vec K} (h : Geometry.geoCrossing p i j = true) : p.x < i.x ∨ p.x < j.x := by
  simp only [Geometry.geoCrossing, Bool.and_eq_true, bne_iff_ne, ne_eq, decide_eq_decide, decide_eq_true_eq] at h
  obtain ⟨h1, h2⟩ := h
  by_contra hc
  push Not at hc
  obtain ⟨c1, c2⟩ := hc
  have hle : (j.x - i.x) * (p.y - i.y) / (j.y - i.y) ≤ p.x - i.x := by
    by_cases hi : i.y > p.y
    · have hj : ¬ j.y > p.y := fun hj => h1 ⟨fun _ => hj, fun _ => hi⟩
      push Not at hj
      rw [div_le_iff_of_neg (by linarith)]
      nlinarith [mul_nonneg (sub_nonneg.2 c1) (sub_nonneg.2 hj), mul_nonneg (sub_nonneg.2 c2) (sub_nonneg.2 hi.le), mul_nonneg (sub_nonneg.2 c1) (sub_nonneg.2 hi.le)]
    · have hj : j.y > p.y := by
        by_contra hj
        exact h1 ⟨fun h => absurd h hi, fun h => absurd h hj⟩
      push Not at hi
      rw [div_le_iff₀ (by linarith)]
      nlinarith [mul_nonneg (sub_nonneg.2 c1) (sub_nonneg.2 hj.le), mul_nonneg (sub_nonneg.2 c2) (sub_nonneg.2 hi), mul_nonneg (sub_nonneg.2 c1) (sub_nonneg.2 hi)]
  linarith

theorem parity_left {p : Vec K} : ∀ (ring : List (Vec K)) (j : Vec K) (c : Bool), Geometry.geoParity p j ring c = true → c = true ∨ p.x < j.x ∨ ∃ v ∈ ring, p.x < v.x
  | [], _, c, h => .inl h
  | i :: rest, j, c, h => by
    rw [Geometry.geoParity] at h
    rcases parity_left rest i _ h with h | h | ⟨v, hv, h⟩
    · split at h
      · rename_i hc
        rcases crossing_left hc with h | h
        · exact .inr (.inr ⟨i, List.mem_cons_self, h⟩)
        · exact .inr (.inl h)
      · exact .inl h
    · exact .inr (.inr ⟨i, List.mem_cons_self, h⟩)
    · exact .inr (.inr ⟨v, List.mem_cons_of_mem _ hv, h⟩)

theorem inside_left {p : Vec K} {ring : List (Vec K)} (h : Geometry.isPointInRing p ring = true) : ∃ v ∈ ring, p.x < v.x := by
  unfold Geometry.isPointInRing at h
  split at h
  · cases h
  · rename_i last hl
    rcases parity_left _ _ _ h with h | h | h
    · cases h
    · exact ⟨last, List.mem_of_getLast? hl, h⟩
    · exact h

/-- Every point of a contained ring has a point of the outer ring east of it. -/
theorem contains_left {a b : List (Geo K)} (h : RingContains.contains a b = true) : ∀ p ∈ b, ∃ v ∈ a, p.lon < v.lon := by
  intro p hp
  unfold RingContains.contains Geometry.containsRing at h
  obtain ⟨v, hv, hlt⟩ := inside_left (List.all_eq_true.1 h _ (List.mem_map.2 ⟨p, hp, rfl⟩))
  obtain ⟨g, hg, rfl⟩ := List.mem_map.1 hv
  exact ⟨g, hg, hlt⟩

theorem ringLoop_closed {C : Type} (eq : C → C → Bool) : ∀ n (ss closed : List (Seq C)) (cur : Option (Seq C)), (∀ r ∈ closed, isClosed eq r = true) →
    ∀ r ∈ ringLoop eq n ss closed cur, isClosed eq r = true := by
  have hclose : ∀ (ring : Seq C) closed, (∀ r ∈ closed, isClosed eq r = true) → ∀ r ∈ (closeRing eq ring closed).1, isClosed eq r = true := by
    intro ring closed h r hr
    unfold closeRing at hr
    split at hr
    · rename_i hc
      rcases List.mem_append.1 hr with hr | hr
      · exact h r hr
      · rw [List.mem_singleton.1 hr]
        exact hc
    · exact h r hr
  intro n
  induction n with
  | zero =>
    intro ss closed cur h r hr
    exact h r hr
  | succ n ih =>
    intro ss closed cur h r hr
    unfold ringLoop at hr
    split at hr
    · split at hr
      · exact h r hr
      · exact ih _ _ _ (hclose _ _ h) r hr
    · split at hr
      · exact h r hr
      · split at hr
        · cases hr
        · exact ih _ _ _ (hclose _ _ h) r hr

omit [Field K] [IsStrictOrderedRing K] in
/-- The ring which reaches farthest east. -/
theorem farthest : ∀ (rings : List (Seq (Geo K))), rings ≠ [] → (∀ r ∈ rings, r.coordinates ≠ []) →
    ∃ c ∈ rings, ∃ p ∈ c.coordinates, ∀ x ∈ rings, ∀ v ∈ x.coordinates, v.lon ≤ p.lon := by
  have hmax : ∀ l : List (Geo K), l ≠ [] → ∃ p ∈ l, ∀ v ∈ l, v.lon ≤ p.lon := by
    intro l hl
    induction l with
    | nil => exact absurd rfl hl
    | cons a l ih =>
      by_cases h0 : l = []
      · subst h0
        exact ⟨a, by simp, by simp⟩
      · obtain ⟨p, hp, hm⟩ := ih h0
        rcases le_total p.lon a.lon with h | h
        · exact ⟨a, by simp, fun v hv => by
            rcases List.mem_cons.1 hv with rfl | hv
            · exact le_refl _
            · exact (hm v hv).trans h⟩
        · exact ⟨p, List.mem_cons_of_mem _ hp, fun v hv => by
            rcases List.mem_cons.1 hv with rfl | hv
            · exact h
            · exact hm v hv⟩
  intro rings h0 hne
  have hall : rings.flatMap (·.coordinates) ≠ [] := by
    obtain ⟨r, hr⟩ := List.exists_mem_of_ne_nil _ h0
    obtain ⟨p, hp⟩ := List.exists_mem_of_ne_nil _ (hne r hr)
    exact List.ne_nil_of_mem (List.mem_flatMap.2 ⟨r, hr, hp⟩)
  obtain ⟨p, hp, hm⟩ := hmax _ hall
  obtain ⟨c, hc, hpc⟩ := List.mem_flatMap.1 hp
  exact ⟨c, hc, p, hpc, fun x hx v hv => hm v (List.mem_flatMap.2 ⟨x, hx, hv⟩)⟩

theorem fillLoop_ok (eq : Geo K → Geo K → Bool) (cw : List (Geo K) → Bool) : ∀ n (rings : List (Seq (Geo K))), rings.length ≤ n → (∀ r ∈ rings, r.coordinates ≠ []) →
    ∃ areas, fillLoop eq cw RingContains.contains n rings = .ok areas := by
  intro n
  induction n with
  | zero =>
    intro rings h _
    have : rings = [] := List.length_eq_zero_iff.1 (by omega)
    subst this
    exact ⟨[], rfl⟩
  | succ n ih =>
    intro rings h hne
    cases rings with
    | nil => exact ⟨[], rfl⟩
    | cons r rings =>
      obtain ⟨c, hc, p, hp, hm⟩ := farthest (r :: rings) (by simp) hne
      obtain ⟨⟨outer, rest⟩, ho⟩ := MultipolygonProof.findOuter_exists RingContains.contains (r :: rings) [] ⟨c, hc, fun x hx => by
        cases hcon : RingContains.contains x.coordinates c.coordinates with
        | false => rfl
        | true =>
          obtain ⟨v, hv, hlt⟩ := contains_left hcon p hp
          exact absurd (hm x (by simpa using hx) v hv) (not_le.2 hlt)⟩
      have hperm := (MultipolygonProof.findOuter_spec RingContains.contains _ _ _ _ ho).1
      have hperm2 := (MultipolygonProof.findInners_spec RingContains.contains outer rest []).1
      have hlen := hperm.length_eq
      have hlen2 := hperm2.length_eq
      simp at hlen hlen2 h
      obtain ⟨as, has⟩ := ih (findInners RingContains.contains outer [] rest).2 (by omega) (fun x hx => by
        refine hne x (hperm.subset (List.mem_cons_of_mem _ ?_))
        exact hperm2.subset (List.mem_append_right _ hx))
      unfold fillLoop
      simp only [ho, has, Outcome.bind]
      exact ⟨_, rfl⟩

theorem collect_ok {C : Type} : ∀ ms : List (Member C), (∀ m ∈ ms, m.found ≠ .area []) → ∃ r, collect ms = .ok r
  | [], _ => ⟨_, rfl⟩
  | m :: ms, h => by
    obtain ⟨r, hr⟩ := collect_ok ms fun x hx => h x (List.mem_cons_of_mem _ hx)
    have hm := h m List.mem_cons_self
    unfold collect
    cases hf : m.found with
    | area cs =>
      cases cs with
      | nil => exact absurd hf hm
      | cons c cs => exact by simp only [memberCoordinates, Outcome.bind, hr]; exact ⟨_, rfl⟩
    | _ => exact by simp only [memberCoordinates, Outcome.bind, hr]; exact ⟨_, rfl⟩

end RingNestProof
open RingNestProof

section
variable {K : Type} [Field K] [LinearOrder K] [IsStrictOrderedRing K]

/-- C36: a ring which contains another one reaches farther east than it, so two rings never contain each other, and no ring contains itself. -/
theorem C36_contains_east {a b : List (Geo K)} (h : RingContains.contains a b = true) (hb : b ≠ []) :
    (∃ v ∈ a, ∀ p ∈ b, p.lon < v.lon) ∧ RingContains.contains b a = false := by
  have hl := contains_left h
  have hstrict : ∃ v ∈ a, ∀ p ∈ b, p.lon < v.lon := by
    have hmax : ∃ p ∈ b, ∀ v ∈ b, v.lon ≤ p.lon := by
      obtain ⟨c, hc, p, hp, hm⟩ := farthest [(⟨0, b⟩ : Seq (Geo K))] (by simp) (by simpa using hb)
      rw [List.mem_singleton.1 hc] at hp
      exact ⟨p, hp, hm _ (List.mem_singleton.2 rfl)⟩
    obtain ⟨p, hp, hm⟩ := hmax
    obtain ⟨v, hv, hlt⟩ := hl p hp
    exact ⟨v, hv, fun q hq => (hm q hq).trans_lt hlt⟩
  refine ⟨hstrict, ?_⟩
  cases hba : RingContains.contains b a with
  | false => rfl
  | true =>
    obtain ⟨v, hv, hlt⟩ := hstrict
    obtain ⟨w, hw, hlt'⟩ := contains_left hba v hv
    exact absurd (hlt w hw) (not_lt.2 hlt'.le)

/-- C36: with the test which the code uses, in exact arithmetic, the areas of every multipolygon whose member areas have points are assembled; the null pointer of
`C36_violated_mutual` is never used. -/
theorem C36_assembled (eq : Geo K → Geo K → Bool) (cw : List (Geo K) → Bool) (ms : List (Member (Geo K))) (h : ∀ m ∈ ms, m.found ≠ .area []) :
    ∃ areas, process eq cw RingContains.contains ms = .ok areas := by
  have hcomplex : ∀ seqs, ∃ areas, complexCase eq cw RingContains.contains seqs = .ok areas := by
    intro seqs
    refine fillLoop_ok eq cw _ _ (Nat.le_refl _) (fun r hr h0 => ?_)
    have := ringLoop_closed eq _ _ [] none (by simp) r hr
    simp [isClosed, h0] at this
  obtain ⟨r, hr⟩ := collect_ok ms h
  unfold process
  rw [hr]
  simp only [Outcome.bind]
  split
  · exact ⟨_, rfl⟩
  · split
    · split
      · exact ⟨_, rfl⟩
      · exact hcomplex _
    · exact hcomplex _

end

/-- A square in a larger one, and a multipolygon of two outer squares of which one lies in the other. -/
example : RingContains.contains (K := ℚ) [⟨0, 0⟩, ⟨0, 9⟩, ⟨9, 9⟩, ⟨9, 0⟩, ⟨0, 0⟩] [⟨1, 1⟩, ⟨1, 2⟩, ⟨2, 2⟩, ⟨1, 1⟩] = true ∧
    (process (C := Geo ℚ) (fun a b => a == b) Osm.isClockwise RingContains.contains
      [⟨1, "outer", .area [⟨0, 0⟩, ⟨0, 9⟩, ⟨9, 9⟩, ⟨9, 0⟩]⟩, ⟨2, "outer", .area [⟨1, 1⟩, ⟨1, 2⟩, ⟨2, 2⟩]⟩]) =
      .ok [⟨some 1, [⟨0, 0⟩, ⟨0, 9⟩, ⟨9, 9⟩, ⟨9, 0⟩]⟩, ⟨none, [⟨2, 2⟩, ⟨1, 2⟩, ⟨1, 1⟩]⟩] := by decide +kernel

end Verif.Props
