import Mathlib.Tactic.Ring
import Mathlib.Tactic.Linarith
import Mathlib.Tactic.NormNum
import Mathlib.Tactic.FieldSimp
import Mathlib.Tactic.LinearCombination
import Mathlib.Data.Rat.Floor
import Verif.Props.LineGridSpec

/-! # C42: splitting lines by the grid of the terrain -/
namespace Verif.Props
open Verif.LineGrid Verif.LineGridSpec
open Verif.Polygon (Vec)

namespace LineGridProof
variable {K : Type} [Field K] [LinearOrder K] [IsStrictOrderedRing K]

/-- The part of the merge which comes after the point `last`. -/
def mergeTail (epsilon : K) (last : Vec K) : List (Vec K) → List (Vec K)
  | [] => []
  | c :: rest => if |last.x - c.x| < epsilon ∧ |last.y - c.y| < epsilon then mergeTail epsilon last rest else c :: mergeTail epsilon c rest

omit [IsStrictOrderedRing K] in
theorem merge_eq (epsilon : K) (l r0 : List (Vec K)) (last : Vec K) :
    mergeResults epsilon l (r0 ++ [last]) = r0 ++ last :: mergeTail epsilon last l := by
  induction l generalizing r0 last with
  | nil => simp [mergeResults, mergeTail]
  | cons c rest ih =>
    unfold mergeResults mergeTail
    have hl : (r0 ++ [last]).getLast? = some last := by simp
    rw [hl]
    simp only
    split
    · exact ih r0 last
    · rw [ih (r0 ++ [last]) c]; simp

omit [IsStrictOrderedRing K] in
theorem mergeTail_mem (epsilon : K) (last : Vec K) (l : List (Vec K)) : ∀ p ∈ mergeTail epsilon last l, p ∈ l := by
  induction l generalizing last with
  | nil => simp [mergeTail]
  | cons c rest ih =>
    intro p hp
    unfold mergeTail at hp
    split at hp
    · exact List.mem_cons_of_mem _ (ih last p hp)
    · rcases List.mem_cons.1 hp with rfl | hp
      · simp
      · exact List.mem_cons_of_mem _ (ih c p hp)

omit [IsStrictOrderedRing K] in
theorem mergeTail_consecutive (epsilon : K) (last : Vec K) (l : List (Vec K)) (p q : Vec K)
    (h : Consecutive (last :: mergeTail epsilon last l) p q) :
    (∃ before mid after, last :: l = before ++ p :: (mid ++ q :: after) ∧ ∀ m ∈ mid, |p.x - m.x| < epsilon ∧ |p.y - m.y| < epsilon) ∧
    ¬ (|p.x - q.x| < epsilon ∧ |p.y - q.y| < epsilon) := by
  induction l generalizing last p q with
  | nil =>
    obtain ⟨before, after, h⟩ := h
    have := congrArg List.length h
    simp [mergeTail] at this
    omega
  | cons c rest ih =>
    unfold mergeTail at h
    by_cases hn : |last.x - c.x| < epsilon ∧ |last.y - c.y| < epsilon
    · rw [if_pos hn] at h
      obtain ⟨⟨before, mid, after, h1, h2⟩, h3⟩ := ih last p q h
      refine ⟨?_, h3⟩
      cases before with
      | nil =>
        simp only [List.nil_append, List.cons.injEq] at h1
        obtain ⟨rfl, rfl⟩ := h1
        refine ⟨[], c :: mid, after, by simp, ?_⟩
        intro m hm
        rcases List.mem_cons.1 hm with rfl | hm
        · exact hn
        · exact h2 m hm
      | cons b before =>
        simp only [List.cons_append, List.cons.injEq] at h1
        obtain ⟨rfl, rfl⟩ := h1
        exact ⟨last :: c :: before, mid, after, by simp, h2⟩
    · rw [if_neg hn] at h
      obtain ⟨before, after, h⟩ := h
      cases before with
      | nil =>
        simp only [List.nil_append, List.cons.injEq] at h
        obtain ⟨rfl, rfl, rfl⟩ := h
        exact ⟨⟨[], [], rest, by simp, by simp⟩, hn⟩
      | cons b before =>
        simp only [List.cons_append, List.cons.injEq] at h
        obtain ⟨rfl, h⟩ := h
        obtain ⟨⟨before', mid, after', h1, h2⟩, h3⟩ := ih c p q ⟨before, after, h⟩
        exact ⟨⟨last :: before', mid, after', by rw [h1]; rfl, h2⟩, h3⟩

theorem mergeTail_last (epsilon : K) (heps : 0 < epsilon) (last : Vec K) (l : List (Vec K)) (e : Vec K) :
    ∃ p, (last :: mergeTail epsilon last (l ++ [e])).getLast? = some p ∧ |p.x - e.x| < epsilon ∧ |p.y - e.y| < epsilon := by
  induction l generalizing last with
  | nil =>
    simp only [List.nil_append, mergeTail]
    split
    · rename_i h; exact ⟨last, rfl, h⟩
    · exact ⟨e, rfl, by simpa using heps, by simpa using heps⟩
  | cons c rest ih =>
    simp only [List.cons_append]
    unfold mergeTail
    split
    · exact ih last
    · obtain ⟨p, h1, h2⟩ := ih c
      exact ⟨p, by rw [List.getLast?_cons_cons]; exact h1, h2⟩

/-- The parameter of a grid line between two points. -/
theorem crossing (a d t u g : K) (htu : t < u) (hb : Between g (a + t * d) (a + u * d)) : d ≠ 0 ∧ ∃ w, t < w ∧ w < u ∧ a + w * d = g := by
  rcases hb with ⟨h1, h2⟩ | ⟨h1, h2⟩
  · have hd : 0 < d := by
      by_contra hc
      have : d ≤ 0 := not_lt.1 hc
      nlinarith
    refine ⟨hd.ne', (g - a) / d, ?_, ?_, ?_⟩
    · rw [lt_div_iff₀ hd]; linarith
    · rw [div_lt_iff₀ hd]; linarith
    · rw [div_mul_cancel₀ _ hd.ne']; ring
  · have hd : d < 0 := by
      by_contra hc
      have : 0 ≤ d := not_lt.1 hc
      nlinarith
    refine ⟨hd.ne, (g - a) / d, ?_, ?_, ?_⟩
    · rw [lt_div_iff_of_neg hd]; linarith
    · rw [div_lt_iff_of_neg hd]; linarith
    · rw [div_mul_cancel₀ _ hd.ne]; ring

/-- The general argument: the points of a list which is sorted along the segment and contains all crossings with the grid. -/
theorem splits_of_sorted (epsilon step : K) (heps : 0 < epsilon) (s e : Vec K) (key : Vec K → K) (c D : K) (hD : 0 < D)
    (hkey : ∀ t, key (along s e t) = c + t * D) (l : List (Vec K)) (hsorted : (s :: l).Pairwise fun a b => key a ≤ key b)
    (hseg : ∀ p ∈ s :: l, ∃ t, 0 ≤ t ∧ t ≤ 1 ∧ p = along s e t)
    (hx : ∀ (t : K) (k : Int), 0 < t → t < 1 → e.x ≠ s.x → (along s e t).x = (k : K) * step → along s e t ∈ s :: l)
    (hy : ∀ (t : K) (k : Int), 0 < t → t < 1 → e.y ≠ s.y → (along s e t).y = (k : K) * step → along s e t ∈ s :: l) :
    Splits epsilon step s e (mergeResults epsilon (s :: l ++ [e]) []) := by
  have heq : mergeResults epsilon (s :: l ++ [e]) [] = s :: mergeTail epsilon s (l ++ [e]) := by
    have := merge_eq epsilon (l ++ [e]) [] s
    rw [List.nil_append, List.nil_append] at this
    rw [← this, List.cons_append]
    conv_lhs => unfold mergeResults
    rfl
  rw [heq]
  have hend : e = along s e 1 := by unfold along; cases e; simp
  have hseg' : ∀ p ∈ s :: (l ++ [e]), ∃ t, 0 ≤ t ∧ t ≤ 1 ∧ p = along s e t := by
    intro p hp
    rw [← List.cons_append] at hp
    rcases List.mem_append.1 hp with hp | hp
    · exact hseg p hp
    · rw [List.mem_singleton.1 hp]; exact ⟨1, zero_le_one, le_refl _, hend⟩
  have hsorted' : (s :: (l ++ [e])).Pairwise fun a b => key a ≤ key b := by
    rw [← List.cons_append, List.pairwise_append]
    refine ⟨hsorted, by simp, ?_⟩
    intro a ha b hb
    obtain ⟨t, h0, h1, rfl⟩ := hseg a ha
    rw [List.mem_singleton.1 hb]
    have : key e = c + 1 * D := by conv_lhs => rw [hend]
                                   exact hkey 1
    rw [this, hkey]
    nlinarith
  -- neighbours after merging
  have nb : ∀ p q, Consecutive (s :: mergeTail epsilon s (l ++ [e])) p q → ∃ t u, 0 ≤ t ∧ t < u ∧ u ≤ 1 ∧ p = along s e t ∧ q = along s e u ∧
      ∀ r ∈ s :: (l ++ [e]), key p < key r → key r < key q → |p.x - r.x| < epsilon ∧ |p.y - r.y| < epsilon := by
    intro p q hc
    obtain ⟨⟨before, mid, after, h1, h2⟩, h3⟩ := mergeTail_consecutive epsilon s (l ++ [e]) p q hc
    have hp : p ∈ s :: (l ++ [e]) := by rw [h1]; simp
    have hq : q ∈ s :: (l ++ [e]) := by rw [h1]; simp
    obtain ⟨t, t0, t1, ht⟩ := hseg' p hp
    obtain ⟨u, u0, u1, hu⟩ := hseg' q hq
    have hs := hsorted'
    rw [h1, List.pairwise_append] at hs
    obtain ⟨hsA, hsB, hsC⟩ := hs
    rw [List.pairwise_cons, List.pairwise_append] at hsB
    obtain ⟨hsP, hsM, hsQ, hsMQ⟩ := hsB
    rw [List.pairwise_cons] at hsQ
    have hle : key p ≤ key q := hsP q (by simp)
    have htu : t ≤ u := by
      rw [ht, hu, hkey, hkey] at hle
      by_contra hcon
      have : u < t := not_le.1 hcon
      nlinarith
    have hne : t ≠ u := by
      rintro rfl
      rw [ht, hu] at h3
      apply h3
      simp [heps]
    refine ⟨t, u, t0, lt_of_le_of_ne htu hne, u1, ht, hu, ?_⟩
    intro r hr hpr hrq
    rw [h1] at hr
    rcases List.mem_append.1 hr with hr | hr
    · have := hsC r hr p (by simp)
      exact absurd hpr (not_lt.2 this)
    · rcases List.mem_cons.1 hr with rfl | hr
      · exact absurd hpr (lt_irrefl _)
      · rcases List.mem_append.1 hr with hr | hr
        · exact h2 r hr
        · rcases List.mem_cons.1 hr with rfl | hr
          · exact absurd hrq (lt_irrefl _)
          · exact absurd hrq (not_lt.2 (hsQ.1 r hr))
  refine ⟨rfl, mergeTail_last epsilon heps s l e, ?_, ?_, ?_, ?_⟩
  · intro p hp
    rcases List.mem_cons.1 hp with rfl | hp
    · exact hseg p (by simp)
    · exact hseg' p (List.mem_cons_of_mem _ (mergeTail_mem _ _ _ p hp))
  · intro p q hc
    obtain ⟨t, u, h1, h2, h3, h4, h5, -⟩ := nb p q hc
    exact ⟨t, u, h1, h2, h3, h4, h5⟩
  · intro p q k hc hb
    obtain ⟨t, u, h1, h2, h3, rfl, rfl, h6⟩ := nb p q hc
    obtain ⟨hd, w, w1, w2, w3⟩ := crossing s.x (e.x - s.x) t u _ h2 hb
    have hmem := hx w k (by linarith) (by linarith) (fun h => hd (by rw [h]; ring)) w3
    have := (h6 (along s e w) (by rw [← List.cons_append]; exact List.mem_append_left _ hmem)
      (by rw [hkey, hkey]; nlinarith) (by rw [hkey, hkey]; nlinarith)).1
    rw [show (along s e w).x = (k : K) * step from w3] at this
    exact this
  · intro p q k hc hb
    obtain ⟨t, u, h1, h2, h3, rfl, rfl, h6⟩ := nb p q hc
    obtain ⟨hd, w, w1, w2, w3⟩ := crossing s.y (e.y - s.y) t u _ h2 hb
    have hmem := hy w k (by linarith) (by linarith) (fun h => hd (by rw [h]; ring)) w3
    have := (h6 (along s e w) (by rw [← List.cons_append]; exact List.mem_append_left _ hmem)
      (by rw [hkey, hkey]; nlinarith) (by rw [hkey, hkey]; nlinarith)).2
    rw [show (along s e w).y = (k : K) * step from w3] at this
    exact this

/-- Points along a segment, in order, which contain all crossings with the grid. -/
structure Raw (step : K) (s e : Vec K) (l : List (Vec K)) (key : Vec K → K) (c D : K) : Prop where
  pos : 0 < D
  keys : ∀ t, key (along s e t) = c + t * D
  sorted : (s :: l).Pairwise fun a b => key a ≤ key b
  segment : ∀ p ∈ s :: l, ∃ t, 0 ≤ t ∧ t ≤ 1 ∧ p = along s e t
  columns : ∀ (t : K) (k : Int), 0 < t → t < 1 → e.x ≠ s.x → (along s e t).x = (k : K) * step → along s e t ∈ s :: l
  rows : ∀ (t : K) (k : Int), 0 < t → t < 1 → e.y ≠ s.y → (along s e t).y = (k : K) * step → along s e t ∈ s :: l

/-- Sorting the points by the key puts the start first (up to points with the same key, which are the same point). -/
theorem sorted_of_points (step : K) (s e : Vec K) (key : Vec K → K) (c D : K) (hD : 0 < D)
    (hkey : ∀ t, key (along s e t) = c + t * D) (points : List (Vec K)) (hseg : ∀ p ∈ points, ∃ t, 0 ≤ t ∧ t ≤ 1 ∧ p = along s e t)
    (hx : ∀ (t : K) (k : Int), 0 < t → t < 1 → e.x ≠ s.x → (along s e t).x = (k : K) * step → along s e t ∈ points)
    (hy : ∀ (t : K) (k : Int), 0 < t → t < 1 → e.y ≠ s.y → (along s e t).y = (k : K) * step → along s e t ∈ points) :
    ∃ l, sortBy key (s :: points) = s :: l ∧ Raw step s e l key c D := by
  have hperm : (sortBy key (s :: points)).Perm (s :: points) := List.perm_insertionSort _ _
  have hsorted : (sortBy key (s :: points)).Pairwise fun a b => key a ≤ key b := by
    have : Std.Total fun a b : Vec K => key a ≤ key b := ⟨fun a b => le_total _ _⟩
    have : IsTrans (Vec K) fun a b => key a ≤ key b := ⟨fun a b c => le_trans⟩
    exact List.pairwise_insertionSort _ _
  have hs0 : s = along s e 0 := by unfold along; cases s; simp
  have hseg' : ∀ p ∈ s :: points, ∃ t, 0 ≤ t ∧ t ≤ 1 ∧ p = along s e t := by
    intro p hp
    rcases List.mem_cons.1 hp with rfl | hp
    · exact ⟨0, le_refl _, zero_le_one, hs0⟩
    · exact hseg p hp
  cases hl : sortBy key (s :: points) with
  | nil => rw [hl] at hperm; exact absurd hperm.length_eq (by simp)
  | cons a l =>
    rw [hl] at hperm hsorted
    have ha : a = s := by
      have hmem : a ∈ s :: points := hperm.subset (by simp)
      obtain ⟨t, t0, t1, ht⟩ := hseg' a hmem
      have hs : s ∈ a :: l := hperm.symm.subset (by simp)
      rcases List.mem_cons.1 hs with h | h
      · exact h.symm
      · have hle : key a ≤ key s := (List.pairwise_cons.1 hsorted).1 s h
        have k0 : key s = c + 0 * D := by conv_lhs => rw [hs0]
                                          exact hkey 0
        rw [k0, ht, hkey] at hle
        have : t = 0 := by nlinarith
        rw [ht, this, ← hs0]
    subst ha
    exact ⟨l, rfl, hD, hkey, hsorted, fun p hp => hseg' p (hperm.subset hp),
      (fun t k h1 h2 h3 h4 => hperm.symm.subset (List.mem_cons_of_mem _ (hx t k h1 h2 h3 h4))),
      (fun t k h1 h2 h3 h4 => hperm.symm.subset (List.mem_cons_of_mem _ (hy t k h1 h2 h3 h4)))⟩

theorem mem_grid [FloorRing K] (step a stop v : K) (hstep : 0 < step) :
    v ∈ gridValues step (ceilTo step a) stop ↔ (∃ j : Int, v = (j : K) * step) ∧ a ≤ v ∧ v < stop := by
  unfold gridValues ceilTo
  simp only [List.mem_map, List.mem_range]
  constructor
  · rintro ⟨k, hk, rfl⟩
    have hk' : (k : Int) < ⌈(stop - (⌈a / step⌉ : K) * step) / step⌉ := by omega
    have h1 : ((k : Int) : K) < (stop - (⌈a / step⌉ : K) * step) / step := Int.lt_ceil.1 hk'
    rw [lt_div_iff₀ hstep] at h1
    refine ⟨⟨⌈a / step⌉ + k, by push_cast; ring⟩, ?_, ?_⟩
    · have h2 : a / step ≤ (⌈a / step⌉ : K) := Int.le_ceil _
      rw [div_le_iff₀ hstep] at h2
      have : (0 : K) ≤ (k : K) * step := mul_nonneg (Nat.cast_nonneg k) hstep.le
      linarith
    · push_cast at h1; linarith
  · rintro ⟨⟨j, rfl⟩, h1, h2⟩
    have hj : ⌈a / step⌉ ≤ j := Int.ceil_le.2 (by rw [div_le_iff₀ hstep]; exact h1)
    have hlt : (((j - ⌈a / step⌉ : Int)) : K) < (stop - (⌈a / step⌉ : K) * step) / step := by
      rw [lt_div_iff₀ hstep]; push_cast; linarith
    have hlt' := Int.lt_ceil.2 hlt
    refine ⟨(j - ⌈a / step⌉).toNat, by omega, ?_⟩
    have : (((j - ⌈a / step⌉).toNat : Nat) : K) = ((j - ⌈a / step⌉ : Int) : K) := by
      have h : (((j - ⌈a / step⌉).toNat : Nat) : Int) = j - ⌈a / step⌉ := Int.toNat_of_nonneg (by omega)
      exact_mod_cast congrArg (fun z : Int => (z : K)) h
    rw [this]; push_cast; ring

theorem param (a b v : K) (h : a ≠ b) (hv : (a ≤ v ∧ v ≤ b) ∨ (b ≤ v ∧ v ≤ a)) :
    0 ≤ (v - a) / (b - a) ∧ (v - a) / (b - a) ≤ 1 ∧ a + (v - a) / (b - a) * (b - a) = v := by
  have hne : b - a ≠ 0 := sub_ne_zero.2 (Ne.symm h)
  refine ⟨?_, ?_, by rw [div_mul_cancel₀ _ hne]; ring⟩
  · rcases hv with ⟨h1, h2⟩ | ⟨h1, h2⟩
    · exact div_nonneg (by linarith) (by linarith)
    · exact div_nonneg_of_nonpos (by linarith) (by linarith)
  · rcases hv with ⟨h1, h2⟩ | ⟨h1, h2⟩
    · have : 0 < b - a := lt_of_le_of_ne (by linarith) (Ne.symm hne)
      rw [div_le_one this]; linarith
    · have : b - a < 0 := lt_of_le_of_ne (by linarith) hne
      rw [div_le_one_of_neg this]; linarith

theorem raw_cases [FloorRing K] (epsilon step : K) (heps : 0 < epsilon) (hstep : 0 < step) (s e : Vec K)
    (hslope : s.x ≠ e.x → s.y ≠ e.y → epsilon ≤ |(e.y - s.y) / (e.x - s.x)|) :
    (∃ l key c D, rawPoints epsilon step s e = s :: (l ++ [e]) ∧ Raw step s e l key c D) ∨ (s = e ∧ rawPoints epsilon step s e = [s, e]) := by
  have found : ∀ (key : Vec K → K) (c D : K), 0 < D → (∀ t, key (along s e t) = c + t * D) → ∀ points : List (Vec K),
      (∀ p ∈ points, ∃ t, 0 ≤ t ∧ t ≤ 1 ∧ p = along s e t) →
      (∀ (t : K) (k : Int), 0 < t → t < 1 → e.x ≠ s.x → (along s e t).x = (k : K) * step → along s e t ∈ points) →
      (∀ (t : K) (k : Int), 0 < t → t < 1 → e.y ≠ s.y → (along s e t).y = (k : K) * step → along s e t ∈ points) →
      (∃ l key' c D, sortBy key (s :: points) ++ [e] = s :: (l ++ [e]) ∧ Raw step s e l key' c D) ∨ (s = e ∧ sortBy key (s :: points) ++ [e] = [s, e]) := by
    intro key c D hD hkey points hseg hx hy
    obtain ⟨l, h1, h2⟩ := sorted_of_points step s e key c D hD hkey points hseg hx hy
    exact .inl ⟨l, key, c, D, by rw [h1]; rfl, h2⟩
  unfold rawPoints
  have hyv : ∀ v, (s.y ≤ v ∧ v ≤ e.y) ∨ (e.y ≤ v ∧ v ≤ s.y) → s.x = e.x → s.y ≠ e.y →
      ∃ t, 0 ≤ t ∧ t ≤ 1 ∧ (⟨s.x, v⟩ : Vec K) = along s e t := by
    intro v hv hx hy
    obtain ⟨h1, h2, h3⟩ := param s.y e.y v hy hv
    refine ⟨_, h1, h2, ?_⟩
    unfold along
    rw [h3, hx]; simp
  have hxv : ∀ v, (s.x ≤ v ∧ v ≤ e.x) ∨ (e.x ≤ v ∧ v ≤ s.x) → s.y = e.y → s.x ≠ e.x →
      ∃ t, 0 ≤ t ∧ t ≤ 1 ∧ (⟨v, s.y⟩ : Vec K) = along s e t := by
    intro v hv hy hx
    obtain ⟨h1, h2, h3⟩ := param s.x e.x v hx hv
    refine ⟨_, h1, h2, ?_⟩
    unfold along
    rw [h3, hy]; simp
  by_cases hx : s.x = e.x
  · rw [if_pos hx]
    by_cases hy : s.y = e.y
    · rw [if_pos hy]
      have he : s = e := by cases s; cases e; simp_all
      exact .inr ⟨he, rfl⟩
    · rw [if_neg hy]
      unfold zeroSlope
      rw [if_pos (by rw [hx]; ring)]
      simp only
      by_cases hlt : s.y < e.y
      · simp only [hlt, if_true]
        apply found (fun p => p.y) s.y (e.y - s.y) (by linarith) (fun t => rfl)
        · intro p hp
          obtain ⟨v, hv, rfl⟩ := List.mem_map.1 hp
          obtain ⟨-, h1, h2⟩ := (mem_grid step _ _ v hstep).1 hv
          exact hyv v (.inl ⟨h1, h2.le⟩) hx hy
        · intro t k _ _ hne; exact absurd hx.symm hne
        · intro t k t0 t1 _ hk
          refine List.mem_map.2 ⟨(along s e t).y, (mem_grid step _ _ _ hstep).2 ⟨⟨k, hk⟩, ?_, ?_⟩, ?_⟩
          · unfold along; simp only; nlinarith
          · unfold along; simp only; nlinarith
          · unfold along; simp [hx]
      · have hgt : e.y < s.y := lt_of_le_of_ne (not_lt.1 hlt) (Ne.symm hy)
        simp only [hlt, if_false]
        apply found (fun p => -p.y) (-s.y) (s.y - e.y) (by linarith) (fun t => by unfold along; ring)
        · intro p hp
          obtain ⟨v, hv, rfl⟩ := List.mem_map.1 hp
          obtain ⟨-, h1, h2⟩ := (mem_grid step _ _ v hstep).1 hv
          rw [← hx]
          exact hyv v (.inr ⟨h1, h2.le⟩) hx hy
        · intro t k _ _ hne; exact absurd hx.symm hne
        · intro t k t0 t1 _ hk
          refine List.mem_map.2 ⟨(along s e t).y, (mem_grid step _ _ _ hstep).2 ⟨⟨k, hk⟩, ?_, ?_⟩, ?_⟩
          · unfold along; simp only; nlinarith
          · unfold along; simp only; nlinarith
          · unfold along; simp [hx]
  · rw [if_neg hx]
    simp only
    have hxne : e.x - s.x ≠ 0 := sub_ne_zero.2 (Ne.symm hx)
    by_cases hy : s.y = e.y
    · have hz : (e.y - s.y) / (e.x - s.x) = 0 := by rw [hy]; simp
      rw [hz, abs_zero, if_pos heps]
      unfold zeroSlope
      rw [if_neg (fun h => hx (by linarith))]
      simp only
      by_cases hlt : s.x < e.x
      · simp only [hlt, if_true]
        apply found (fun p => p.x) s.x (e.x - s.x) (by linarith) (fun t => rfl)
        · intro p hp
          obtain ⟨v, hv, rfl⟩ := List.mem_map.1 hp
          obtain ⟨-, h1, h2⟩ := (mem_grid step _ _ v hstep).1 hv
          exact hxv v (.inl ⟨h1, h2.le⟩) hy hx
        · intro t k t0 t1 _ hk
          refine List.mem_map.2 ⟨(along s e t).x, (mem_grid step _ _ _ hstep).2 ⟨⟨k, hk⟩, ?_, ?_⟩, ?_⟩
          · unfold along; simp only; nlinarith
          · unfold along; simp only; nlinarith
          · unfold along; simp [hy]
        · intro t k _ _ hne; exact absurd hy.symm hne
      · have hgt : e.x < s.x := lt_of_le_of_ne (not_lt.1 hlt) (Ne.symm hx)
        simp only [hlt, if_false]
        apply found (fun p => -p.x) (-s.x) (s.x - e.x) (by linarith) (fun t => by unfold along; ring)
        · intro p hp
          obtain ⟨v, hv, rfl⟩ := List.mem_map.1 hp
          obtain ⟨-, h1, h2⟩ := (mem_grid step _ _ v hstep).1 hv
          rw [← hy]
          exact hxv v (.inr ⟨h1, h2.le⟩) hy hx
        · intro t k t0 t1 _ hk
          refine List.mem_map.2 ⟨(along s e t).x, (mem_grid step _ _ _ hstep).2 ⟨⟨k, hk⟩, ?_, ?_⟩, ?_⟩
          · unfold along; simp only; nlinarith
          · unfold along; simp only; nlinarith
          · unfold along; simp [hy]
        · intro t k _ _ hne; exact absurd hy.symm hne
    · rw [if_neg (not_lt.2 (hslope hx hy))]
      set m := (e.y - s.y) / (e.x - s.x) with hm
      have hmx : m * (e.x - s.x) = e.y - s.y := div_mul_cancel₀ _ hxne
      have hyne : e.y - s.y ≠ 0 := sub_ne_zero.2 (Ne.symm hy)
      have hm0 : m ≠ 0 := div_ne_zero hyne hxne
      -- points with a given x or y
      have px : ∀ v, (s.x ≤ v ∧ v ≤ e.x) ∨ (e.x ≤ v ∧ v ≤ s.x) →
          ∃ t, 0 ≤ t ∧ t ≤ 1 ∧ (⟨v, m * v + (s.y - m * s.x)⟩ : Vec K) = along s e t := by
        intro v hv
        obtain ⟨h1, h2, h3⟩ := param s.x e.x v hx hv
        refine ⟨_, h1, h2, ?_⟩
        unfold along
        rw [h3]
        congr 1
        rw [hm]; field_simp; ring
      have py : ∀ v, (s.y ≤ v ∧ v ≤ e.y) ∨ (e.y ≤ v ∧ v ≤ s.y) →
          ∃ t, 0 ≤ t ∧ t ≤ 1 ∧ (⟨(v - (s.y - m * s.x)) * (1 / m), v⟩ : Vec K) = along s e t := by
        intro v hv
        obtain ⟨h1, h2, h3⟩ := param s.y e.y v hy hv
        refine ⟨_, h1, h2, ?_⟩
        unfold along
        rw [h3]
        congr 1
        rw [hm]; field_simp; ring
      have ax : ∀ t, along s e t = ⟨(along s e t).x, m * (along s e t).x + (s.y - m * s.x)⟩ := by
        intro t; unfold along; simp only [Vec.mk.injEq, true_and]; linear_combination -t * hmx
      have ay : ∀ t, along s e t = ⟨((along s e t).y - (s.y - m * s.x)) * (1 / m), (along s e t).y⟩ := by
        intro t; unfold along; simp only [Vec.mk.injEq, and_true]
        have h1 : m * (1 / m) = 1 := mul_one_div_cancel hm0
        generalize 1 / m = i at h1
        linear_combination (t * i) * hmx - (s.x + t * (e.x - s.x)) * h1
      unfold normalCase
      simp only
      by_cases hlt : s.x < e.x
      · simp only [hlt, if_true, List.cons_append]
        apply found (fun p => p.x) s.x (e.x - s.x) (by linarith) (fun t => rfl)
        · intro p hp
          rcases List.mem_append.1 hp with hp | hp
          · obtain ⟨v, hv, rfl⟩ := List.mem_map.1 hp
            obtain ⟨-, h1, h2⟩ := (mem_grid step _ _ v hstep).1 hv
            exact px v (.inl ⟨h1, h2.le⟩)
          · obtain ⟨v, hv, rfl⟩ := List.mem_map.1 hp
            obtain ⟨-, h1, h2⟩ := (mem_grid step _ _ v hstep).1 hv
            by_cases hb : s.y < e.y
            · simp only [hb, if_true] at h1 h2
              exact py v (.inl ⟨h1, h2.le⟩)
            · simp only [hb, if_false] at h1 h2
              exact py v (.inr ⟨h1, h2.le⟩)
        · intro t k t0 t1 _ hk
          refine List.mem_append_left _ (List.mem_map.2 ⟨(along s e t).x, (mem_grid step _ _ _ hstep).2 ⟨⟨k, hk⟩, ?_, ?_⟩, (ax t).symm⟩)
          · unfold along; simp only; nlinarith
          · unfold along; simp only; nlinarith
        · intro t k t0 t1 _ hk
          refine List.mem_append_right _ (List.mem_map.2 ⟨(along s e t).y, (mem_grid step _ _ _ hstep).2 ⟨⟨k, hk⟩, ?_, ?_⟩, (ay t).symm⟩)
          · by_cases hb : s.y < e.y
            · simp only [hb, if_true]; unfold along; simp only; nlinarith
            · have hgt : e.y < s.y := lt_of_le_of_ne (not_lt.1 hb) (Ne.symm hy)
              simp only [hb, if_false]; unfold along; simp only; nlinarith
          · by_cases hb : s.y < e.y
            · simp only [hb, if_true]; unfold along; simp only; nlinarith
            · have hgt : e.y < s.y := lt_of_le_of_ne (not_lt.1 hb) (Ne.symm hy)
              simp only [hb, if_false]; unfold along; simp only; nlinarith
      · have hgtx : e.x < s.x := lt_of_le_of_ne (not_lt.1 hlt) (Ne.symm hx)
        simp only [hlt, if_false, List.cons_append]
        apply found (fun p => -p.x) (-s.x) (s.x - e.x) (by linarith) (fun t => by unfold along; ring)
        · intro p hp
          rcases List.mem_append.1 hp with hp | hp
          · obtain ⟨v, hv, rfl⟩ := List.mem_map.1 hp
            obtain ⟨-, h1, h2⟩ := (mem_grid step _ _ v hstep).1 hv
            exact px v (.inr ⟨h1, h2.le⟩)
          · obtain ⟨v, hv, rfl⟩ := List.mem_map.1 hp
            obtain ⟨-, h1, h2⟩ := (mem_grid step _ _ v hstep).1 hv
            by_cases hb : e.y < s.y
            · simp only [hb, if_true] at h1 h2
              exact py v (.inr ⟨h1, h2.le⟩)
            · simp only [hb, if_false] at h1 h2
              exact py v (.inl ⟨h1, h2.le⟩)
        · intro t k t0 t1 _ hk
          refine List.mem_append_left _ (List.mem_map.2 ⟨(along s e t).x, (mem_grid step _ _ _ hstep).2 ⟨⟨k, hk⟩, ?_, ?_⟩, (ax t).symm⟩)
          · unfold along; simp only; nlinarith
          · unfold along; simp only; nlinarith
        · intro t k t0 t1 _ hk
          refine List.mem_append_right _ (List.mem_map.2 ⟨(along s e t).y, (mem_grid step _ _ _ hstep).2 ⟨⟨k, hk⟩, ?_, ?_⟩, (ay t).symm⟩)
          · by_cases hb : e.y < s.y
            · simp only [hb, if_true]; unfold along; simp only; nlinarith
            · have hgt : s.y < e.y := lt_of_le_of_ne (not_lt.1 hb) hy
              simp only [hb, if_false]; unfold along; simp only; nlinarith
          · by_cases hb : e.y < s.y
            · simp only [hb, if_true]; unfold along; simp only; nlinarith
            · have hgt : s.y < e.y := lt_of_le_of_ne (not_lt.1 hb) hy
              simp only [hb, if_false]; unfold along; simp only; nlinarith


/-- Appending the next points to a result whose last point is close to their start. -/
theorem joined (epsilon step : K) (heps : 0 < epsilon) (s e : Vec K) (l : List (Vec K)) (key : Vec K → K) (c D : K) (h : Raw step s e l key c D)
    (prev : Vec K) (hprev : |prev.x - s.x| < epsilon ∧ |prev.y - s.y| < epsilon) (p q : Vec K)
    (hc : Consecutive (prev :: mergeTail epsilon prev (s :: (l ++ [e]))) p q) (k : Int) :
    (Between ((k : K) * step) p.x q.x → |p.x - (k : K) * step| < epsilon) ∧ (Between ((k : K) * step) p.y q.y → |p.y - (k : K) * step| < epsilon) := by
  obtain ⟨hD, hkey, hsorted, hseg, hx, hy⟩ := h
  have hstart : s = along s e 0 := by unfold along; cases s; simp
  have hend : e = along s e 1 := by unfold along; cases e; simp
  have hseg' : ∀ p ∈ s :: (l ++ [e]), ∃ t, 0 ≤ t ∧ t ≤ 1 ∧ p = along s e t := by
    intro p hp
    rw [← List.cons_append] at hp
    rcases List.mem_append.1 hp with hp | hp
    · exact hseg p hp
    · rw [List.mem_singleton.1 hp]; exact ⟨1, zero_le_one, le_refl _, hend⟩
  have hsorted' : (s :: (l ++ [e])).Pairwise fun a b => key a ≤ key b := by
    rw [← List.cons_append, List.pairwise_append]
    refine ⟨hsorted, by simp, ?_⟩
    intro a ha b hb
    obtain ⟨t, h0, h1, rfl⟩ := hseg a ha
    rw [List.mem_singleton.1 hb]
    have : key e = c + 1 * D := by conv_lhs => rw [hend]
                                   exact hkey 1
    rw [this, hkey]
    nlinarith
  have hx' : ∀ (t : K) (k : Int), 0 < t → t < 1 → e.x ≠ s.x → (along s e t).x = (k : K) * step → along s e t ∈ s :: (l ++ [e]) :=
    fun t k a b c d => by rw [← List.cons_append]; exact List.mem_append_left _ (hx t k a b c d)
  have hy' : ∀ (t : K) (k : Int), 0 < t → t < 1 → e.y ≠ s.y → (along s e t).y = (k : K) * step → along s e t ∈ s :: (l ++ [e]) :=
    fun t k a b c d => by rw [← List.cons_append]; exact List.mem_append_left _ (hy t k a b c d)
  clear hx hy hseg hsorted
  obtain ⟨⟨before, mid, after, h1, h2⟩, h3⟩ := mergeTail_consecutive epsilon prev _ p q hc
  clear hc
  -- a point `p'` of the segment close to `p`, such that everything between it and `q` is close to `p`
  have key' : ∃ t u, 0 ≤ t ∧ t < u ∧ u ≤ 1 ∧ q = along s e u ∧
      (|p.x - (along s e t).x| < epsilon ∧ |p.y - (along s e t).y| < epsilon) ∧
      ∀ w, t < w → w < u → along s e w ∈ s :: (l ++ [e]) → |p.x - (along s e w).x| < epsilon ∧ |p.y - (along s e w).y| < epsilon := by
    cases before with
    | nil =>
      simp only [List.nil_append, List.cons.injEq] at h1
      obtain ⟨rfl, h1⟩ := h1
      cases mid with
      | nil =>
        simp only [List.nil_append, List.cons.injEq] at h1
        obtain ⟨rfl, -⟩ := h1
        exact absurd hprev h3
      | cons m mid =>
        have hq : q ∈ s :: (l ++ [e]) := by rw [h1]; simp
        obtain ⟨u, u0, u1, hu⟩ := hseg' q hq
        have hs := hsorted'
        rw [h1, List.pairwise_append] at hs
        obtain ⟨hsA, hsB, hsC⟩ := hs
        rw [List.pairwise_cons] at hsB
        refine ⟨0, u, le_refl _, lt_of_le_of_ne u0 ?_, u1, hu, by rw [← hstart]; exact hprev, ?_⟩
        · rintro rfl
          rw [← hstart] at hu
          rw [hu] at h3
          exact h3 hprev
        · intro w w0 w1 hw
          rw [h1] at hw
          rcases List.mem_append.1 hw with hw | hw
          · exact h2 _ hw
          · exfalso
            have hle : key q ≤ key (along s e w) := by
              rcases List.mem_cons.1 hw with hw | hw
              · rw [hw]
              · exact hsB.1 _ hw
            rw [hu, hkey, hkey] at hle
            nlinarith
    | cons b before =>
      simp only [List.cons_append, List.cons.injEq] at h1
      obtain ⟨rfl, h1⟩ := h1
      have hp : p ∈ s :: (l ++ [e]) := by rw [h1]; simp
      have hq : q ∈ s :: (l ++ [e]) := by rw [h1]; simp
      obtain ⟨t, t0, t1, ht⟩ := hseg' p hp
      obtain ⟨u, u0, u1, hu⟩ := hseg' q hq
      have hs := hsorted'
      rw [h1, List.pairwise_append] at hs
      obtain ⟨hsA, hsB, hsC⟩ := hs
      rw [List.pairwise_cons, List.pairwise_append] at hsB
      obtain ⟨hsP, hsM, hsQ, hsMQ⟩ := hsB
      rw [List.pairwise_cons] at hsQ
      have hle : key p ≤ key q := hsP q (by simp)
      have htu : t ≤ u := by
        rw [ht, hu, hkey, hkey] at hle
        by_contra hcon
        have : u < t := not_le.1 hcon
        nlinarith
      have hne : t ≠ u := by
        rintro rfl
        rw [ht, hu] at h3
        apply h3
        simp [heps]
      refine ⟨t, u, t0, lt_of_le_of_ne htu hne, u1, hu, by rw [← ht]; simp [heps], ?_⟩
      intro w w0 w1 hr
      have kw : key (along s e w) = c + w * D := hkey w
      have kp : key p = c + t * D := by rw [ht, hkey]
      have kq : key q = c + u * D := by rw [hu, hkey]
      have hpr : key p < key (along s e w) := by rw [kw, kp]; nlinarith
      have hrq : key (along s e w) < key q := by rw [kw, kq]; nlinarith
      rw [h1] at hr
      rcases List.mem_append.1 hr with hr | hr
      · exact absurd hpr (not_lt.2 (hsC _ hr p (by simp)))
      · rcases List.mem_cons.1 hr with hr | hr
        · rw [hr] at hpr; exact absurd hpr (lt_irrefl _)
        · rcases List.mem_append.1 hr with hr | hr
          · exact h2 _ hr
          · rcases List.mem_cons.1 hr with hr | hr
            · rw [hr] at hrq; exact absurd hrq (lt_irrefl _)
            · exact absurd hrq (not_lt.2 (hsQ.1 _ hr))
  obtain ⟨t, u, t0, htu, u1, rfl, hnear, hall⟩ := key'
  have line : ∀ g a a' b : K, |a - a'| < epsilon → Between g a b → |a - g| < epsilon ∨ g = a' ∨ Between g a' b := by
    intro g a a' b hab hb
    by_cases hg : g = a'
    · exact .inr (.inl hg)
    rcases abs_lt.1 hab with ⟨e1, e2⟩
    rcases hb with ⟨b1, b2⟩ | ⟨b1, b2⟩
    · by_cases ha : a' < g
      · exact .inr (.inr (.inl ⟨ha, b2⟩))
      · left; rw [abs_lt]; have := lt_of_le_of_ne (not_lt.1 ha) hg; constructor <;> linarith
    · by_cases ha : g < a'
      · exact .inr (.inr (.inr ⟨b1, ha⟩))
      · left; rw [abs_lt]; have := lt_of_le_of_ne (not_lt.1 ha) (Ne.symm hg); constructor <;> linarith
  constructor
  · intro hb
    rcases line _ _ _ _ hnear.1 hb with h | h | h
    · exact h
    · rw [h]; exact hnear.1
    · obtain ⟨hd, w, w1, w2, w3⟩ := crossing s.x (e.x - s.x) t u _ htu h
      have := (hall w w1 w2 (hx' w k (by linarith) (by linarith) (fun h => hd (by rw [h]; ring)) w3)).1
      rw [show (along s e w).x = (k : K) * step from w3] at this
      exact this
  · intro hb
    rcases line _ _ _ _ hnear.2 hb with h | h | h
    · exact h
    · rw [h]; exact hnear.2
    · obtain ⟨hd, w, w1, w2, w3⟩ := crossing s.y (e.y - s.y) t u _ htu h
      have := (hall w w1 w2 (hy' w k (by linarith) (by linarith) (fun h => hd (by rw [h]; ring)) w3)).2
      rw [show (along s e w).y = (k : K) * step from w3] at this
      exact this

end LineGridProof

open LineGridProof
variable {K : Type} [Field K] [LinearOrder K] [IsStrictOrderedRing K] [FloorRing K]

/-- C42: splitting a segment gives points of the segment in order, from its start to its end (up to epsilon), and no two neighbours are
separated by a grid line which is not within epsilon of the first of them. Partial: slopes below epsilon are excluded (they do not
happen, see `C42_slope`), the rounding of `double` is not modelled. -/
theorem C42_split_partial (epsilon step : K) (heps : 0 < epsilon) (hstep : 0 < step) (s e : Vec K)
    (hslope : s.x ≠ e.x → s.y ≠ e.y → epsilon ≤ |(e.y - s.y) / (e.x - s.x)|) : Splits epsilon step s e (split epsilon step s e []) := by
  unfold split
  rcases raw_cases epsilon step heps hstep s e hslope with ⟨l, key, c, D, h1, h2⟩ | ⟨rfl, h1⟩
  · rw [h1]
    exact splits_of_sorted epsilon step heps s e key c D h2.pos h2.keys l h2.sorted h2.segment h2.columns h2.rows
  · rw [h1]
    have hm : mergeResults epsilon [s, s] [] = [s] := by
      have := merge_eq epsilon [s] [] s
      simp only [List.nil_append, mergeTail, sub_self, abs_zero, heps, and_self, if_true] at this
      conv_lhs => unfold mergeResults
      exact this
    rw [hm]
    refine ⟨rfl, ⟨s, rfl, by simpa using heps, by simpa using heps⟩, ?_, ?_, ?_, ?_⟩
    · intro p hp
      rw [List.mem_singleton.1 hp]
      exact ⟨0, le_refl _, zero_le_one, by unfold along; cases s; simp⟩
    · rintro p q ⟨b, a, h⟩
      have := congrArg List.length h
      simp at this
      omega
    · rintro p q k ⟨b, a, h⟩
      have := congrArg List.length h
      simp at this
      omega
    · rintro p q k ⟨b, a, h⟩
      have := congrArg List.length h
      simp at this
      omega

omit [IsStrictOrderedRing K] [FloorRing K] in
/-- C42: appending the split of the next segment to a result which ends at its start: the common point is not repeated. -/
theorem C42_append [IsStrictOrderedRing K] [FloorRing K] (epsilon step : K) (heps : 0 < epsilon) (hstep : 0 < step) (s e : Vec K)
    (hslope : s.x ≠ e.x → s.y ≠ e.y → epsilon ≤ |(e.y - s.y) / (e.x - s.x)|) (r0 : List (Vec K)) :
    split epsilon step s e (r0 ++ [s]) = r0 ++ split epsilon step s e [] := by
  have hfirst := (C42_split_partial epsilon step heps hstep s e hslope).first
  unfold split at hfirst ⊢
  cases hr : rawPoints epsilon step s e with
  | nil => rw [hr] at hfirst; simp [mergeResults] at hfirst
  | cons a l =>
    have e1 : mergeResults epsilon (a :: l) [] = a :: mergeTail epsilon a l := by
      have := merge_eq epsilon l [] a
      conv_lhs => unfold mergeResults
      exact this
    rw [hr, e1] at hfirst
    simp only [List.head?_cons, Option.some.injEq] at hfirst
    subst hfirst
    rw [e1, merge_eq]
    conv_lhs => unfold mergeTail
    simp [heps]

namespace LineGridProof
omit [IsStrictOrderedRing K] [FloorRing K] [Field K] [LinearOrder K] in
theorem consecutive_split {α : Type} (a b : List α) (m p q : α) (h : Consecutive (a ++ m :: b) p q) : Consecutive (a ++ [m]) p q ∨ Consecutive (m :: b) p q := by
  induction a with
  | nil => exact .inr h
  | cons x a ih =>
    obtain ⟨before, after, h⟩ := h
    cases before with
    | nil =>
      simp only [List.cons_append, List.nil_append, List.cons.injEq] at h
      obtain ⟨rfl, h⟩ := h
      left
      cases a with
      | nil =>
        simp only [List.nil_append, List.cons.injEq] at h
        obtain ⟨rfl, rfl⟩ := h
        exact ⟨[], [], rfl⟩
      | cons y a =>
        simp only [List.cons_append, List.cons.injEq] at h
        obtain ⟨rfl, h⟩ := h
        exact ⟨[], a ++ [m], rfl⟩
    | cons z before =>
      simp only [List.cons_append, List.cons.injEq] at h
      obtain ⟨rfl, h⟩ := h
      rcases ih ⟨before, after, h⟩ with ⟨b1, a1, h1⟩ | h1
      · exact .inl ⟨x :: b1, a1, by simp [h1]⟩
      · exact .inr h1

/-- Splitting the next segment after a point close to its start. -/
theorem split_next (epsilon step : K) (heps : 0 < epsilon) (hstep : 0 < step) (s e : Vec K)
    (hslope : s.x ≠ e.x → s.y ≠ e.y → epsilon ≤ |(e.y - s.y) / (e.x - s.x)|) (r0 : List (Vec K)) (prev : Vec K) (hprev : Near epsilon prev s) :
    ∃ tail, split epsilon step s e (r0 ++ [prev]) = r0 ++ prev :: tail ∧ (∀ p ∈ tail, ∃ t, 0 ≤ t ∧ t ≤ 1 ∧ p = along s e t) ∧
      (∃ last, (prev :: tail).getLast? = some last ∧ Near epsilon last e) ∧
      ∀ p q, Consecutive (prev :: tail) p q → ∀ k : Int, (Between ((k : K) * step) p.x q.x → |p.x - (k : K) * step| < epsilon) ∧
        (Between ((k : K) * step) p.y q.y → |p.y - (k : K) * step| < epsilon) := by
  refine ⟨mergeTail epsilon prev (rawPoints epsilon step s e), merge_eq epsilon _ r0 prev, ?_⟩
  rcases raw_cases epsilon step heps hstep s e hslope with ⟨l, key, c, D, h1, h2⟩ | ⟨rfl, h1⟩
  · rw [h1]
    refine ⟨?_, ?_, fun p q hc k => joined epsilon step heps s e l key c D h2 prev hprev p q hc k⟩
    · intro p hp
      have hp := mergeTail_mem epsilon prev _ p hp
      rw [← List.cons_append] at hp
      rcases List.mem_append.1 hp with hp | hp
      · exact h2.segment p hp
      · rw [List.mem_singleton.1 hp]; exact ⟨1, zero_le_one, le_refl _, by unfold along; cases e; simp⟩
    · obtain ⟨p, h3, h4⟩ := mergeTail_last epsilon heps prev (s :: l) e
      exact ⟨p, by simpa using h3, h4⟩
  · rw [h1]
    have hm : mergeTail epsilon prev [s, s] = [] := by
      unfold Near at hprev
      simp [mergeTail, hprev]
    rw [hm]
    refine ⟨by simp, ⟨prev, rfl, hprev⟩, ?_⟩
    rintro p q ⟨b, a, h⟩
    have := congrArg List.length h
    simp at this
    omega

theorem restore_from (epsilon step : K) (heps : 0 < epsilon) (hstep : 0 < step) (first : Vec K) (rest : List (Vec K)) (s : Vec K)
    (hslope : ∀ edge ∈ (s :: rest).zip (rest ++ [first]), edge.1.x ≠ edge.2.x → edge.1.y ≠ edge.2.y →
      epsilon ≤ |(edge.2.y - edge.1.y) / (edge.2.x - edge.1.x)|) (r0 : List (Vec K)) (prev : Vec K) (hprev : Near epsilon prev s) :
    ∃ pieces, restoreFrom epsilon step first s rest (r0 ++ [prev]) = r0 ++ prev :: pieces.flatten ∧
      List.Forall₂ (fun (edge : Vec K × Vec K) piece => ∀ p ∈ piece, ∃ t, 0 ≤ t ∧ t ≤ 1 ∧ p = along edge.1 edge.2 t)
        ((s :: rest).zip (rest ++ [first])) pieces ∧
      (∃ last, (prev :: pieces.flatten).getLast? = some last ∧ Near epsilon last first) ∧
      (∀ v ∈ s :: rest, ∃ p ∈ prev :: pieces.flatten, Near epsilon p v) ∧
      ∀ p q, Consecutive (prev :: pieces.flatten) p q → ∀ k : Int, (Between ((k : K) * step) p.x q.x → |p.x - (k : K) * step| < epsilon) ∧
        (Between ((k : K) * step) p.y q.y → |p.y - (k : K) * step| < epsilon) := by
  induction rest generalizing s r0 prev with
  | nil =>
    obtain ⟨tail, h1, h2, h3, h4⟩ := split_next epsilon step heps hstep s first (hslope (s, first) (by simp)) r0 prev hprev
    refine ⟨[tail], ?_, ?_, ?_, ?_, ?_⟩
    · unfold restoreFrom; rw [h1]; simp
    · exact .cons h2 .nil
    · simpa using h3
    · intro v hv
      rw [List.mem_singleton.1 hv]
      exact ⟨prev, by simp, hprev⟩
    · simpa using h4
  | cons e rest ih =>
    obtain ⟨tail, h1, h2, ⟨last, h3, h3'⟩, h4⟩ := split_next epsilon step heps hstep s e (hslope (s, e) (by simp)) r0 prev hprev
    obtain ⟨front, hf⟩ : ∃ front, prev :: tail = front ++ [last] := by
      rw [List.getLast?_eq_some_iff] at h3
      exact h3
    obtain ⟨pieces, g1, g2, ⟨last', g3, g3'⟩, g4, g5⟩ := ih e (fun edge he => hslope edge (by
      simp only [List.cons_append, List.zip_cons_cons, List.mem_cons]; exact .inr he)) (r0 ++ front) last h3'
    have hall : prev :: (tail ++ pieces.flatten) = front ++ last :: pieces.flatten := by
      rw [← List.cons_append, hf]; simp
    refine ⟨tail :: pieces, ?_, ?_, ?_, ?_, ?_⟩
    · rw [restoreFrom, h1, hf, ← List.append_assoc, g1, List.flatten_cons, hall]; simp
    · exact .cons h2 g2
    · refine ⟨last', ?_, g3'⟩
      rw [List.flatten_cons, hall, List.getLast?_append, g3]; rfl
    · intro v hv
      rcases List.mem_cons.1 hv with rfl | hv
      · exact ⟨prev, by simp, hprev⟩
      · obtain ⟨p, hp, hn⟩ := g4 v hv
        refine ⟨p, ?_, hn⟩
        rw [List.flatten_cons, hall]
        exact List.mem_append_right _ hp
    · intro p q hc
      rw [List.flatten_cons, hall] at hc
      rcases consecutive_split front _ last p q hc with hc | hc
      · rw [← hf] at hc; exact h4 p q hc
      · exact g5 p q hc

end LineGridProof

/-- C42: the points of a whole contour go around it edge by edge: they start at the first vertex, stay on the edges, pass within epsilon of
every vertex, come back within epsilon of the first one, and no two neighbours are separated by a grid line which is not within epsilon of
the first of them, also around the corners. Partial as `C42_split_partial`. -/
theorem C42_contour_partial (epsilon step : K) (heps : 0 < epsilon) (hstep : 0 < step) (v : Vec K) (vs : List (Vec K))
    (hslope : ∀ edge ∈ contourEdges (v :: vs), edge.1.x ≠ edge.2.x → edge.1.y ≠ edge.2.y →
      epsilon ≤ |(edge.2.y - edge.1.y) / (edge.2.x - edge.1.x)|) : Contour epsilon step (v :: vs) (restoreGeometry epsilon step (v :: vs)) := by
  have hn : Near epsilon v v := by unfold Near; simpa using heps
  have he : contourEdges (v :: vs) = (v :: vs).zip (vs ++ [v]) := rfl
  rw [he] at hslope
  obtain ⟨pieces, h1, h2, ⟨last, h3, h3'⟩, h4, h5⟩ := restore_from epsilon step heps hstep v vs v hslope [] v hn
  have hr : restoreGeometry epsilon step (v :: vs) = v :: pieces.flatten := by
    rw [← List.nil_append (v :: pieces.flatten), ← h1]
    unfold restoreGeometry
    cases vs with
    | nil =>
      unfold restoreFrom
      exact (C42_append epsilon step heps hstep v v (by simp) []).symm
    | cons w vs =>
      unfold restoreFrom
      rw [C42_append epsilon step heps hstep v w (hslope (v, w) (by simp)) []]; rfl
  rw [hr]
  cases pieces with
  | nil => cases vs <;> cases h2
  | cons piece pieces =>
    refine ⟨rfl, ⟨last, v, h3, rfl, h3'⟩, ⟨(v :: piece) :: pieces, ?_, rfl⟩, h4, fun p q k hc => (h5 p q hc k).1, fun p q k hc => (h5 p q hc k).2⟩
    rw [he]
    cases hz : (v :: vs).zip (vs ++ [v]) with
    | nil => rw [hz] at h2; cases h2
    | cons edge edges =>
      rw [hz] at h2
      cases h2 with
      | cons g1 g2 =>
        refine .cons ?_ g2
        have hv : edge.1 = v := by
          cases vs <;> simp only [List.nil_append, List.cons_append, List.zip_cons_cons, List.cons.injEq] at hz <;> rw [← hz.1]
        intro p hp
        rcases List.mem_cons.1 hp with rfl | hp
        · exact ⟨0, le_refl _, zero_le_one, by unfold along; rw [hv]; cases p; simp⟩
        · exact g1 p hp

/-- C42: the slope of a segment between integer points is not below epsilon (2^-52), so the hypothesis of the theorem holds for all segments
which are split. -/
theorem C42_slope (X1 Y1 X2 Y2 : Int) (scale : ℚ) (hscale : 0 < scale) (hx : X1 ≠ X2) (hy : Y1 ≠ Y2) (hd : |X2 - X1| ≤ 2 ^ 52) :
    (1 / 2 ^ 52 : ℚ) ≤ |((Y2 : ℚ) / scale - (Y1 : ℚ) / scale) / ((X2 : ℚ) / scale - (X1 : ℚ) / scale)| := by
  have e : ((Y2 : ℚ) / scale - (Y1 : ℚ) / scale) / ((X2 : ℚ) / scale - (X1 : ℚ) / scale) = ((Y2 - Y1 : Int) : ℚ) / ((X2 - X1 : Int) : ℚ) := by
    push_cast
    rw [← sub_div, ← sub_div, div_div_div_cancel_right₀ hscale.ne']
  rw [e, abs_div]
  have h1 : (1 : ℚ) ≤ |((Y2 - Y1 : Int) : ℚ)| := by
    have : (1 : Int) ≤ |Y2 - Y1| := Int.one_le_abs (by omega)
    exact_mod_cast this
  have h2 : |((X2 - X1 : Int) : ℚ)| ≤ 2 ^ 52 := by exact_mod_cast hd
  have h3 : (0 : ℚ) < |((X2 - X1 : Int) : ℚ)| := abs_pos.2 (by
    have : X2 - X1 ≠ 0 := by omega
    exact_mod_cast this)
  rw [div_le_div_iff₀ (by norm_num) h3]
  linarith

/-- A segment which crosses the columns 1 and 2 and the row 1. -/
example : Splits (1 / 1000 : ℚ) 1 ⟨1 / 2, 1 / 2⟩ ⟨5 / 2, 7 / 4⟩ (split (1 / 1000) 1 ⟨1 / 2, 1 / 2⟩ ⟨5 / 2, 7 / 4⟩ []) :=
  C42_split_partial _ _ (by norm_num) (by norm_num) _ _ (by intro _ _; norm_num [abs_of_pos])

/-- A triangle with vertices off the grid. -/
example : Contour (1 / 1000 : ℚ) 1 [⟨1 / 2, 1 / 2⟩, ⟨5 / 2, 7 / 4⟩, ⟨1 / 2, 13 / 4⟩]
    (restoreGeometry (1 / 1000) 1 [⟨1 / 2, 1 / 2⟩, ⟨5 / 2, 7 / 4⟩, ⟨1 / 2, 13 / 4⟩]) := by
  apply C42_contour_partial _ _ (by norm_num) (by norm_num)
  intro edge he
  simp only [contourEdges, List.drop_succ_cons, List.drop_zero, List.take_succ_cons, List.take_zero, List.cons_append, List.nil_append,
    List.zip_cons_cons, List.zip_nil_right, List.mem_cons, List.not_mem_nil, or_false] at he
  rcases he with rfl | rfl | rfl <;> intro hx _ <;> first | exact absurd rfl hx | norm_num [abs_of_pos, abs_of_neg]

end Verif.Props
