import Mathlib.Tactic.FieldSimp
import Mathlib.Tactic.IntervalCases
import Mathlib.Tactic.LinearCombination
import Mathlib.Tactic.Linarith
import Mathlib.Analysis.SpecialFunctions.Complex.Arg
import Mathlib.Algebra.Order.Archimedean.Real.Basic
import Verif.Props.RoofsSpec
import Verif.Props.BuildingClosed
import Verif.Props.Quaternion

/-! # C86: round roofs -/
namespace Verif.Props
open Verif.MeshBuilder Verif.MeshSpec Verif.ShownSpec Verif.PolygonSpec Verif.Building Verif.BuildingSpec Verif.RoofsSpec Verif.Roofs
open Verif.Polygon (Vec Poly)
open Verif.SolidsShapeSpec (dot)
open BuildingProof

namespace RoofsProof
variable {K : Type} [Field K] [LinearOrder K]

/-- The triangle of a facet. -/
def faceOf (look : Look K) (f : Facet K) : Triangle K := facet look f.1.1 f.1.2.1 f.1.2.2 f.2.1 f.2.2.1 f.2.2.2

theorem Drawn.facet {t : Texture} {done : List (Triangle K × Texture)} {m : Mesh K} {ts : List (Triangle K)} (look : Look K) (h : Drawn t done m ts) (f : Facet K) :
    Drawn t done (addFacet look m f) (ts ++ [faceOf look f]) := h.triangle _ _ _ _ _ _ _

theorem Drawn.facets {t : Texture} {done : List (Triangle K × Texture)} (look : Look K) (fs : List (Facet K)) {m : Mesh K} {ts : List (Triangle K)}
    (h : Drawn t done m ts) : Drawn t done (fs.foldl (addFacet look) m) (ts ++ fs.map (faceOf look)) := by
  induction fs generalizing m ts with
  | nil => simpa using h
  | cons f fs ih =>
    rw [List.foldl_cons, List.map_cons]
    have := ih (Drawn.facet look h f)
    rwa [List.append_assoc] at this

theorem foldO_map {σ β γ : Type} (step : σ → β → Outcome σ) (g : γ → β) (l : List γ) (s : σ) :
    foldO step s (l.map g) = foldO (fun s c => step s (g c)) s l := by
  induction l generalizing s with
  | nil => rfl
  | cons c l ih =>
    simp only [List.map_cons, foldO]
    congr 1
    funext s
    exact ih s

/-- A loop with an invariant. -/
theorem foldO_range {σ : Type} (step : σ → Nat → Outcome σ) (P : Nat → σ → Prop) (n : Nat)
    (h : ∀ j < n, ∀ s, P j s → ∃ s', step s j = .ok s' ∧ P (j + 1) s') {s : σ} (h0 : P 0 s) : ∃ s', foldO step s (List.range n) = .ok s' ∧ P n s' := by
  have gen : ∀ k i, i + k = n → ∀ s, P i s → ∃ s', foldO step s (List.range' i k) = .ok s' ∧ P n s' := by
    intro k
    induction k with
    | zero => intro i hi s hs; exact ⟨s, rfl, by rwa [show n = i by omega]⟩
    | succ k ih =>
      intro i hi s hs
      obtain ⟨s1, h1, p1⟩ := h i (by omega) s hs
      obtain ⟨s2, h2, p2⟩ := ih (i + 1) (by omega) s1 p1
      exact ⟨s2, by rw [List.range'_succ]; simp only [foldO, h1, Outcome.bind, h2], p2⟩
  rw [List.range_eq_range']
  exact gen n 0 (by omega) s h0

variable [IsStrictOrderedRing K]

theorem sqrt_unique {lib : Library K} (hl : Standard lib) {w x : K} (hw : 0 ≤ w) (hx : x = w * w) : lib.sqrt x = w := by
  obtain ⟨h1, h2⟩ := hl.sqrt x (by rw [hx]; positivity)
  rw [hx] at h1 h2 ⊢
  nlinarith

theorem square_nonneg (a b : Vec K) : 0 ≤ square a b := by unfold square; nlinarith [sq_nonneg (a.x - b.x), sq_nonneg (a.y - b.y)]

theorem distance_eq (lib : Library K) (a b : Vec K) : distance2d lib a b = lib.sqrt (square a b) := rfl

theorem distance_nonneg {lib : Library K} (hl : Standard lib) (a b : Vec K) : 0 ≤ distance2d lib a b := (hl.sqrt _ (square_nonneg a b)).1

theorem distance_le {lib : Library K} (hl : Standard lib) {a b c d : Vec K} (h : distance2d lib a b ≤ distance2d lib c d) : square a b ≤ square c d := by
  obtain ⟨h1, h2⟩ := hl.sqrt _ (square_nonneg a b)
  obtain ⟨h3, h4⟩ := hl.sqrt _ (square_nonneg c d)
  rw [distance_eq, distance_eq] at h
  nlinarith

theorem distance_lt {lib : Library K} (hl : Standard lib) {a b c d : Vec K} (h : square a b < square c d) : distance2d lib a b < distance2d lib c d := by
  by_contra hc
  exact absurd (distance_le hl (not_lt.1 hc)) (not_le.2 h)

/-- The index of a longest side. -/
theorem longestSide_eq {lib : Library K} (hl : Standard lib) (p : Poly K) (ring : List (Vec K)) (range : Nat × Nat) (hst : Stored p ring range) (hne : ring ≠ []) :
    ∃ lo i len, range = (2 * lo, 2 * (lo + ring.length)) ∧ i < ring.length ∧ longestSide lib p range = .ok (2 * (lo + i), len) ∧
      ∀ k < ring.length, square (ring.getD k ⟨0, 0⟩) (ring.getD (if k = ring.length - 1 then 0 else k + 1) ⟨0, 0⟩) ≤
        square (ring.getD i ⟨0, 0⟩) (ring.getD (if i = ring.length - 1 then 0 else i + 1) ⟨0, 0⟩) := by
  have hpos : 0 < ring.length := List.length_pos_iff.2 hne
  obtain ⟨lo, rfl, -, -, hp⟩ := hst
  set side : Nat → K := fun k => distance2d lib (ring.getD k ⟨0, 0⟩) (ring.getD (if k = ring.length - 1 then 0 else k + 1) ⟨0, 0⟩) with hside
  unfold longestSide
  simp only
  rw [visited_eq lo ring.length _ (by omega), foldO_map]
  obtain ⟨s, hs, i, hi, hs1, hs2, hs3⟩ := foldO_range (fun (s : Nat × K) (j : Nat) =>
      (pointAt p ((2 * (lo + j) : Nat) : Int)).bind fun v0 => (pointAt p ((if 2 * (lo + j) = 2 * (lo + ring.length) - 2 then 2 * lo else 2 * (lo + j) + 2 : Nat) : Int)).bind
        fun v1 => Outcome.ok (if distance2d lib v0 v1 > s.2 then (2 * (lo + j), distance2d lib v0 v1) else s))
    (fun j s => ∃ i, i < ring.length ∧ s.1 = 2 * (lo + i) ∧ s.2 ≤ side i ∧ ∀ k < j, side k ≤ s.2) ring.length (by
      rintro j hj s ⟨i, hi, h1, h2, h3⟩
      have hn : (if j = ring.length - 1 then 0 else j + 1) < ring.length := by split <;> omega
      rw [pointAt_eq hp hj (by push_cast; ring), pointAt_eq hp hn (by split <;> split <;> push_cast <;> omega)]
      refine ⟨_, rfl, ?_⟩
      have e : distance2d lib ring[j] ring[if j = ring.length - 1 then 0 else j + 1] = side j := by
        rw [hside]; simp only; rw [getD_eq _ _ hj, getD_eq _ _ hn]
      rw [e]
      split
      · rename_i hgt
        refine ⟨j, hj, rfl, le_refl _, ?_⟩
        intro k hk
        by_cases hkj : k = j
        · rw [hkj]
        · exact le_trans (h3 k (by omega)) hgt.le
      · rename_i hgt
        refine ⟨i, hi, h1, h2, ?_⟩
        intro k hk
        by_cases hkj : k = j
        · rw [hkj]; exact not_lt.1 hgt
        · exact h3 k (by omega)) (s := (2 * lo, (0 : K))) ⟨0, hpos, rfl, distance_nonneg hl _ _, by simp⟩
  obtain ⟨s1, s2⟩ := s
  simp only at hs1 hs2 hs3
  subst hs1
  refine ⟨lo, i, s2, rfl, hi, hs, ?_⟩
  intro k hk
  exact distance_le hl (le_trans (hs3 k hk) hs2)

/-- A point of an end turned around the axis is on the arch. -/
theorem turned_end {lib : Library K} (hl : Standard lib) (epsilon : K) (heps : 0 ≤ epsilon) (height bottom : K) (e : Vec K) (he : e.x * e.x + e.y * e.y = 1)
    (b c : Vec K) (w : K) (hw : 2 * epsilon < w) (hx : b.x - c.x = -(w * e.x)) (hy : b.y - c.y = -(w * e.y)) (j : Nat) (t : K) (ht : t = (j : K) / 7) :
    restore height bottom (lib.turn ⟨-e.y, 0, e.x⟩ t (Solids.normalized lib.sqrt epsilon (minus (above bottom b) (middle (above bottom b) (above bottom c)))))
      (distance3d lib (above bottom b) (middle (above bottom b) (above bottom c))) (middle (above bottom b) (above bottom c)) = arch lib bottom height b c j := by
  have hb : b.x = c.x - w * e.x := by linear_combination hx
  have hb' : b.y = c.y - w * e.y := by linear_combination hy
  have hw0 : 0 < w := by linarith
  have hlen : lib.sqrt ((minus (above bottom b) (middle (above bottom b) (above bottom c))).x * (minus (above bottom b) (middle (above bottom b) (above bottom c))).x +
      (minus (above bottom b) (middle (above bottom b) (above bottom c))).y * (minus (above bottom b) (middle (above bottom b) (above bottom c))).y +
      (minus (above bottom b) (middle (above bottom b) (above bottom c))).z * (minus (above bottom b) (middle (above bottom b) (above bottom c))).z) = w / 2 := by
    refine sqrt_unique hl (by linarith) ?_
    simp only [minus, middle, above, hb, hb']
    linear_combination (w * w / 4) * he
  have hrot : Solids.normalized lib.sqrt epsilon (minus (above bottom b) (middle (above bottom b) (above bottom c))) = ⟨-e.x, 0, -e.y⟩ := by
    unfold Solids.normalized
    simp only
    rw [hlen, if_pos (by linarith)]
    simp only [minus, middle, above, hb, hb', Vec3.mk.injEq]
    refine ⟨?_, ?_, ?_⟩ <;> field_simp <;> ring
  have hrad : distance3d lib (above bottom b) (middle (above bottom b) (above bottom c)) = w / 2 := hlen
  rw [hrot, hrad, hl.turn _ _ _ (by simp only [dot]; linear_combination he) (by simp only [dot]; ring), ht]
  simp only [restore, arch, between, middle, above, hb, hb', Vec3.mk.injEq]
  refine ⟨by ring, ?_, by ring⟩
  linear_combination (height * lib.sin (lib.pi * ((j : K) / 7))) * he

theorem roundShape_eq {lib : Library K} (hl : Standard lib) (epsilon : K) (heps : 0 ≤ epsilon) (look : Look K) (height bottom : K) (a b c d : Vec K)
    (h : ParallelEnds epsilon a b c d) :
    (roundShape lib epsilon height bottom (above bottom a) (above bottom b) (above bottom c) (above bottom d)).map (faceOf look) = vault lib look bottom height a b c d := by
  obtain ⟨h1, h2, k, hk, hx, hy⟩ := h
  obtain ⟨l0, l1⟩ := hl.sqrt _ (square_nonneg a d)
  set L := lib.sqrt (square a d) with hL
  have hLpos : 2 * epsilon < L := by nlinarith
  have hL0 : 0 < L := by linarith
  set e : Vec K := ⟨(d.x - a.x) / L, (d.y - a.y) / L⟩ with he
  have hunit : e.x * e.x + e.y * e.y = 1 := by
    rw [he]; simp only
    field_simp
    unfold square at l1
    linear_combination - l1
  have hkL : 2 * epsilon < k * L := by
    have : square b c = k * k * square a d := by unfold square; rw [hx, hy]; ring
    rw [this, ← l1] at h2
    have hp : 0 < k * L := by positivity
    nlinarith
  have hdir : Solids.normalized lib.sqrt epsilon (minus (above bottom d) (above bottom a)) = ⟨e.x, 0, e.y⟩ := by
    unfold Solids.normalized
    have : (minus (above bottom d) (above bottom a)).x * (minus (above bottom d) (above bottom a)).x +
      (minus (above bottom d) (above bottom a)).y * (minus (above bottom d) (above bottom a)).y +
      (minus (above bottom d) (above bottom a)).z * (minus (above bottom d) (above bottom a)).z = square a d := by
      simp only [minus, above, square]; ring
    simp only
    rw [this, ← hL, if_pos (by linarith)]
    simp only [minus, above, sub_self, zero_div, he]
  have front := fun j t ht => turned_end hl epsilon heps height bottom e hunit a d L hLpos (by rw [he]; simp only; field_simp; ring)
    (by rw [he]; simp only; field_simp; ring) j t ht
  have back := fun j t ht => turned_end hl epsilon heps height bottom e hunit b c (k * L) hkL (by rw [hx, he]; simp only; field_simp; ring)
    (by rw [hy, he]; simp only; field_simp; ring) j t ht
  unfold roundShape vault
  simp only [hdir]
  rw [List.map_map, List.map_flatMap]
  congr 1
  funext j
  have e1 : ((j : K) + 1) / 7 = ((j + 1 : Nat) : K) / 7 := by push_cast; ring
  simp only [roundSegment, List.map_cons, List.map_nil]
  rw [front j _ rfl, front (j + 1) _ e1, back j _ rfl, back (j + 1) _ e1]
  have m1 : middle (above bottom a) (above bottom d) = above bottom (between a d) := by simp only [middle, above, between, Vec3.mk.injEq]; exact ⟨trivial, by ring, trivial⟩
  have m2 : middle (above bottom b) (above bottom c) = above bottom (between b c) := by simp only [middle, above, between, Vec3.mk.injEq]; exact ⟨trivial, by ring, trivial⟩
  rw [m1, m2]
  rfl

omit [IsStrictOrderedRing K] in
/-- A loop which adds some triangles in each step. -/
theorem Drawn.foldEx {β γ : Type} {t : Texture} {done : List (Triangle K × Texture)} (step : Mesh K → β → Outcome (Mesh K)) (R : γ → β → Prop)
    (G : γ → List (Triangle K) → Prop)
    (hstep : ∀ c b, R c b → ∀ m ts, Drawn t done m ts → ∃ m' new, step m b = .ok m' ∧ Drawn t done m' (ts ++ new) ∧ G c new) {l : List β} {k : List γ}
    (hl : List.Forall₂ R k l) {m : Mesh K} {ts : List (Triangle K)} (h : Drawn t done m ts) :
    ∃ m' news, foldO step m l = .ok m' ∧ Drawn t done m' (ts ++ news.flatten) ∧ List.Forall₂ G k news := by
  induction hl generalizing m ts with
  | nil => exact ⟨m, [], rfl, by simpa using h, .nil⟩
  | @cons c b k l hr _ ih =>
    obtain ⟨m1, new, h1, g1, r1⟩ := hstep c b hr m ts h
    obtain ⟨m2, news, h2, g2, r2⟩ := ih g1
    exact ⟨m2, new :: news, by simp only [foldO, h1, Outcome.bind, h2], by rwa [List.flatten_cons, ← List.append_assoc], .cons r1 r2⟩

theorem forall₂_and {β γ : Type} {R : γ → β → Prop} {P : γ → Prop} {k : List γ} {l : List β} (h : List.Forall₂ R k l) (hp : ∀ c ∈ k, P c) :
    List.Forall₂ (fun c b => R c b ∧ P c) k l := by
  induction h with
  | nil => exact .nil
  | cons hr _ ih => exact .cons ⟨hr, hp _ (List.mem_cons_self ..)⟩ (ih fun c hc => hp c (List.mem_cons_of_mem _ hc))

/-- The corners which are used: four in a row from the beginning of a longest side. -/
def Corners (ring : List (Vec K)) (q0 q1 q2 q3 : Vec K) : Prop :=
  ∃ i, i < ring.length ∧ q0 = ring.getD i ⟨0, 0⟩ ∧ q1 = ring.getD ((i + 1) % ring.length) ⟨0, 0⟩ ∧ q2 = ring.getD ((i + 2) % ring.length) ⟨0, 0⟩ ∧
    q3 = ring.getD ((i + 3) % ring.length) ⟨0, 0⟩ ∧ ∀ k < ring.length, square (ring.getD k ⟨0, 0⟩) (ring.getD ((k + 1) % ring.length) ⟨0, 0⟩) ≤ square q0 q1

theorem next_mod {k n : Nat} (h : k < n) : (if k = n - 1 then 0 else k + 1) = (k + 1) % n := by
  split
  · rw [show k + 1 = n by omega, Nat.mod_self]
  · rw [Nat.mod_eq_of_lt (by omega)]

theorem roundRange_shape {lib : Library K} (hl : Standard lib) (epsilon : K) (look : Look K) (across : Bool) (height bottom : K) (p : Poly K)
    (ring : List (Vec K)) (range : Nat × Nat) (hst : Stored p ring range) (hne : ring ≠ []) (m : Mesh K) :
    ∃ q0 q1 q2 q3, Corners ring q0 q1 q2 q3 ∧ roundRange lib epsilon look across height bottom p m range =
      .ok ((if across then roundShape lib epsilon height bottom (above bottom q1) (above bottom q2) (above bottom q3) (above bottom q0)
        else roundShape lib epsilon height bottom (above bottom q0) (above bottom q1) (above bottom q2) (above bottom q3)).foldl (addFacet look) m) := by
  obtain ⟨lo, i, len, hrange, hi, hside, hmax⟩ := longestSide_eq hl p _ range hst hne
  obtain ⟨lo', hrange', -, -, hp⟩ := hst
  obtain rfl : lo = lo' := by rw [hrange] at hrange'; simp only [Prod.mk.injEq] at hrange'; omega
  subst hrange
  have hpos : 0 < ring.length := by omega
  have hat : ∀ (j : Nat), j < ring.length → pointAbove p bottom (2 * (lo + j)) = .ok (above bottom (ring.getD j ⟨0, 0⟩)) := by
    intro j hj
    rw [pointAbove, pointAt_eq hp (j := j) hj (by push_cast; ring), getD_eq _ _ hj]
    rfl
  have hnext : ∀ j < ring.length, Roofs.nextIndex (2 * (lo + j)) (2 * lo) (2 * (lo + ring.length) - 2) = 2 * (lo + (j + 1) % ring.length) := by
    intro j hj
    rw [← next_mod hj]
    unfold Roofs.nextIndex
    split <;> split <;> omega
  have m1 := Nat.mod_lt (i + 1) hpos
  have m2 := Nat.mod_lt (i + 2) hpos
  have m3 := Nat.mod_lt (i + 3) hpos
  have e2 : ((i + 1) % ring.length + 1) % ring.length = (i + 2) % ring.length := by rw [Nat.mod_add_mod]
  have e3 : ((i + 2) % ring.length + 1) % ring.length = (i + 3) % ring.length := by rw [Nat.mod_add_mod]
  refine ⟨_, _, _, _, ⟨i, hi, rfl, rfl, rfl, rfl, ?_⟩, ?_⟩
  · intro k hk
    have := hmax k hk
    rwa [next_mod hk, next_mod hi] at this
  · unfold roundRange
    simp only [hside, bind_okl]
    rw [hnext i hi, hnext _ m1, e2, hnext _ m2, e3, hat i hi, hat _ m1, hat _ m2, hat _ m3]
    rfl

theorem roundRange_drawn {lib : Library K} (hl : Standard lib) (epsilon : K) (heps : 0 ≤ epsilon) (look : Look K) (across : Bool) (height bottom : K) (p : Poly K)
    (ring : List (Vec K)) (range : Nat × Nat) (hst : Stored p ring range) (hv : Vaultable epsilon across ring) (m : Mesh K) {t : Texture}
    {done : List (Triangle K × Texture)} (ts : List (Triangle K)) (h : Drawn t done m ts) :
    ∃ m' new, roundRange lib epsilon look across height bottom p m range = .ok m' ∧ Drawn t done m' (ts ++ new) ∧
      ∃ a b c d, Ridge ring across a b c d ∧ new = vault lib look bottom height a b c d := by
  obtain ⟨hlen, hpar⟩ := hv
  have hne : ring ≠ [] := by rintro rfl; simp at hlen
  obtain ⟨q0, q1, q2, q3, ⟨i, hi, h0, h1, h2, h3, hmax⟩, hr⟩ := roundRange_shape hl epsilon look across height bottom p ring range hst hne m
  rw [hlen] at h1 h2 h3 hmax hi
  have hrot : ring ~r [q0, q1, q2, q3] := by
    refine ⟨i, ?_⟩
    rw [h0, h1, h2, h3]
    apply List.ext_getElem
    · simpa using hlen
    · intro j hj1 hj2
      have hj : j < 4 := by simpa using hj2
      rw [List.getElem_rotate]
      simp only [hlen]
      rw [← getD_eq _ ⟨0, 0⟩]
      interval_cases j
      · simp [Nat.mod_eq_of_lt hi]
      · simp [Nat.add_comm]
      · simp [Nat.add_comm]
      · simp [Nat.add_comm]
  have s1 : square q1 q2 ≤ square q0 q1 := by
    have := hmax ((i + 1) % 4) (Nat.mod_lt _ (by omega))
    rwa [Nat.mod_add_mod, ← h1, ← h2] at this
  have s2 : square q2 q3 ≤ square q0 q1 := by
    have := hmax ((i + 2) % 4) (Nat.mod_lt _ (by omega))
    rwa [Nat.mod_add_mod, ← h2, ← h3] at this
  have s3 : square q3 q0 ≤ square q0 q1 := by
    have := hmax ((i + 3) % 4) (Nat.mod_lt _ (by omega))
    rwa [Nat.mod_add_mod, ← h3, show (i + 3 + 1) % 4 = i by omega, ← h0] at this
  refine ⟨_, _, hr, Drawn.facets look _ h, ?_⟩
  cases across with
  | true =>
    have hr : Ridge ring true q1 q2 q3 q0 := by
      refine ⟨hrot.trans ⟨1, rfl⟩, ?_⟩
      simp only [if_true]
      exact ⟨s1, s2, s3⟩
    refine ⟨q1, q2, q3, q0, hr, ?_⟩
    rw [if_pos rfl, roundShape_eq hl epsilon heps look height bottom _ _ _ _ (hpar _ _ _ _ hr)]
  | false =>
    have hr : Ridge ring false q0 q1 q2 q3 := by
      refine ⟨hrot, ?_⟩
      simp only [Bool.false_eq_true, if_false]
      exact ⟨s1, s2, s3⟩
    refine ⟨q0, q1, q2, q3, hr, ?_⟩
    rw [if_neg (by simp), roundShape_eq hl epsilon heps look height bottom _ _ _ _ (hpar _ _ _ _ hr)]

theorem roundRoof_draws {lib : Library K} (hl : Standard lib) (env : Env K) (heps : 0 ≤ env.epsilon) (look : Look K) (direction : String) (height bottom : K) (p : Poly K)
    (outs : List (List (Vec K))) (ho : List.Forall₂ (Stored p) outs p.outers) (hi : p.inners = [])
    (hv : ∀ ring ∈ outs, Vaultable env.epsilon (decide (direction = "across")) ring) :
    Draws look.texture (roundRoof lib env look direction height bottom p) (RoundFaces lib look (decide (direction = "across")) bottom height outs) := by
  intro m done ts h
  obtain ⟨m1, news, h1, g1, r1⟩ := Drawn.foldEx (roundRange lib env.epsilon look (decide (direction = "across")) height bottom p) _
    (fun ring new => ∃ a b c d, Ridge ring (decide (direction = "across")) a b c d ∧ new = vault lib look bottom height a b c d)
    (fun ring range hr m ts h => roundRange_drawn hl env.epsilon heps look _ height bottom p ring range hr.1 hr.2 m ts h) (forall₂_and ho hv) h
  obtain ⟨m2, h2, g2⟩ := g1.textured
  refine ⟨m2, news.flatten, ?_, g2, news, r1, rfl⟩
  rw [← h2]
  unfold roundRoof
  rw [hi]
  have e : (direction == "across") = decide (direction = "across") := by
    by_cases hd : direction = "across" <;> simp [hd]
  simp only [List.isEmpty_nil, if_true, e]
  rw [h1]
  rfl

theorem roundRoof_any {lib : Library K} (hl : Standard lib) (env : Env K) (look : Look K) (direction : String) (height bottom : K) (p : Poly K)
    (outs : List (List (Vec K))) (ho : List.Forall₂ (Stored p) outs p.outers) (hi : p.inners = []) (hne : ∀ ring ∈ outs, ring ≠ []) :
    Draws look.texture (roundRoof lib env look direction height bottom p) (fun ts => ∃ news, ts = news.flatten ∧
      List.Forall₂ (fun ring new => ∃ q0 q1 q2 q3, Corners ring q0 q1 q2 q3 ∧ new = (if direction == "across" then
          roundShape lib env.epsilon height bottom (above bottom q1) (above bottom q2) (above bottom q3) (above bottom q0)
        else roundShape lib env.epsilon height bottom (above bottom q0) (above bottom q1) (above bottom q2) (above bottom q3)).map (faceOf look)) outs news) := by
  intro m done ts h
  obtain ⟨m1, news, h1, g1, r1⟩ := Drawn.foldEx (roundRange lib env.epsilon look (direction == "across") height bottom p) _
    (fun ring new => ∃ q0 q1 q2 q3, Corners ring q0 q1 q2 q3 ∧ new = (if direction == "across" then
          roundShape lib env.epsilon height bottom (above bottom q1) (above bottom q2) (above bottom q3) (above bottom q0)
        else roundShape lib env.epsilon height bottom (above bottom q0) (above bottom q1) (above bottom q2) (above bottom q3)).map (faceOf look))
    (fun ring range hr m ts h => by
      obtain ⟨q0, q1, q2, q3, hc, hr⟩ := roundRange_shape hl env.epsilon look (direction == "across") height bottom p ring range hr.1 hr.2 m
      exact ⟨_, _, hr, Drawn.facets look _ h, q0, q1, q2, q3, hc, rfl⟩) (forall₂_and ho hne) h
  obtain ⟨m2, h2, g2⟩ := g1.textured
  refine ⟨m2, news.flatten, ?_, g2, news, rfl, r1⟩
  rw [← h2]
  unfold roundRoof
  rw [hi]
  simp only [List.isEmpty_nil, if_true]
  rw [h1]
  rfl

/-- A part with flat walls is drawn with any roof. -/
theorem part_with_roof (env : Env K) (part : BuildingSpec.Part K) (id : UInt64) (m : Mesh K) (done : List (Triangle K × Texture)) (hm : Built m) (hs : Paints m done [])
    (start : Geo K) (hd : Drawable env part start) (roof : Face K)
    (R : TriangleIo K → List (List (Vec K)) → List (List (Vec K)) → K → List (Triangle K) → Prop) (hr : roofOf env part.style.roofType = some roof)
    (hR : ∀ p holes, polygonOf env part = .ok p →
      List.Forall₂ (Stored p) ((part.rings.filter fun r => !r.2).map fun r => opened env.epsilon r.1) p.outers → List.Forall₂ (Stored p) holes p.inners →
      holes.Sublist ((part.rings.filter fun r => r.2).map fun r => opened env.epsilon r.1) →
      Draws (part.style.roofLook id).texture (roof (part.style.roofLook id) part.style.roofDirection part.style.roofHeight
        (env.elevation start + (if part.style.height = 0 then 10 else part.style.height)) p)
        (R (env.triangulate p) ((part.rings.filter fun r => !r.2).map fun r => opened env.epsilon r.1) holes
          (env.elevation start + (if part.style.height = 0 then 10 else part.style.height))))
    (hfacade : part.style.facadeType = "flat") : DrawnWith env part id m done start R := by
  obtain ⟨⟨ring, rest, hf⟩, hrings, htri⟩ := hd
  obtain ⟨p, holes, hp, ho, hk, hi, -⟩ := C45_closed_partial env.epsilon env.huge env.tiny part.rings (by
    intro r hr hc; exact hrings r hr (by rw [hc]; rfl))
  have hfirst := first_point env part p hp start ring rest hf hrings
  obtain ⟨m', top, floor, walls, h1, h2, h3, h4, h5, rfl⟩ := part_drawn env part id m done hm hs p hp start hfirst (htri p hp) roof _ _ _ hr
    (by simp only [facadeOf, hfacade, if_true]; rfl) (hR p holes hp ho hi hk) (flatFacade_draws _ _ _ _ p _ holes ho hi)
  refine ⟨p, holes, m', top, floor, hp, ho, hi, hk, h1, h2, ?_, h4, h5⟩
  rw [show env.elevation start + part.style.minHeight + ((if part.style.height = 0 then 10 else part.style.height) - part.style.minHeight) =
    env.elevation start + (if part.style.height = 0 then 10 else part.style.height) by ring] at h3
  exact h3

/-- A border from sums over edges. -/
theorem border_of_esum {V : Type} [DecidableEq V] (ts : List (V × V × V)) (border : List (V × V))
    (h : ∀ f : V → V → Int, (∀ a b, f a b = - f b a) → SolidsProof.esum f ts = ClosedProof.total f border) : HasBorder ts border := by
  intro a b
  have := h (ClosedProof.counter a b) (ClosedProof.counter_swap a b)
  have gen : ∀ l : List (V × V), (l.map fun e => ClosedProof.counter a b e.1 e.2).sum = (l.count (a, b) : Int) - l.count (b, a) := by
    intro l
    induction l with
    | nil => rfl
    | cons e l ih =>
      rw [List.map_cons, List.sum_cons, ih, List.count_cons, List.count_cons]
      obtain ⟨x, y⟩ := e
      simp only [beq_iff_eq, ClosedProof.counter, Prod.mk.injEq]
      push_cast
      split <;> split <;> simp <;> ring
  unfold SolidsProof.esum ClosedProof.total at this
  rw [gen, gen] at this
  omega

theorem arch_first {lib : Library K} (hl : Standard lib) (bottom height : K) (a d : Vec K) : arch lib bottom height a d 0 = above bottom a := by
  simp only [arch, Nat.cast_zero, zero_div, mul_zero, hl.zero.1, hl.zero.2, above, between, Vec3.mk.injEq]
  refine ⟨by ring, by ring, by ring⟩

theorem arch_last {lib : Library K} (hl : Standard lib) (bottom height : K) (a d : Vec K) : arch lib bottom height a d 7 = above bottom d := by
  have : lib.pi * (((7 : Nat) : K) / 7) = lib.pi := by norm_num
  simp only [arch, this, hl.half.1, hl.half.2, above, between, Vec3.mk.injEq]
  refine ⟨by ring, by ring, by ring⟩

end RoofsProof

open RoofsProof
variable {K : Type} [Field K] [LinearOrder K] [IsStrictOrderedRing K]

/-- C86: a part with a round roof, without holes, whose outlines have four corners and parallel ends, is drawn with a vault over each outline: from
the half ellipse over one end to that over the other in seven steps, from the top of the walls to the height of the roof above. Its sides are a longest side of
the outline and the opposite one, or (`across`) its ends are. Partial: square roots, sine, cosine and the rotation are exact. -/
theorem C86_round_partial (lib : Library K) (hl : Standard lib) (env : Env K) (heps : 0 ≤ env.epsilon) (part : BuildingSpec.Part K) (id : UInt64) (m : Mesh K)
    (done : List (Triangle K × Texture)) (hm : Built m) (hs : Paints m done []) (start : Geo K) (hd : Drawable (complete lib env) part start)
    (hroof : part.style.roofType = "round") (hfacade : part.style.facadeType = "flat") (hholes : ∀ r ∈ part.rings, r.2 = false)
    (hv : ∀ r ∈ part.rings, Vaultable env.epsilon (decide (part.style.roofDirection = "across")) (opened env.epsilon r.1)) :
    DrawnWith (complete lib env) part id m done start fun _ outlines holes top roof => holes = [] ∧
      RoundFaces lib (part.style.roofLook id) (decide (part.style.roofDirection = "across")) top part.style.roofHeight outlines roof := by
  refine part_with_roof _ part id m done hm hs start hd (roundRoof lib env) _ (by simp [roofOf, hroof, complete, otherRoof]) ?_ hfacade
  intro p holes hp ho hi hk
  have hnone : part.rings.filter (fun r => r.2) = [] := by rw [List.filter_eq_nil_iff]; intro r hr; simp [hholes r hr]
  rw [hnone] at hk
  obtain rfl : holes = [] := by simpa using hk
  have hin : p.inners = [] := List.forall₂_nil_left_iff.1 hi
  intro m done ts h
  obtain ⟨m', new, h1, h2, h3⟩ := roundRoof_draws hl env heps (part.style.roofLook id) part.style.roofDirection part.style.roofHeight _ p _ ho hin (by
    intro ring hr
    simp only [List.mem_map, List.mem_filter] at hr
    obtain ⟨r, ⟨hr, -⟩, rfl⟩ := hr
    exact hv r hr) m done ts h
  exact ⟨m', new, h1, h2, rfl, h3⟩

/-- C86: above an outline with a hole the roof is flat. -/
theorem C86_holes_partial (lib : Library K) (hl : Standard lib) (env : Env K) (part : BuildingSpec.Part K) (id : UInt64) (m : Mesh K) (done : List (Triangle K × Texture))
    (hm : Built m) (hs : Paints m done []) (start : Geo K) (hd : Drawable (complete lib env) part start) (hroof : part.style.roofType = "round")
    (hfacade : part.style.facadeType = "flat") :
    DrawnWith (complete lib env) part id m done start fun io _ holes top roof => holes ≠ [] → FlatFaces (part.style.roofLook id) top false io roof := by
  refine part_with_roof _ part id m done hm hs start hd (roundRoof lib env) _ (by simp [roofOf, hroof, complete, otherRoof]) ?_ hfacade
  intro p holes hp ho hi _ m done ts h
  by_cases hin : p.inners = []
  · obtain ⟨m', new, h1, h2, -⟩ := roundRoof_any hl env (part.style.roofLook id) part.style.roofDirection part.style.roofHeight _ p _ ho hin (by
      intro ring hr
      simp only [List.mem_map, List.mem_filter] at hr
      obtain ⟨r, ⟨hr, -⟩, rfl⟩ := hr
      exact hd.rings r hr) m done ts h
    rw [hin] at hi
    exact ⟨m', new, h1, h2, fun hc => absurd (List.forall₂_nil_right_iff.1 hi) hc⟩
  · obtain ⟨m', new, h1, h2, h3⟩ := flatRoof_draws env.triangulate false _ (part.style.roofLook id) _ p (hd.library p hp) m done ts h
    refine ⟨m', new, ?_, h2, fun _ => h3⟩
    unfold roundRoof
    rw [if_neg (by simpa using hin)]
    exact h1

/-- C86: the points of an arch are on a half ellipse which begins and ends at the corners. -/
theorem C86_arch (lib : Library K) (hl : Standard lib) (bottom height : K) (a d : Vec K) :
    arch lib bottom height a d 0 = above bottom a ∧ arch lib bottom height a d 7 = above bottom d ∧
      ∀ j, let q := arch lib bottom height a d j
        4 * square ⟨q.x, q.z⟩ (between a d) * (height * height) + (q.y - bottom) * (q.y - bottom) * square a d = square a d * (height * height) := by
  refine ⟨arch_first hl bottom height a d, arch_last hl bottom height a d, fun j => ?_⟩
  have := hl.circle (lib.pi * ((j : K) / 7))
  simp only [arch, square, between]
  linear_combination (height * height * ((a.x - d.x) * (a.x - d.x) + (a.y - d.y) * (a.y - d.y))) * this

/-- C86: there are no gaps in a vault: its border are the edges of the outline at the top of the walls, and the ends are divided in the middle. -/
theorem C86_border (lib : Library K) (hl : Standard lib) (look : Look K) (bottom height : K) (a b c d : Vec K) :
    HasBorder ((vault lib look bottom height a b c d).map place) (dividedEdges bottom a b c d) := by
  apply border_of_esum
  intro f hf
  have f0 := arch_first hl bottom height a d
  have f7 := arch_last hl bottom height a d
  have b0 := arch_first hl bottom height b c
  have b7 := arch_last hl bottom height b c
  unfold vault
  simp only [List.map_flatMap, SolidsProof.esum_flatMap, List.map_cons, List.map_nil, place, facet, SolidsProof.esum_cons, SolidsProof.esum_nil]
  generalize arch lib bottom height a d = fr at f0 f7
  generalize arch lib bottom height b c = bk at b0 b7
  simp only [dividedEdges]
  rw [← f0, ← f7, ← b0, ← b7]
  generalize above bottom (between a d) = F
  generalize above bottom (between b c) = B
  have one : ∀ j : Nat, f F (fr (j + 1)) + f (fr (j + 1)) (fr j) + f (fr j) F + (f B (bk j) + f (bk j) (bk (j + 1)) + f (bk (j + 1)) B +
      (f (fr j) (bk (j + 1)) + f (bk (j + 1)) (bk j) + f (bk j) (fr j) + (f (fr (j + 1)) (bk (j + 1)) + f (bk (j + 1)) (fr j) + f (fr j) (fr (j + 1)) + 0))) =
      (f F (fr (j + 1)) - f F (fr j)) + (f B (bk j) - f B (bk (j + 1))) + (f (fr (j + 1)) (bk (j + 1)) - f (fr j) (bk j)) := by
    intro j
    have e1 := hf (fr (j + 1)) (fr j)
    have e2 := hf (fr j) F
    have e3 := hf (bk (j + 1)) (bk j)
    have e4 := hf (bk (j + 1)) B
    have e5 := hf (bk (j + 1)) (fr j)
    have e6 := hf (bk j) (fr j)
    linarith
  simp only [one]
  simp only [List.range_succ, List.range_zero, List.nil_append, List.cons_append, List.map_cons, List.map_nil, List.sum_cons, List.sum_nil, Nat.reduceAdd,
    ClosedProof.total]
  have e1 := hf (fr 0) F
  have e2 := hf (bk 7) B
  have e3 := hf (bk 0) (fr 0)
  linarith

/-! ## The libraries -/

namespace RoofsProof
open Verif.Quaternion (Quat fromAngleAxis slerp)

/-- The interpolation between no turn and half a turn is a part of half a turn. -/
theorem slerp_eq (a : Quaternion.Vec3 ℝ) (t : ℝ) :
    slerp (fun y x => Complex.arg ⟨x, y⟩) (fromAngleAxis (Real.sin (0 * (1 / 2))) (Real.cos (0 * (1 / 2))) a)
      (fromAngleAxis (Real.sin (-Real.pi * (1 / 2))) (Real.cos (-Real.pi * (1 / 2))) a) t =
    fromAngleAxis (-Real.sin (t * (Real.pi / 2))) (Real.cos (t * (Real.pi / 2))) a := by
  have h1 : Real.sin (-Real.pi * (1 / 2)) = -1 := by rw [show -Real.pi * (1 / 2) = -(Real.pi / 2) by ring, Real.sin_neg, Real.sin_pi_div_two]
  have h2 : Real.cos (-Real.pi * (1 / 2)) = 0 := by rw [show -Real.pi * (1 / 2) = -(Real.pi / 2) by ring, Real.cos_neg, Real.cos_pi_div_two]
  have h3 : Complex.arg ⟨0, 1⟩ = Real.pi / 2 := Complex.arg_I
  have h4 : Real.sin ((1 - t) * (Real.pi / 2)) = Real.cos (t * (Real.pi / 2)) := by
    rw [show (1 - t) * (Real.pi / 2) = Real.pi / 2 - t * (Real.pi / 2) by ring, Real.sin_pi_div_two_sub]
  unfold slerp
  simp only [h1, h2, fromAngleAxis, zero_mul, Real.sin_zero, Real.cos_zero, mul_zero, add_zero, lt_irrefl, if_false, sub_zero, Real.sqrt_one, h3, h4, neg_zero]
  rw [if_neg (by norm_num)]
  simp only [Quat.mk.injEq]
  refine ⟨by ring, by ring, by ring, by ring⟩

end RoofsProof

/-- C86: the assumptions about the libraries hold over the real numbers, with the interpolation of quaternions of the code. -/
theorem C86_library (parseDouble : String → ℝ) (distance : Geo ℝ → Geo ℝ → ℝ) (offset : Terrain.Path → ℝ → List Terrain.Path) :
    Standard (realLibrary parseDouble distance offset) where
  sqrt x hx := ⟨Real.sqrt_nonneg x, Real.mul_self_sqrt hx⟩
  circle x := by have := Real.sin_sq_add_cos_sq x; simp only [realLibrary]; nlinarith
  zero := ⟨Real.sin_zero, Real.cos_zero⟩
  half := ⟨Real.sin_pi, Real.cos_pi⟩
  ceil x := ⟨by have := Int.ceil_lt_add_one x; simp only [realLibrary]; linarith, Int.le_ceil x⟩
  turn a v t ha hv := by
    have key := (C54_angle (-Real.sin (t * (Real.pi / 2))) (Real.cos (t * (Real.pi / 2))) (by have := Real.sin_sq_add_cos_sq (t * (Real.pi / 2)); nlinarith)
      ⟨a.x, a.y, a.z⟩ ⟨v.x, v.y, v.z⟩ (by simp only [dot] at ha; simp only [QuaternionSpec.lengthSq]; linear_combination ha)
      (by simp only [dot] at hv; simp only [Quaternion.Vec3.dot]; linear_combination hv)).2
    have c : Real.cos (Real.pi * t) = Real.cos (t * (Real.pi / 2)) ^ 2 - Real.sin (t * (Real.pi / 2)) ^ 2 := by
      rw [show Real.pi * t = 2 * (t * (Real.pi / 2)) by ring, Real.cos_two_mul']
    have s : Real.sin (Real.pi * t) = 2 * Real.sin (t * (Real.pi / 2)) * Real.cos (t * (Real.pi / 2)) := by
      rw [show Real.pi * t = 2 * (t * (Real.pi / 2)) by ring, Real.sin_two_mul]
    simp only [realLibrary, realTurn]
    rw [slerp_eq, key, c, s]
    simp only [Quaternion.Vec3.add, Quaternion.Vec3.scale, Quaternion.Vec3.cross, Vec3.mk.injEq]
    refine ⟨by ring, by ring, by ring⟩

/-! ## Examples -/

namespace RoofsProof

/-- A look without texture. -/
noncomputable def realLook : Look ℝ := ⟨fun _ => 1, fun p => p, fun _ => 2, fun _ _ h => (1, h), fun _ => 3, fun h => h, ⟨0, 0, 0, 0, 0, 0, 0⟩⟩

/-- A house of 4 to 3 meters, on pillars of 2 meters, on a hill of 100 meters. -/
noncomputable def realHouse (roof direction : String) : Style ℝ := ⟨true, false, 12, 2, roof, 5, direction, "flat", fun _ => realLook, fun _ => realLook⟩

/-- The triangle library returns two triangles. -/
noncomputable def realWorld (roof direction : String) : Env ℝ := ⟨1 / 1000, 1000, 1 / 1000, fun _ => realHouse roof direction, fun _ => 100,
  fun _ => ⟨[⟨0, 0⟩, ⟨4, 0⟩, ⟨4, 3⟩, ⟨0, 3⟩], [(0, 1, 2), (2, 3, 0)]⟩, fun _ => none, fun _ => none⟩

/-- The footprint, counterclockwise. -/
noncomputable def realRing : List (Vec ℝ) := [⟨0, 0⟩, ⟨4, 0⟩, ⟨4, 3⟩, ⟨0, 3⟩]

theorem realRing_opened (epsilon : ℝ) (h : epsilon = 1 / 1000) : opened epsilon realRing = realRing := by
  subst h
  unfold opened realRing
  norm_num

theorem realHouse_drawable (lib : Library ℝ) (roof direction : String) :
    Drawable (complete lib (realWorld roof direction)) ⟨realHouse roof direction, [(realRing, false)]⟩ ⟨0, 0⟩ := by
  refine ⟨⟨_, [], rfl⟩, ?_, ?_⟩
  · intro r hr
    simp only [List.mem_singleton] at hr
    subst hr
    rw [show opened (complete lib (realWorld roof direction)).epsilon realRing = realRing from realRing_opened _ rfl]
    simp [realRing]
  · intro p _
    show ∀ t ∈ [((0 : Int), (1 : Int), (2 : Int)), (2, 3, 0)], ∀ c ∈ [t.1, t.2.1, t.2.2], 0 ≤ c ∧ c < 4
    decide +kernel

theorem rotations {β : Type} {r0 r1 r2 r3 a b c d : β} (h : [r0, r1, r2, r3] ~r [a, b, c, d]) :
    (a = r0 ∧ b = r1 ∧ c = r2 ∧ d = r3) ∨ (a = r1 ∧ b = r2 ∧ c = r3 ∧ d = r0) ∨ (a = r2 ∧ b = r3 ∧ c = r0 ∧ d = r1) ∨ (a = r3 ∧ b = r0 ∧ c = r1 ∧ d = r2) := by
  obtain ⟨n, hn, h⟩ := List.isRotated_iff_mod.1 h
  simp only [List.length_cons, List.length_nil] at hn
  have : n ≤ 4 := by omega
  interval_cases n <;> simp [List.rotate] at h <;> obtain ⟨rfl, rfl, rfl, rfl⟩ := h <;> simp

theorem realRing_vaultable (across : Bool) : Vaultable (1 / 1000) across realRing := by
  refine ⟨rfl, ?_⟩
  rintro a b c d ⟨hr, -⟩
  rcases rotations hr with ⟨rfl, rfl, rfl, rfl⟩ | ⟨rfl, rfl, rfl, rfl⟩ | ⟨rfl, rfl, rfl, rfl⟩ | ⟨rfl, rfl, rfl, rfl⟩ <;>
    refine ⟨by norm_num [square], by norm_num [square], 1, by norm_num, by norm_num, by norm_num⟩

end RoofsProof

/-- A house with a round roof, over the real numbers. -/
example (distance : Geo ℝ → Geo ℝ → ℝ) (direction : String) :
    DrawnWith (complete (realLibrary (fun _ => 0) distance fun _ _ => []) (realWorld "round" direction)) ⟨realHouse "round" direction, [(realRing, false)]⟩ 7 {} [] ⟨0, 0⟩
      fun _ outlines holes top roof => holes = [] ∧ RoundFaces (realLibrary (fun _ => 0) distance fun _ _ => []) realLook (decide (direction = "across")) top 5 outlines roof :=
  C86_round_partial _ (C86_library _ _ _) _ (by norm_num [realWorld]) _ 7 {} [] .empty ⟨[], [], [], ⟨rfl, by simp, by simp⟩, rfl, .nil, .nil⟩ _ (realHouse_drawable _ _ _) rfl rfl
    (by intro r hr; simp only [List.mem_singleton] at hr; subst hr; rfl)
    (by
      intro r hr
      simp only [List.mem_singleton] at hr
      subst hr
      rw [show opened (realWorld "round" direction).epsilon (realRing, false).1 = realRing from realRing_opened _ rfl]
      exact realRing_vaultable _)

/-- The vault above a square of 2 meters. -/
example (distance : Geo ℝ → Geo ℝ → ℝ) : HasBorder ((vault (realLibrary (fun _ => 0) distance fun _ _ => []) realLook 10 3 ⟨0, 0⟩ ⟨2, 0⟩ ⟨2, 2⟩ ⟨0, 2⟩).map place)
    [(⟨0, 10, 0⟩, ⟨0, 10, 1⟩), (⟨0, 10, 1⟩, ⟨0, 10, 2⟩), (⟨0, 10, 2⟩, ⟨2, 10, 2⟩), (⟨2, 10, 2⟩, ⟨2, 10, 1⟩), (⟨2, 10, 1⟩, ⟨2, 10, 0⟩), (⟨2, 10, 0⟩, ⟨0, 10, 0⟩)] := by
  have := C86_border (realLibrary (fun _ => 0) distance fun _ _ => []) (C86_library _ _ _) realLook 10 3 ⟨0, 0⟩ ⟨2, 0⟩ ⟨2, 2⟩ ⟨0, 2⟩
  simpa [dividedEdges, above, between] using this

/-! ## Violations -/

namespace RoofsProof

/-- A polygon of one ring. -/
theorem polygon_of_ring (epsilon huge tiny : K) (ring : List (Vec K)) (hne : ring ≠ []) (hopen : opened epsilon ring = ring) :
    ∃ p, Polygon.addAll epsilon huge tiny { rectangle := .empty huge tiny } [(ring, false)] = .ok p ∧ List.Forall₂ (Stored p) [ring] p.outers ∧ p.inners = [] := by
  obtain ⟨p, holes, hp, ho, hk, hi, -⟩ := C45_closed_partial epsilon huge tiny [(ring, false)] (by
    intro r hr hc; simp only [List.mem_singleton] at hr; subst hr; exact hne hc)
  simp only [List.filter, Bool.not_false, List.map_cons, List.map_nil, hopen] at ho hk
  obtain rfl : holes = [] := by simpa using hk
  exact ⟨p, hp, ho, List.forall₂_nil_left_iff.1 hi⟩

/-- A rotation by half a turn. -/
theorem realTurn_half (a v : Vec3 ℝ) (ha : dot a a = 1) : realTurn a 1 v = ⟨2 * dot a v * a.x - v.x, 2 * dot a v * a.y - v.y, 2 * dot a v * a.z - v.z⟩ := by
  unfold realTurn
  simp only
  rw [slerp_eq]
  have h1 : Real.sin (1 * (Real.pi / 2)) = 1 := by rw [one_mul, Real.sin_pi_div_two]
  have h2 : Real.cos (1 * (Real.pi / 2)) = 0 := by rw [one_mul, Real.cos_pi_div_two]
  simp only [dot] at ha
  have hn : (Quaternion.fromAngleAxis (-1) 0 (⟨a.x, a.y, a.z⟩ : Quaternion.Vec3 ℝ)).norm = 1 := by
    simp only [Quaternion.Quat.norm, Quaternion.fromAngleAxis]; linear_combination ha
  rw [h1, h2]
  simp only [Quaternion.Quat.apply, hn]
  simp only [Quaternion.fromAngleAxis, Quaternion.Vec3.scale, Vec3.mk.injEq, dot]
  refine ⟨?_, ?_, ?_⟩
  · linear_combination - v.x * ha
  · linear_combination - v.y * ha
  · linear_combination - v.z * ha

/-- A trapezoid. -/
noncomputable def trapezoid : List (Vec ℝ) := [⟨0, 0⟩, ⟨4, 0⟩, ⟨3, 1⟩, ⟨0, 1⟩]

/-- Five corners. -/
def pentagon : List (Vec K) := [⟨0, 0⟩, ⟨6, 0⟩, ⟨13 / 2, 1⟩, ⟨1, 2⟩, ⟨-1, 1⟩]

end RoofsProof

/-- C86: with more than four corners the roof does not cover the outline: only four corners are used. Here nothing is above the corner in the west. -/
theorem C86_violated_corners (lib : Library K) (hl : Standard lib) (env : Env K) (h0 : 0 ≤ env.epsilon) (h1 : 100 * env.epsilon < 1) (look : Look K) (height bottom : K)
    (p : Poly K) (ho : List.Forall₂ (Stored p) [pentagon] p.outers) (hi : p.inners = []) :
    Draws look.texture (roundRoof lib env look "" height bottom p) fun ts => ts ≠ [] ∧ ∀ t ∈ ts, ∀ v ∈ [t.1.position, t.2.1.position, t.2.2.position], 0 ≤ v.x := by
  intro m done ts h
  obtain ⟨m', new, g1, g2, news, rfl, hF⟩ := roundRoof_any hl env look "" height bottom p _ ho hi (by intro r hr; simp only [List.mem_singleton] at hr; subst hr; simp [pentagon]) m done ts h
  refine ⟨m', _, g1, g2, ?_⟩
  obtain ⟨new, rfl⟩ : ∃ new, news = [new] := by cases hF with | cons _ ht => cases ht; exact ⟨_, rfl⟩
  obtain ⟨q0, q1, q2, q3, ⟨i, hlt, e0, e1, e2, e3, hmax⟩, hn⟩ := (List.forall₂_cons.1 hF).1
  have hi0 : i = 0 := by
    have := hmax 0 (by simp [pentagon])
    simp only [pentagon, List.length_cons, List.length_nil, Nat.reduceAdd] at hlt
    rw [e0, e1] at this
    simp only [pentagon, List.length_cons, List.length_nil, Nat.reduceAdd] at this
    interval_cases i <;> first | rfl | (exfalso; norm_num [square] at this)
  subst hi0
  simp only [pentagon, List.length_cons, List.length_nil, Nat.reduceAdd, Nat.reduceMod, Nat.zero_add, List.getD_cons_zero, List.getD_cons_succ] at e0 e1 e2 e3
  subst e0 e1 e2 e3
  have he : env.epsilon * env.epsilon < 1 / 100 := by nlinarith
  rw [if_neg (by decide), roundShape_eq hl env.epsilon h0 look height bottom _ _ _ _ (by
    refine ⟨by norm_num [square]; linarith, by norm_num [square]; linarith, 1 / 2, by norm_num, by norm_num, by norm_num⟩)] at hn
  subst hn
  have hc : ∀ x, -1 ≤ lib.cos x ∧ lib.cos x ≤ 1 := by
    intro x
    have := hl.circle x
    constructor <;> nlinarith [mul_self_nonneg (lib.sin x)]
  have f1 : ∀ j, 0 ≤ (arch lib bottom height ⟨0, 0⟩ (⟨1, 2⟩ : Vec K) j).x := by
    intro j
    simp only [arch, between]
    have := hc (lib.pi * ((j : K) / 7))
    linarith
  have f2 : ∀ j, 0 ≤ (arch lib bottom height ⟨6, 0⟩ (⟨13 / 2, 1⟩ : Vec K) j).x := by
    intro j
    simp only [arch, between]
    have := hc (lib.pi * ((j : K) / 7))
    linarith
  simp only [List.flatten_cons, List.flatten_nil, List.append_nil]
  refine ⟨by simp [vault, List.range_succ], ?_⟩
  intro t ht v hv
  simp only [vault, List.mem_flatMap, List.mem_cons, List.not_mem_nil, or_false] at ht hv
  obtain ⟨j, -, ht⟩ := ht
  have c1 : (0 : K) ≤ (above bottom (between (⟨0, 0⟩ : Vec K) ⟨1, 2⟩)).x := by norm_num [above, between]
  have c2 : (0 : K) ≤ (above bottom (between (⟨6, 0⟩ : Vec K) ⟨13 / 2, 1⟩)).x := by norm_num [above, between]
  rcases ht with rfl | rfl | rfl | rfl <;> rcases hv with rfl | rfl | rfl <;> first | exact c1 | exact c2 | exact f1 _ | exact f2 _

/-- C86: above a trapezoid whose ends are not parallel the roof leaves the outline: all points of the outline are south-west of the line from `(4, 0)` to
`(0, 4)`, but the roof has a corner at `(4, 1)`. -/
theorem C86_violated_trapezoid (parseDouble : String → ℝ) (distance : Geo ℝ → Geo ℝ → ℝ) (offset : Terrain.Path → ℝ → List Terrain.Path) (env : Env ℝ)
    (h1 : 100 * env.epsilon < 1) (look : Look ℝ) (height bottom : ℝ) (p : Poly ℝ) (ho : List.Forall₂ (Stored p) [trapezoid] p.outers)
    (hi : p.inners = []) :
    (∀ v ∈ trapezoid, v.x + v.y ≤ 4) ∧ Draws look.texture (roundRoof (realLibrary parseDouble distance offset) env look "" height bottom p) fun ts =>
      ∃ t ∈ ts, t.2.1.position.x = 4 ∧ t.2.1.position.z = 1 := by
  have hl := C86_library parseDouble distance offset
  refine ⟨by simp only [trapezoid, List.mem_cons, List.not_mem_nil, or_false]; rintro v (rfl | rfl | rfl | rfl) <;> norm_num, ?_⟩
  intro m done ts h
  obtain ⟨m', new, g1, g2, news, rfl, hF⟩ := roundRoof_any hl env look "" height bottom p _ ho hi (by intro r hr; simp only [List.mem_singleton] at hr; subst hr; simp [trapezoid]) m done ts h
  refine ⟨m', _, g1, g2, ?_⟩
  obtain ⟨new, rfl⟩ : ∃ new, news = [new] := by cases hF with | cons _ ht => cases ht; exact ⟨_, rfl⟩
  obtain ⟨q0, q1, q2, q3, ⟨i, hlt, e0, e1, e2, e3, hmax⟩, hn⟩ := (List.forall₂_cons.1 hF).1
  have hi0 : i = 0 := by
    have := hmax 0 (by simp [trapezoid])
    simp only [trapezoid, List.length_cons, List.length_nil, Nat.reduceAdd] at hlt
    rw [e0, e1] at this
    simp only [trapezoid, List.length_cons, List.length_nil, Nat.reduceAdd] at this
    interval_cases i <;> first | rfl | (exfalso; norm_num [square] at this)
  subst hi0
  simp only [trapezoid, List.length_cons, List.length_nil, Nat.reduceAdd, Nat.reduceMod, Nat.zero_add, List.getD_cons_zero, List.getD_cons_succ] at e0 e1 e2 e3
  subst e0 e1 e2 e3
  rw [if_neg (by decide)] at hn
  subst hn
  simp only [List.flatten_cons, List.flatten_nil, List.append_nil, List.mem_map]
  have hdir : Solids.normalized (realLibrary parseDouble distance offset).sqrt env.epsilon (minus (above bottom (⟨0, 1⟩ : Vec ℝ)) (above bottom ⟨0, 0⟩)) = ⟨0, 0, 1⟩ := by
    unfold Solids.normalized
    simp only [minus, above, realLibrary]
    norm_num
    linarith
  set B : Vec3 ℝ := middle (above bottom (⟨4, 0⟩ : Vec ℝ)) (above bottom ⟨3, 1⟩) with hB
  have hx : (minus (above bottom (⟨4, 0⟩ : Vec ℝ)) B) = ⟨1 / 2, 0, -1 / 2⟩ := by
    simp only [hB, minus, middle, above, Vec3.mk.injEq]; refine ⟨by norm_num, by ring, by norm_num⟩
  have hlen : (1 / 2 : ℝ) < Real.sqrt (1 / 2) := by
    rw [Real.lt_sqrt (by norm_num)]; norm_num
  have hrot : Solids.normalized (realLibrary parseDouble distance offset).sqrt env.epsilon (minus (above bottom (⟨4, 0⟩ : Vec ℝ)) B) =
      ⟨1 / 2 / Real.sqrt (1 / 2), 0, -1 / 2 / Real.sqrt (1 / 2)⟩ := by
    rw [hx]
    unfold Solids.normalized
    have e : (1 / 2 * (1 / 2) + 0 * 0 + -1 / 2 * (-1 / 2) : ℝ) = 1 / 2 := by norm_num
    simp only [realLibrary, e]
    rw [if_pos (by linarith)]
    simp
  have hrad : distance3d (realLibrary parseDouble distance offset) (above bottom (⟨4, 0⟩ : Vec ℝ)) B = Real.sqrt (1 / 2) := by
    have : distance3d (realLibrary parseDouble distance offset) (above bottom (⟨4, 0⟩ : Vec ℝ)) B =
      Real.sqrt ((minus (above bottom (⟨4, 0⟩ : Vec ℝ)) B).x * (minus (above bottom (⟨4, 0⟩ : Vec ℝ)) B).x +
        (minus (above bottom (⟨4, 0⟩ : Vec ℝ)) B).y * (minus (above bottom (⟨4, 0⟩ : Vec ℝ)) B).y +
        (minus (above bottom (⟨4, 0⟩ : Vec ℝ)) B).z * (minus (above bottom (⟨4, 0⟩ : Vec ℝ)) B).z) := rfl
    rw [this, hx]
    congr 1; norm_num
  have hpos : Real.sqrt (1 / 2) ≠ 0 := by linarith
  unfold roundShape
  simp only [hdir, ← hB, hrot, hrad]
  refine ⟨_, ⟨_, List.mem_map.2 ⟨_, List.mem_flatMap.2 ⟨6, by simp, List.mem_cons_of_mem _ (List.mem_cons_of_mem _ (List.mem_cons_self ..))⟩, rfl⟩, rfl⟩, ?_⟩
  have e7 : (((6 : Nat) : ℝ) + 1) / 7 = 1 := by norm_num
  simp only [faceOf, facet, e7, realLibrary]
  rw [realTurn_half _ _ (by norm_num [dot])]
  simp only [restore, dot, hB, middle, above]
  constructor <;> field_simp <;> norm_num

/-- There is such a polygon. -/
example : ∃ p : Poly ℝ, Polygon.addAll (1 / 1000 : ℝ) 1000 (1 / 1000) { rectangle := .empty 1000 (1 / 1000) } [(pentagon, false)] = .ok p ∧
    List.Forall₂ (Stored p) [pentagon] p.outers ∧ p.inners = [] :=
  polygon_of_ring (1 / 1000 : ℝ) 1000 (1 / 1000) pentagon (by simp [pentagon]) (by unfold opened pentagon; norm_num)

example : ∃ p : Poly ℝ, Polygon.addAll (1 / 1000 : ℝ) 1000 (1 / 1000) { rectangle := .empty 1000 (1 / 1000) } [(trapezoid, false)] = .ok p ∧
    List.Forall₂ (Stored p) [trapezoid] p.outers ∧ p.inners = [] :=
  polygon_of_ring (1 / 1000 : ℝ) 1000 (1 / 1000) trapezoid (by simp [trapezoid]) (by unfold opened trapezoid; norm_num)

end Verif.Props
