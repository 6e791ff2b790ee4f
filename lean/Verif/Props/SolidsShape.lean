import Mathlib.Tactic.LinearCombination
import Mathlib.Tactic.Positivity
import Mathlib.Tactic.FieldSimp
import Mathlib.Analysis.Real.Sqrt
import Verif.Props.Solids
import Verif.Props.SolidsShapeSpec

/-! # C78: the shape of spheres and cylinders -/
namespace Verif.Props
open Verif.Solids Verif.SolidsSpec Verif.SolidsShapeSpec
open Verif.MeshBuilder (Vec3)
open SolidsProof

namespace SolidsShapeProof
variable {K : Type} [Field K] [LinearOrder K] [IsStrictOrderedRing K]

/-- The three corners of a face of the icosahedron, not normalised. -/
structure Face (t : K) (a b c : Vec3 K) : Prop where
  aa : dot a a = t + 2
  bb : dot b b = t + 2
  cc : dot c c = t + 2
  ab : dot a b = t
  bc : dot b c = t
  ca : dot c a = t
  out : volume a b c = 2 * t + 2

def raw (t : K) : List (Vec3 K) := createVertexList id t

omit [IsStrictOrderedRing K] in
theorem faces_regular (t : K) (ht : t * t = t + 1) : ∀ f ∈ sphereFaces, ∃ a b c, (raw t)[f.1]? = some a ∧ (raw t)[f.2.1]? = some b ∧ (raw t)[f.2.2]? = some c ∧ Face t a b c := by
  intro f hf
  simp only [sphereFaces, List.mem_cons, List.not_mem_nil, or_false] at hf
  rcases hf with rfl | rfl | rfl | rfl | rfl | rfl | rfl | rfl | rfl | rfl | rfl | rfl | rfl | rfl | rfl | rfl | rfl | rfl | rfl | rfl <;>
  · refine ⟨_, _, _, rfl, rfl, rfl, ?_, ?_, ?_, ?_, ?_, ?_, ?_⟩ <;> simp only [id, dot, volume] <;>
      first | ring1 | linear_combination ht | linear_combination (t + 1) * ht | linear_combination 2 * ht

theorem semi_sub : ∀ f ∈ semiSphereFaces, f ∈ sphereFaces := by decide

/-- `sqrt` is a square root. -/
def IsSqrt (sqrt : K → K) : Prop := ∀ x, 0 ≤ x → 0 ≤ sqrt x ∧ sqrt x * sqrt x = x

theorem half_lt {m q : K} (h0 : 0 ≤ m) (h : m * m = q) (hq : 1 / 4 < q) : 1 / 2 < m := by
  by_contra hc
  have : m ≤ 1 / 2 := not_lt.1 hc
  nlinarith

theorem norm_eq (sqrt : K → K) (hs : IsSqrt sqrt) (epsilon : K) (heps : epsilon ≤ 1 / 2) (v : Vec3 K) (q : K) (hq : dot v v = q) (hq2 : 1 / 4 < q) :
    normalized sqrt epsilon v = ⟨v.x / sqrt q, v.y / sqrt q, v.z / sqrt q⟩ := by
  obtain ⟨h0, h1⟩ := hs q (by linarith)
  have h2 := half_lt h0 h1 hq2
  unfold dot at hq
  unfold normalized
  rw [hq]
  simp only
  rw [if_pos (by linarith)]

omit [IsStrictOrderedRing K] in
theorem vertex_list (sqrt : K → K) (epsilon : K) (t : K) (i : Nat) (a : Vec3 K)
    (h : (raw t)[i]? = some a) : (createVertexList (normalized sqrt epsilon) t)[i]? = some (normalized sqrt epsilon a) := by
  have : createVertexList (normalized sqrt epsilon) t = (raw t).map (normalized sqrt epsilon) := rfl
  rw [this, List.getElem?_map, h]; rfl

theorem quarters_outward (sqrt : K → K) (hs : IsSqrt sqrt) (epsilon : K) (heps : epsilon ≤ 1 / 2) (t : K) (ht : 0 < t) (ht2 : t * t = t + 1) (a b c : Vec3 K)
    (hf : Face t a b c) :
    Outward (normalized sqrt epsilon a, normalized sqrt epsilon b, normalized sqrt epsilon c) ∧
    distance2 (normalized sqrt epsilon a) (normalized sqrt epsilon b) = 4 / (t + 2) ∧
    distance2 (normalized sqrt epsilon b) (normalized sqrt epsilon c) = 4 / (t + 2) ∧
    distance2 (normalized sqrt epsilon c) (normalized sqrt epsilon a) = 4 / (t + 2) ∧
    ∀ q ∈ quarters (middleOf (normalized sqrt epsilon)) (normalized sqrt epsilon a, normalized sqrt epsilon b, normalized sqrt epsilon c), Outward q := by
  obtain ⟨aa, bb, cc, ab, bc, ca, out⟩ := hf
  have t2 : (1 : K) / 4 < t + 2 := by linarith
  obtain ⟨r0, r1⟩ := hs (t + 2) (by linarith)
  have rpos : 0 < sqrt (t + 2) := by have := half_lt r0 r1 t2; linarith
  have m2 : (1 : K) / 4 < (t + 1) / (t + 2) := by rw [lt_div_iff₀ (by linarith)]; linarith
  obtain ⟨m0, m1⟩ := hs ((t + 1) / (t + 2)) (by linarith)
  have mpos : 0 < sqrt ((t + 1) / (t + 2)) := by have := half_lt m0 m1 m2; linarith
  rw [norm_eq sqrt hs epsilon heps a _ aa t2, norm_eq sqrt hs epsilon heps b _ bb t2, norm_eq sqrt hs epsilon heps c _ cc t2]
  generalize sqrt (t + 2) = r at r0 r1 rpos
  have rne : r ≠ 0 := rpos.ne'
  have tne : t + 2 ≠ 0 := by linarith
  have mid : ∀ u v : Vec3 K, dot u u = t + 2 → dot v v = t + 2 → dot u v = t →
      middleOf (normalized sqrt epsilon) ⟨u.x / r, u.y / r, u.z / r⟩ ⟨v.x / r, v.y / r, v.z / r⟩ =
        ⟨(u.x + v.x) / (2 * r * sqrt ((t + 1) / (t + 2))), (u.y + v.y) / (2 * r * sqrt ((t + 1) / (t + 2))),
          (u.z + v.z) / (2 * r * sqrt ((t + 1) / (t + 2)))⟩ := by
    intro u v uu vv uv
    unfold middleOf
    rw [norm_eq sqrt hs epsilon heps _ ((t + 1) / (t + 2)) ?_ m2]
    · have := mpos.ne'
      simp only [Vec3.mk.injEq]
      refine ⟨?_, ?_, ?_⟩ <;> field_simp
    · unfold dot at uu vv uv ⊢
      simp only
      rw [eq_div_iff tne, ← r1]
      field_simp
      linear_combination uu + vv + 2 * uv
  rw [show (∀ q ∈ quarters _ _, Outward q) = _ from rfl]
  simp only [quarters, List.mem_cons, List.not_mem_nil, or_false, forall_eq_or_imp, forall_eq]
  rw [mid a b aa bb ab, mid b c bb cc bc, mid c a cc aa ca]
  generalize sqrt ((t + 1) / (t + 2)) = m at m0 m1 mpos
  have mne : m ≠ 0 := mpos.ne'
  have hm : m * m * (t + 2) = t + 1 := by rw [m1, div_mul_cancel₀ _ tne]
  have one : ∀ u : Vec3 K, dot u u = t + 2 → dot (⟨u.x / r, u.y / r, u.z / r⟩ : Vec3 K) ⟨u.x / r, u.y / r, u.z / r⟩ = 1 := by
    intro u uu
    unfold dot at uu ⊢
    simp only
    field_simp
    linear_combination uu - r1
  have one' : ∀ u v : Vec3 K, dot u u = t + 2 → dot v v = t + 2 → dot u v = t →
      dot (⟨(u.x + v.x) / (2 * r * m), (u.y + v.y) / (2 * r * m), (u.z + v.z) / (2 * r * m)⟩ : Vec3 K)
        ⟨(u.x + v.x) / (2 * r * m), (u.y + v.y) / (2 * r * m), (u.z + v.z) / (2 * r * m)⟩ = 1 := by
    intro u v uu vv uv
    unfold dot at uu vv uv ⊢
    simp only
    field_simp
    linear_combination uu + vv + 2 * uv - 4 * m * m * r1 - 4 * hm
  have dist : ∀ u v : Vec3 K, dot u u = t + 2 → dot v v = t + 2 → dot u v = t →
      distance2 (⟨u.x / r, u.y / r, u.z / r⟩ : Vec3 K) ⟨v.x / r, v.y / r, v.z / r⟩ = 4 / (t + 2) := by
    intro u v uu vv uv
    unfold dot at uu vv uv
    unfold distance2
    simp only
    rw [eq_div_iff tne, ← r1]
    field_simp
    linear_combination uu + vv - 2 * uv
  have volpos : 0 < volume a b c := by rw [out]; linarith
  have vol : ∀ {x y z : Vec3 K} {k : K}, 0 < k → volume x y z = k * volume a b c → 0 < volume x y z := by
    intro x y z k hk h
    rw [h]; exact mul_pos hk volpos
  refine ⟨⟨one a aa, one b bb, one c cc, vol (k := 1 / (r * r * r)) (by positivity) ?_⟩, dist a b aa bb ab, dist b c bb cc bc, dist c a cc aa ca,
    ⟨one a aa, one' a b aa bb ab, one' c a cc aa ca, vol (k := 1 / (4 * r * r * r * m * m)) (by positivity) ?_⟩,
    ⟨one b bb, one' b c bb cc bc, one' a b aa bb ab, vol (k := 1 / (4 * r * r * r * m * m)) (by positivity) ?_⟩,
    ⟨one c cc, one' c a cc aa ca, one' b c bb cc bc, vol (k := 1 / (4 * r * r * r * m * m)) (by positivity) ?_⟩,
    ⟨one' a b aa bb ab, one' b c bb cc bc, one' c a cc aa ca, vol (k := 1 / (4 * r * r * r * m * m * m)) (by positivity) ?_⟩⟩ <;>
  · unfold volume
    simp only
    field_simp
    try ring

theorem pointsOf_mem {V : Type} (vs : List V) (l : List Indices) (ts : List (V × V × V)) (h : pointsOf vs l = .ok ts) :
    ∀ tri ∈ ts, ∃ f ∈ l, vs[f.1]? = some tri.1 ∧ vs[f.2.1]? = some tri.2.1 ∧ vs[f.2.2]? = some tri.2.2 := by
  induction l generalizing ts with
  | nil => cases h; simp
  | cons f rest ih =>
    obtain ⟨i, j, k⟩ := f
    unfold pointsOf at h
    cases hi : vs[i]? with
    | none => simp [hi] at h
    | some a =>
      cases hj : vs[j]? with
      | none => simp [hi, hj] at h
      | some b =>
        cases hk : vs[k]? with
        | none => simp [hi, hj, hk] at h
        | some c =>
          simp only [hi, hj, hk] at h
          cases hr : pointsOf vs rest with
          | throw e => simp [hr, Outcome.bind] at h
          | ub e => simp [hr, Outcome.bind] at h
          | ok us =>
            simp only [hr, Outcome.bind] at h
            cases h
            intro tri ht
            rcases List.mem_cons.1 ht with rfl | ht
            · exact ⟨(i, j, k), by simp, hi, hj, hk⟩
            · obtain ⟨f, hf, h⟩ := ih us hr tri ht
              exact ⟨f, List.mem_cons_of_mem _ hf, h⟩

theorem faces_of (sqrt : K → K) (epsilon t : K) (ht2 : t * t = t + 1) (semi : Bool) (ts : List (Vec3 K × Vec3 K × Vec3 K))
    (h : pointsOf (createVertexList (normalized sqrt epsilon) t) (if semi then semiSphereFaces else sphereFaces) = .ok ts) :
    ∀ tri ∈ ts, ∃ a b c, Face t a b c ∧ tri = (normalized sqrt epsilon a, normalized sqrt epsilon b, normalized sqrt epsilon c) := by
  intro tri hm
  obtain ⟨f, hf, h1, h2, h3⟩ := pointsOf_mem _ _ ts h tri hm
  have hf' : f ∈ sphereFaces := by
    cases semi
    · exact hf
    · exact semi_sub f hf
  obtain ⟨a, b, c, g1, g2, g3, g4⟩ := faces_regular t ht2 f hf'
  rw [vertex_list sqrt epsilon t _ a g1] at h1
  rw [vertex_list sqrt epsilon t _ b g2] at h2
  rw [vertex_list sqrt epsilon t _ c g3] at h3
  refine ⟨a, b, c, g4, ?_⟩
  obtain ⟨x, y, z⟩ := tri
  simp only [Option.some.injEq] at h1 h2 h3
  rw [h1, h2, h3]

theorem middle_symm {K : Type} [Field K] [LinearOrder K] (unit : Vec3 K → Vec3 K) (a b : Vec3 K) : middleOf unit a b = middleOf unit b a := by
  unfold middleOf; rw [add_comm a.x, add_comm a.y, add_comm a.z]

end SolidsShapeProof

open SolidsShapeProof
variable {K : Type} [Field K] [LinearOrder K] [IsStrictOrderedRing K]

/-- C78: the spheres start from a regular icosahedron: 20 triangles (12 for the half) with corners on the unit sphere, edges of one length, which
all face outwards. -/
theorem C78_icosahedron (sqrt : K → K) (hs : IsSqrt sqrt) (epsilon : K) (heps : epsilon ≤ 1 / 2) (t : K) (ht : 0 < t) (ht2 : t * t = t + 1) (semi : Bool) :
    ∃ ts, pointsOf (createVertexList (normalized sqrt epsilon) t) (if semi then semiSphereFaces else sphereFaces) = .ok ts ∧
      ts.length = (if semi then 12 else 20) ∧
      ∀ tri ∈ ts, Outward tri ∧ distance2 tri.1 tri.2.1 = 4 / (t + 2) ∧ distance2 tri.2.1 tri.2.2 = 4 / (t + 2) ∧ distance2 tri.2.2 tri.1 = 4 / (t + 2) := by
  obtain ⟨ts, h1, h2, -⟩ := C48_sphere_partial (middleOf (normalized sqrt epsilon)) (middle_symm _) id (createVertexList (normalized sqrt epsilon) t) rfl semi 0
  refine ⟨ts, h1, h2, ?_⟩
  intro tri hm
  obtain ⟨a, b, c, hf, rfl⟩ := faces_of sqrt epsilon t ht2 semi ts h1 tri hm
  obtain ⟨g1, g2, g3, g4, -⟩ := quarters_outward sqrt hs epsilon heps t ht ht2 a b c hf
  exact ⟨g1, g2, g3, g4⟩

/-- C78: all triangles of a sphere of any level above zero are images of triangles of the unit sphere which face outwards: their corners are on
the ellipsoid with the given centre and size. Partial: exact arithmetic; level zero has no triangle (`C48_violated_level`). -/
theorem C78_sphere_partial (sqrt : K → K) (hs : IsSqrt sqrt) (epsilon : K) (heps : epsilon ≤ 1 / 2) (t : K) (ht : 0 < t) (ht2 : t * t = t + 1)
    (translate : Vec3 K → Vec3 K) (center size : Vec3 K) (semi : Bool) (n : Nat) :
    ∃ us : List (Vec3 K × Vec3 K × Vec3 K), (∀ u ∈ us, Outward u) ∧ us.length = (if semi then 48 else 80) ∧
      sphere (middleOf (normalized sqrt epsilon)) (placeAt translate center size) (createVertexList (normalized sqrt epsilon) t) semi (n + 1) =
        .ok (us.map fun u => (translate (ellipsoid center size u.1), translate (ellipsoid center size u.2.1), translate (ellipsoid center size u.2.2))) := by
  obtain ⟨ts, h1, h2, h3, h4⟩ := C48_sphere_partial (middleOf (normalized sqrt epsilon)) (middle_symm _) (placeAt translate center size)
    (createVertexList (normalized sqrt epsilon) t) rfl semi n
  refine ⟨divided (middleOf (normalized sqrt epsilon)) ts 1, ?_, ?_, ?_⟩
  · intro u hu
    simp only [divided, List.mem_flatMap] at hu
    obtain ⟨tri, hm, hu⟩ := hu
    obtain ⟨a, b, c, hf, rfl⟩ := faces_of sqrt epsilon t ht2 semi ts h1 tri hm
    exact (quarters_outward sqrt hs epsilon heps t ht ht2 a b c hf).2.2.2.2 u hu
  · rw [h4]; cases semi <;> rfl
  · rw [h3]
    have e : ∀ v, placeAt translate center size v = translate (ellipsoid center size v) := by
      intro v
      unfold placeAt ellipsoid
      congr 2 <;> ring
    simp only [e]

/-- C78: a cylinder has two triangles for each radial and height segment, one more for each radial segment at the bottom, and one more at the top
unless its second size is zero (up to epsilon). -/
theorem C78_cylinder_count (epsilon : K) (c : Cylinder K) (translate : Vec3 K → Vec3 K) (hh : 0 < c.heightSegments) :
    (c.generate epsilon translate).length = c.radialSegments * (2 * c.heightSegments + 1 +
      if |c.size2.x| < epsilon ∧ |c.size2.y| < epsilon ∧ |c.size2.z| < epsilon then 0 else 1) := by
  have hcone : c.isCone epsilon = true ↔ (|c.size2.x| < epsilon ∧ |c.size2.y| < epsilon ∧ |c.size2.z| < epsilon) := by
    unfold Cylinder.isCone; simp
  have hseg : ∀ j i, (c.segment epsilon translate j i).length = 2 + (if i = 0 then 1 else 0) +
      (if i = c.heightSegments - 1 then (if |c.size2.x| < epsilon ∧ |c.size2.y| < epsilon ∧ |c.size2.z| < epsilon then 0 else 1) else 0) := by
    intro j i
    unfold Cylinder.segment
    simp only [hcone, List.length_append, List.length_cons, List.length_nil]
    split_ifs <;> simp_all
  have hcol : ∀ (f : Nat) (n : Nat), ((List.range n).map fun i => 2 + (if i = 0 then 1 else 0) + if i = c.heightSegments - 1 then f else 0).sum =
      2 * n + (if 0 < n then 1 else 0) + if c.heightSegments - 1 < n then f else 0 := by
    intro f n
    induction n with
    | zero => simp
    | succ n ih =>
      rw [List.range_succ, List.map_append, List.sum_append, ih]
      simp only [List.map_cons, List.map_nil, List.sum_cons, List.sum_nil]
      split_ifs <;> omega
  unfold Cylinder.generate
  simp only [List.length_flatMap, hseg]
  rw [hcol]
  rw [List.map_const', List.sum_replicate, List.length_range, if_pos hh, if_pos (by omega)]
  simp

/-- C78: the corners of a cylinder's triangles are the points of its axis and of the rings around it at the heights of the segments, with radii
between the first size at the bottom and the second size at the top (the vertical part of a rotated radius is scaled as the x part). -/
theorem C78_cylinder_points (epsilon : K) (c : Cylinder K) (translate : Vec3 K → Vec3 K) (tri : Vec3 K × Vec3 K × Vec3 K)
    (h : tri ∈ c.generate epsilon translate) (corner : Vec3 K) (hc : corner = tri.1 ∨ corner = tri.2.1 ∨ corner = tri.2.2) :
    ∃ i ≤ c.heightSegments, corner = translate (beyond c.center c.direction (c.heightStep * i)) ∨
      ∃ j < c.radialSegments, corner = translate (plus (beyond c.center c.direction (c.heightStep * i))
        ⟨radiusAt c.size1.x c.size2.x i c.heightSegments * (c.rotated j).x, radiusAt c.size1.x c.size2.x i c.heightSegments * (c.rotated j).y,
          radiusAt c.size1.z c.size2.z i c.heightSegments * (c.rotated j).z⟩) := by
  unfold Cylinder.generate at h
  simp only [List.mem_flatMap, List.mem_range] at h
  obtain ⟨j, hj, i, hi, h⟩ := h
  have hn : ((c.heightSegments : K)) ≠ 0 := by
    have : c.heightSegments ≠ 0 := by omega
    exact_mod_cast this
  have hrad : ∀ (a b : K) (i : Nat), lerp b a (((c.heightSegments : K) - i) / c.heightSegments) = radiusAt a b i c.heightSegments := by
    intro a b i
    unfold lerp radiusAt
    field_simp
    ring
  have hrad' : ∀ (a b : K) (i : Nat), lerp b a (((c.heightSegments : K) - i - 1) / c.heightSegments) = radiusAt a b (i + 1) c.heightSegments := by
    intro a b i
    rw [← hrad]; push_cast; rw [sub_sub]
  have hmid : ∀ f : K, plus c.center (times c.direction f) = beyond c.center c.direction f := by
    intro f; unfold plus times beyond; simp [mul_comm]
  have hring : ∀ (i j : Nat), i ≤ c.heightSegments → j < c.radialSegments → ∀ corner, corner = translate (plus (beyond c.center c.direction (c.heightStep * i))
      (scaleBy (c.rotated j) ⟨radiusAt c.size1.x c.size2.x i c.heightSegments, radiusAt c.size1.y c.size2.y i c.heightSegments,
        radiusAt c.size1.z c.size2.z i c.heightSegments⟩)) → ∃ i ≤ c.heightSegments, corner = translate (beyond c.center c.direction (c.heightStep * i)) ∨
      ∃ j < c.radialSegments, corner = translate (plus (beyond c.center c.direction (c.heightStep * i))
        ⟨radiusAt c.size1.x c.size2.x i c.heightSegments * (c.rotated j).x, radiusAt c.size1.x c.size2.x i c.heightSegments * (c.rotated j).y,
          radiusAt c.size1.z c.size2.z i c.heightSegments * (c.rotated j).z⟩) := by
    intro i j hi hj corner hc
    refine ⟨i, hi, .inr ⟨j, hj, ?_⟩⟩
    rw [hc]
    unfold scaleBy
    simp only [mul_comm]
  have hj2 : (if j = c.radialSegments - 1 then 0 else j + 1) < c.radialSegments := by split_ifs <;> omega
  have e1 : ((i : K) + 1) = ((i + 1 : Nat) : K) := by push_cast; rfl
  unfold Cylinder.segment at h
  simp only [Cylinder.getRadius, hrad, hrad', hmid, e1] at h
  generalize (if j = c.radialSegments - 1 then 0 else j + 1) = j' at h hj2
  have hi1 : i ≤ c.heightSegments := by omega
  have hi2 : i + 1 ≤ c.heightSegments := by omega
  simp only [List.mem_append, List.mem_cons, List.not_mem_nil, or_false] at h
  rcases h with ((rfl | rfl) | h) | h
  · rcases hc with hc | hc | hc
    · exact hring i _ hi1 hj2 _ hc
    · exact hring (i + 1) _ hi2 hj2 _ hc
    · exact hring i _ hi1 hj _ hc
  · rcases hc with hc | hc | hc
    · exact hring i _ hi1 hj _ hc
    · exact hring (i + 1) _ hi2 hj2 _ hc
    · exact hring (i + 1) _ hi2 hj _ hc
  · split_ifs at h
    · simp only [List.mem_cons, List.not_mem_nil, or_false] at h
      subst h
      rcases hc with hc | hc | hc
      · exact ⟨i, hi1, .inl hc⟩
      · exact hring i _ hi1 hj2 _ hc
      · exact hring i _ hi1 hj _ hc
    · simp at h
  · split_ifs at h
    · simp only [List.mem_cons, List.not_mem_nil, or_false] at h
      subst h
      rcases hc with hc | hc | hc
      · exact ⟨i + 1, hi2, .inl hc⟩
      · exact hring (i + 1) _ hi2 hj _ hc
      · exact hring (i + 1) _ hi2 hj2 _ hc
    · simp at h

omit [IsStrictOrderedRing K] in
/-- C78: vertex noise moves a triangle up or down as a whole, so that its edges stay as they are. -/
theorem C78_noise (noise : K → K → K) (tri : Vec3 K × Vec3 K × Vec3 K) : ∃ d : K,
    shifted noise tri = (beyond tri.1 ⟨0, 1, 0⟩ d, beyond tri.2.1 ⟨0, 1, 0⟩ d, beyond tri.2.2 ⟨0, 1, 0⟩ d) ∧ d = noise tri.1.x tri.1.z :=
  ⟨noise tri.1.x tri.1.z, by unfold shifted beyond; simp, rfl⟩

/-- The square root and the golden ratio of the real numbers meet the hypotheses. -/
example : IsSqrt Real.sqrt ∧ (0 : ℝ) < (1 + Real.sqrt 5) / 2 ∧ (1 + Real.sqrt 5) / 2 * ((1 + Real.sqrt 5) / 2) = (1 + Real.sqrt 5) / 2 + 1 := by
  refine ⟨fun x hx => ⟨Real.sqrt_nonneg x, Real.mul_self_sqrt hx⟩, by positivity, ?_⟩
  have := Real.mul_self_sqrt (show (0 : ℝ) ≤ 5 by norm_num)
  linear_combination (1 / 4) * this

example : (prism.generate (1 / 1000) id).length = 3 * (2 * 2 + 1 + 1) := by
  rw [C78_cylinder_count _ _ _ (by decide), if_neg (by decide +kernel)]; rfl


end Verif.Props
