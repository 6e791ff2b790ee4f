import Verif.Props.RoofsMansard
import Verif.Props.SolidsShape
import Verif.Props.CurvedSpec

/-! # C89: domes, cylinders and spheres -/
namespace Verif.Props
open Verif.MeshBuilder Verif.MeshSpec Verif.ShownSpec Verif.PolygonSpec Verif.Building Verif.BuildingSpec Verif.RoofsSpec Verif.Roofs Verif.CurvedSpec
open Verif.Polygon (Vec Poly Rect)
open Verif.SolidsSpec (Closed divided quarters)
open Verif.SolidsShapeSpec (Outward ellipsoid volume dot)
open Verif.Solids (Indices semiSphereFaces sphereFaces pointsOf normalized middleOf placeAt createVertexList)
open BuildingProof RoofsProof

namespace CurvedProof
set_option linter.unusedSectionVars false
variable {K : Type} [Field K] [LinearOrder K] [IsStrictOrderedRing K]

/-! ### Spheres -/

/-- What a dome leaves out. -/
def lowerFaces : List Indices := [(11, 10, 2), (3, 9, 4), (3, 4, 2), (3, 2, 6), (3, 6, 8), (3, 8, 9), (2, 4, 11), (6, 2, 10)]

theorem lower_sub : ∀ f ∈ lowerFaces, f ∈ sphereFaces := by decide

theorem faces_lower (sqrt : K → K) (epsilon t : K) (ht2 : t * t = t + 1) (ts : List (Vec3 K × Vec3 K × Vec3 K))
    (h : pointsOf (createVertexList (normalized sqrt epsilon) t) lowerFaces = .ok ts) :
    ∀ tri ∈ ts, ∃ a b c, SolidsShapeProof.Face t a b c ∧ tri = (normalized sqrt epsilon a, normalized sqrt epsilon b, normalized sqrt epsilon c) := by
  intro tri hm
  obtain ⟨f, hf, h1, h2, h3⟩ := SolidsShapeProof.pointsOf_mem _ _ ts h tri hm
  obtain ⟨a, b, c, g1, g2, g3, g4⟩ := SolidsShapeProof.faces_regular t ht2 f (lower_sub f hf)
  rw [SolidsShapeProof.vertex_list sqrt epsilon t _ a g1] at h1
  rw [SolidsShapeProof.vertex_list sqrt epsilon t _ b g2] at h2
  rw [SolidsShapeProof.vertex_list sqrt epsilon t _ c g3] at h3
  refine ⟨a, b, c, g4, ?_⟩
  obtain ⟨x, y, z⟩ := tri
  simp only [Option.some.injEq] at h1 h2 h3
  rw [h1, h2, h3]

theorem normalized_low (sqrt : K → K) (hs : SolidsShapeProof.IsSqrt sqrt) (epsilon : K) (v : Vec3 K) (h : v.y ≤ 0) : (normalized sqrt epsilon v).y ≤ 0 := by
  unfold normalized
  simp only
  split
  · exact div_nonpos_of_nonpos_of_nonneg h (hs _ (by nlinarith [mul_self_nonneg v.x, mul_self_nonneg v.y, mul_self_nonneg v.z])).1
  · exact le_refl _

theorem middle_low (sqrt : K → K) (hs : SolidsShapeProof.IsSqrt sqrt) (epsilon : K) (a b : Vec3 K) (ha : a.y ≤ 0) (hb : b.y ≤ 0) :
    (middleOf (normalized sqrt epsilon) a b).y ≤ 0 :=
  normalized_low sqrt hs epsilon _ (by simp only; linarith)

theorem lower_low (sqrt : K → K) (hs : SolidsShapeProof.IsSqrt sqrt) (epsilon t : K) (ht : 0 < t) (ts : List (Vec3 K × Vec3 K × Vec3 K))
    (h : pointsOf (createVertexList (normalized sqrt epsilon) t) lowerFaces = .ok ts) : ∀ tri ∈ ts, ∀ c ∈ tips tri, c.y ≤ 0 := by
  have low : ∀ i ∈ [2, 3, 4, 6, 8, 9, 10, 11], ∀ v, (createVertexList (normalized sqrt epsilon) t)[i]? = some v → v.y ≤ 0 := by
    intro i hi v hv
    simp only [List.mem_cons, List.not_mem_nil, or_false] at hi
    rcases hi with rfl | rfl | rfl | rfl | rfl | rfl | rfl | rfl <;> (simp [createVertexList] at hv; subst hv; apply normalized_low sqrt hs; simp; try linarith)
  have idx : ∀ f ∈ lowerFaces, f.1 ∈ [2, 3, 4, 6, 8, 9, 10, 11] ∧ f.2.1 ∈ [2, 3, 4, 6, 8, 9, 10, 11] ∧ f.2.2 ∈ [2, 3, 4, 6, 8, 9, 10, 11] := by decide
  intro tri hm c hc
  obtain ⟨f, hf, h1, h2, h3⟩ := SolidsShapeProof.pointsOf_mem _ _ ts h tri hm
  obtain ⟨i1, i2, i3⟩ := idx f hf
  simp only [tips, List.mem_cons, List.not_mem_nil, or_false] at hc
  rcases hc with rfl | rfl | rfl
  · exact low _ i1 _ h1
  · exact low _ i2 _ h2
  · exact low _ i3 _ h3

theorem golden {lib : Library K} (hl : Standard lib) : 0 < (1 + lib.sqrt 5) / 2 ∧ (1 + lib.sqrt 5) / 2 * ((1 + lib.sqrt 5) / 2) = (1 + lib.sqrt 5) / 2 + 1 := by
  obtain ⟨h1, h2⟩ := hl.sqrt 5 (by norm_num)
  refine ⟨by linarith, by linear_combination (1 / 4) * h2⟩

theorem place_eq (lib : Library K) (bottom : K) (r : Rect K) (u : Vec3 K) :
    placeAt id ⟨(getCircle r).1.x, bottom, (getCircle r).1.y⟩ ⟨(getCircle r).2.x, lib.distance ⟨(getCircle r).1.y, (getCircle r).1.x⟩
      ⟨(getCircle r).1.y + (getCircle r).2.y, (getCircle r).1.x⟩, (getCircle r).2.y⟩ u = bulge lib bottom r u := by
  have e1 : (getCircle r).1 = centre r := by simp only [getCircle, centre, Polygon.Vec.mk.injEq]; constructor <;> ring
  have e2 : (getCircle r).2 = halves r := rfl
  rw [e1, e2]
  simp only [placeAt, bulge, ellipsoid, id, Vec3.mk.injEq]
  refine ⟨by ring, by ring, by ring⟩

theorem ball_draws {lib : Library K} (epsilon : K) (t : Texture) (look : Look K) (htex : look.texture = t) (semi : Bool) (bottom : K) (r : Rect K)
    (us : List (Tri K)) (hus : Solids.sphere (middleOf (normalized lib.sqrt epsilon)) (bulge lib bottom r)
      (createVertexList (normalized lib.sqrt epsilon) ((1 + lib.sqrt 5) / 2)) semi 2 =
        .ok (us.map fun u => (bulge lib bottom r u.1, bulge lib bottom r u.2.1, bulge lib bottom r u.2.2))) :
    Draws t (fun m => ball lib epsilon look semi bottom m r)
      (fun new => new = us.map fun u => whole look (bulge lib bottom r u.1, bulge lib bottom r u.2.1, bulge lib bottom r u.2.2)) := by
  intro m done ts h
  have g := Drawn.facets look ((us.map fun u => (bulge lib bottom r u.1, bulge lib bottom r u.2.1, bulge lib bottom r u.2.2)).map generated) h
  obtain ⟨m2, h2, g2⟩ := g.textured
  refine ⟨m2, _, ?_, g2, ?_⟩
  · have e : placeAt id ⟨(getCircle r).1.x, bottom, (getCircle r).1.y⟩ ⟨(getCircle r).2.x, lib.distance ⟨(getCircle r).1.y, (getCircle r).1.x⟩
      ⟨(getCircle r).1.y + (getCircle r).2.y, (getCircle r).1.x⟩, (getCircle r).2.y⟩ = bulge lib bottom r := funext (place_eq lib bottom r)
    unfold ball
    simp only [e, hus, bind_okl]
    rw [htex]
    exact h2
  · simp only [List.map_map]
    rfl

theorem sphere_ok {lib : Library K} (hl : Standard lib) (epsilon : K) (heps : epsilon ≤ 1 / 2) (look : Look K) (bottom : K) (r : Rect K) :
    Draws look.texture (fun m => ball lib epsilon look false bottom m r) (SphereFaces lib look bottom r) := by
  obtain ⟨g1, g2⟩ := golden hl
  obtain ⟨ts, h1, h2, h3, h4⟩ := C48_sphere_partial (middleOf (normalized lib.sqrt epsilon)) (SolidsShapeProof.middle_symm _) (bulge lib bottom r)
    (createVertexList (normalized lib.sqrt epsilon) ((1 + lib.sqrt 5) / 2)) rfl false 1
  intro m done ts' h
  obtain ⟨m', new, a1, a2, a3⟩ := ball_draws epsilon look.texture look rfl false bottom r _ h3 m done ts' h
  refine ⟨m', new, a1, a2, _, ?_, ?_, ?_, a3⟩
  · intro u hu
    simp only [divided, List.mem_flatMap] at hu
    obtain ⟨tri, hm, hu⟩ := hu
    obtain ⟨a, b, c, hf, rfl⟩ := SolidsShapeProof.faces_of lib.sqrt epsilon _ g2 false ts h1 tri hm
    exact (SolidsShapeProof.quarters_outward lib.sqrt hl.sqrt epsilon heps _ g1 g2 a b c hf).2.2.2.2 u hu
  · obtain ⟨ts2, k1, k2⟩ := C65_sphere (middleOf (normalized lib.sqrt epsilon)) (SolidsShapeProof.middle_symm _) id
      (createVertexList (normalized lib.sqrt epsilon) ((1 + lib.sqrt 5) / 2)) rfl 2
    obtain ⟨ts3, i1, i2, i3, i4⟩ := C48_sphere_partial (middleOf (normalized lib.sqrt epsilon)) (SolidsShapeProof.middle_symm _) id
      (createVertexList (normalized lib.sqrt epsilon) ((1 + lib.sqrt 5) / 2)) rfl false 1
    rw [h1] at i1
    cases i1
    rw [k1] at i3
    cases i3
    simpa using k2
  · rw [h4]; rfl

theorem dome_ok {lib : Library K} (hl : Standard lib) (epsilon : K) (heps : epsilon ≤ 1 / 2) (look : Look K) (bottom : K) (r : Rect K) :
    Draws look.texture (fun m => ball lib epsilon look true bottom m r) (DomeFaces lib look bottom r) := by
  obtain ⟨g1, g2⟩ := golden hl
  obtain ⟨ts, h1, h2, h3, h4⟩ := C48_sphere_partial (middleOf (normalized lib.sqrt epsilon)) (SolidsShapeProof.middle_symm _) (bulge lib bottom r)
    (createVertexList (normalized lib.sqrt epsilon) ((1 + lib.sqrt 5) / 2)) rfl true 1
  obtain ⟨bs, b1, b2, b3⟩ := SolidsProof.pointsOf_total (createVertexList (normalized lib.sqrt epsilon) ((1 + lib.sqrt 5) / 2)) lowerFaces (by
    rw [show (createVertexList (normalized lib.sqrt epsilon) ((1 + lib.sqrt 5) / 2)).length = 12 from rfl]; decide)
  obtain ⟨cs, c1, c2, c3⟩ := SolidsProof.pointsOf_total (createVertexList (normalized lib.sqrt epsilon) ((1 + lib.sqrt 5) / 2)) semiSphereFaces (by
    rw [show (createVertexList (normalized lib.sqrt epsilon) ((1 + lib.sqrt 5) / 2)).length = 12 from rfl]; decide)
  have h1' := h1
  rw [show (if (true : Bool) = true then semiSphereFaces else sphereFaces) = semiSphereFaces from rfl, c1] at h1'
  cases h1'
  intro m done ts' h
  obtain ⟨m', new, a1, a2, a3⟩ := ball_draws epsilon look.texture look rfl true bottom r _ h3 m done ts' h
  refine ⟨m', new, a1, a2, _, divided (middleOf (normalized lib.sqrt epsilon)) bs 1, ?_, ?_, ?_, ?_, ?_, a3⟩
  · intro u hu
    rcases List.mem_append.1 hu with hu | hu
    · simp only [divided, List.mem_flatMap] at hu
      obtain ⟨tri, hm, hu⟩ := hu
      obtain ⟨a, b, c, hf, rfl⟩ := SolidsShapeProof.faces_of lib.sqrt epsilon _ g2 true _ h1 tri hm
      exact (SolidsShapeProof.quarters_outward lib.sqrt hl.sqrt epsilon heps _ g1 g2 a b c hf).2.2.2.2 u hu
    · simp only [divided, List.mem_flatMap] at hu
      obtain ⟨tri, hm, hu⟩ := hu
      obtain ⟨a, b, c, hf, rfl⟩ := faces_lower lib.sqrt epsilon _ g2 _ b1 tri hm
      exact (SolidsShapeProof.quarters_outward lib.sqrt hl.sqrt epsilon heps _ g1 g2 a b c hf).2.2.2.2 u hu
  · have e : divided (middleOf (normalized lib.sqrt epsilon)) ts 1 ++ divided (middleOf (normalized lib.sqrt epsilon)) bs 1 =
        divided (middleOf (normalized lib.sqrt epsilon)) (ts ++ bs) 1 := by simp only [divided, List.flatMap_append]
    rw [e]
    refine C65_divided _ (SolidsShapeProof.middle_symm _) _ ?_ 1
    set g : Nat → Vec3 K := fun i => (createVertexList (normalized lib.sqrt epsilon) ((1 + lib.sqrt 5) / 2))[i]?.getD ⟨0, 0, 0⟩ with hg
    rw [b3 g (fun i v hv => by simp [hg, hv]), c3 g (fun i v hv => by simp [hg, hv]), ← List.map_append]
    apply SolidsProof.closed_map g (semiSphereFaces ++ lowerFaces)
    apply SolidsProof.closed_of_esum
    intro f hf
    simp only [semiSphereFaces, lowerFaces, List.cons_append, List.nil_append, SolidsProof.esum_cons, SolidsProof.esum_nil]
    linarith [hf 0 11, hf 0 5, hf 0 1, hf 0 7, hf 0 10, hf 11 5, hf 5 1, hf 1 7, hf 7 10, hf 10 11, hf 5 9, hf 9 1, hf 11 4, hf 4 5, hf 10 2, hf 2 11,
      hf 7 6, hf 6 10, hf 1 8, hf 8 7, hf 3 9, hf 9 4, hf 4 3, hf 4 2, hf 2 3, hf 2 6, hf 6 3, hf 6 8, hf 8 3, hf 8 9]
  · rw [h4]; rfl
  · rw [show divided (middleOf (normalized lib.sqrt epsilon)) bs 1 = bs.flatMap (quarters (middleOf (normalized lib.sqrt epsilon))) from rfl,
      SolidsProof.quarters_length, b2]
    rfl
  · intro u hu
    simp only [divided, List.mem_flatMap] at hu
    obtain ⟨tri, hm, hu⟩ := hu
    have low := lower_low lib.sqrt hl.sqrt epsilon _ g1 bs b1 tri hm
    obtain ⟨a, b, c⟩ := tri
    have la := low a (by simp [tips])
    have lb := low b (by simp [tips])
    have lc := low c (by simp [tips])
    have ab := middle_low lib.sqrt hl.sqrt epsilon a b la lb
    have bc := middle_low lib.sqrt hl.sqrt epsilon b c lb lc
    have ca := middle_low lib.sqrt hl.sqrt epsilon c a lc la
    simp only [quarters, List.mem_cons, List.not_mem_nil, or_false] at hu
    intro x hx
    rcases hu with rfl | rfl | rfl | rfl <;> simp only [tips, List.mem_cons, List.not_mem_nil, or_false] at hx <;>
      rcases hx with rfl | rfl | rfl <;> assumption

/-! ### Cylinders -/

theorem turned_eq {lib : Library K} (hl : Standard lib) (hc : Circular lib) (j : Nat) :
    turned lib j = ⟨lib.cos (2 * lib.pi * j / 7), 0, - lib.sin (2 * lib.pi * j / 7)⟩ := by
  have e : 2 * lib.pi * (j : K) / 7 = (j : K) * (2 * lib.pi / 7) * (1 / 2) + (j : K) * (2 * lib.pi / 7) * (1 / 2) := by ring
  rw [e, hc.sin_add, hc.cos_add]
  unfold turned
  simp only
  have h := hl.circle ((j : K) * (2 * lib.pi / 7) * (1 / 2))
  generalize lib.sin ((j : K) * (2 * lib.pi / 7) * (1 / 2)) = s at h ⊢
  generalize lib.cos ((j : K) * (2 * lib.pi / 7) * (1 / 2)) = c at h ⊢
  have hn : (Quaternion.fromAngleAxis s c ⟨0, 1, 0⟩).norm = 1 := by
    simp only [Quaternion.Quat.norm, Quaternion.fromAngleAxis]; linear_combination h
  unfold Quaternion.Quat.apply
  rw [hn]
  simp only [Quaternion.fromAngleAxis, Quaternion.Vec3.scale, Vec3.mk.injEq]
  refine ⟨by ring, by ring, by ring⟩

/-- The cylinder of a facade. -/
def shaft (lib : Library K) (bottom height : K) (r : Rect K) : Solids.Cylinder K :=
  ⟨⟨(getCircle r).1.x, bottom, (getCircle r).1.y⟩, ⟨0, 1, 0⟩, turned lib, ⟨(getCircle r).2.x, height, (getCircle r).2.y⟩,
    ⟨(getCircle r).2.x, height, (getCircle r).2.y⟩, 7, (lib.ceil (height / 5)).toNat, height / (lib.ceil (height / 5) : K)⟩

/-- The triangles of one segment. -/
def storey (lib : Library K) (bottom height : K) (r : Rect K) (n j i : Nat) : List (Tri K) :=
  let P := rim lib bottom height r n
  [(P (j + 1) i, P (j + 1) (i + 1), P j i), (P j i, P (j + 1) (i + 1), P j (i + 1))] ++
    (if i = 0 then [(core bottom height r n 0, P (j + 1) 0, P j 0)] else []) ++
    if i + 1 = n then [(core bottom height r n n, P j n, P (j + 1) n)] else []

theorem rim_turn {lib : Library K} (hl : Standard lib) (hc : Circular lib) (bottom height : K) (r : Rect K) (n i : Nat) :
    rim lib bottom height r n 7 i = rim lib bottom height r n 0 i := by
  have e7 : 2 * lib.pi * ((7 : Nat) : K) / 7 = lib.pi + lib.pi := by push_cast; ring
  have e0 : 2 * lib.pi * ((0 : Nat) : K) / 7 = 0 := by simp
  unfold rim
  rw [e7, e0, hc.cos_add, hc.sin_add, hl.half.1, hl.half.2, hl.zero.1, hl.zero.2]
  simp

theorem ceil_nat {lib : Library K} (hl : Standard lib) (height : K) (hh : 0 < height) :
    0 < (lib.ceil (height / 5)).toNat ∧ ((lib.ceil (height / 5) : Int) : K) = ((lib.ceil (height / 5)).toNat : K) ∧
    (((lib.ceil (height / 5)).toNat : K) - 1) * 5 < height ∧ height ≤ ((lib.ceil (height / 5)).toNat : K) * 5 := by
  obtain ⟨h1, h2⟩ := hl.ceil (height / 5)
  have h3 : (0 : K) < (lib.ceil (height / 5) : K) := lt_of_lt_of_le (by positivity) h2
  have h4 : 0 < lib.ceil (height / 5) := by exact_mod_cast h3
  have e : ((lib.ceil (height / 5) : Int) : K) = ((lib.ceil (height / 5)).toNat : K) := by
    have : ((lib.ceil (height / 5)).toNat : Int) = lib.ceil (height / 5) := Int.toNat_of_nonneg h4.le
    exact_mod_cast congrArg (fun z : Int => (z : K)) this.symm
  rw [e] at h1 h2
  refine ⟨by omega, e, ?_, ?_⟩ <;> linarith

theorem segment_eq {lib : Library K} (hl : Standard lib) (hc : Circular lib) (epsilon bottom height : K) (hh : 0 < height) (heps : epsilon ≤ height) (r : Rect K)
    (j i : Nat) (hj : j < 7) :
    (shaft lib bottom height r).segment epsilon id j i = storey lib bottom height r (lib.ceil (height / 5)).toNat j i := by
  obtain ⟨n0, e, -, -⟩ := ceil_nat hl height hh
  have point : ∀ (k i : Nat) (v : K), Solids.plus (Solids.plus (shaft lib bottom height r).center (Solids.times (shaft lib bottom height r).direction
      ((shaft lib bottom height r).heightStep * (i : K)))) (Solids.scaleBy ((shaft lib bottom height r).rotated k) ((shaft lib bottom height r).getRadius v)) =
      rim lib bottom height r (lib.ceil (height / 5)).toNat k i := by
    intro k i v
    have e1 : (getCircle r).1 = centre r := by simp only [getCircle, centre, Polygon.Vec.mk.injEq]; constructor <;> ring
    have e2 : (getCircle r).2 = halves r := rfl
    simp only [shaft, turned_eq hl hc, e, e1, e2, Solids.plus, Solids.times, Solids.scaleBy, Solids.Cylinder.getRadius, Solids.lerp, rim, Vec3.mk.injEq]
    refine ⟨by ring, by ring, by ring⟩
  have middle : ∀ i : Nat, Solids.plus (shaft lib bottom height r).center (Solids.times (shaft lib bottom height r).direction
      ((shaft lib bottom height r).heightStep * (i : K))) = core bottom height r (lib.ceil (height / 5)).toNat i := by
    intro i
    have e1 : (getCircle r).1 = centre r := by simp only [getCircle, centre, Polygon.Vec.mk.injEq]; constructor <;> ring
    simp only [shaft, e, e1, Solids.plus, Solids.times, core, Vec3.mk.injEq]
    refine ⟨by ring, by ring, by ring⟩
  have inner : ∀ (k i : Nat) (v : K), Solids.plus (core bottom height r (lib.ceil (height / 5)).toNat i)
      (Solids.scaleBy ((shaft lib bottom height r).rotated k) ((shaft lib bottom height r).getRadius v)) =
      rim lib bottom height r (lib.ceil (height / 5)).toNat k i := by
    intro k i v
    rw [← middle, point]
  have next : ∀ i, rim lib bottom height r (lib.ceil (height / 5)).toNat (if j = (shaft lib bottom height r).radialSegments - 1 then 0 else j + 1) i =
      rim lib bottom height r (lib.ceil (height / 5)).toNat (j + 1) i := by
    intro i
    by_cases h : j = 6
    · subst h; exact (rim_turn hl hc ..).symm
    · rw [if_neg (by simpa [shaft] using h)]
  have cone : (shaft lib bottom height r).isCone epsilon = false := by
    simp only [Solids.Cylinder.isCone, shaft, sub_zero, decide_eq_false_iff_not, not_and, abs_of_pos hh]
    intro _ h
    exact absurd h (not_lt.2 heps)
  have castSucc : ((i : K) + 1) = ((i + 1 : Nat) : K) := by push_cast; rfl
  unfold Solids.Cylinder.segment storey
  simp only [castSucc, middle, inner, next, id, cone, Bool.false_eq_true, not_false_eq_true, and_true]
  have hn : (shaft lib bottom height r).heightSegments = (lib.ceil (height / 5)).toNat := rfl
  rw [hn]
  congr 1
  · congr 1
    by_cases h : i = 0
    · subst h; rfl
    · rw [if_neg h, if_neg h]
  · by_cases h : i + 1 = (lib.ceil (height / 5)).toNat
    · rw [if_pos h, if_pos (by omega), h]
    · rw [if_neg h, if_neg (by omega)]

theorem generate_eq {lib : Library K} (hl : Standard lib) (hc : Circular lib) (epsilon bottom height : K) (hh : 0 < height) (heps : epsilon ≤ height) (r : Rect K) :
    (shaft lib bottom height r).generate epsilon id =
      (List.range 7).flatMap fun j => (List.range (lib.ceil (height / 5)).toNat).flatMap fun i => storey lib bottom height r (lib.ceil (height / 5)).toNat j i := by
  unfold Solids.Cylinder.generate
  apply List.flatMap_congr
  intro j hj
  apply List.flatMap_congr
  intro i _
  exact segment_eq hl hc epsilon bottom height hh heps r j i (List.mem_range.1 hj)

/-- The sides face outwards. -/
theorem storey_away {lib : Library K} (hl : Standard lib) (hc : Circular lib) (bottom height : K) (hh : 0 < height) (r : Rect K) (hx : 0 < (halves r).x)
    (hy : 0 < (halves r).y) (n j i : Nat) (hn : 0 < n) :
    ∀ u ∈ storey lib bottom height r n j i, Away ⟨(centre r).x, bottom + height / 2, (centre r).y⟩ u := by
  have e : 2 * lib.pi * ((j + 1 : Nat) : K) / 7 = 2 * lib.pi * (j : K) / 7 + 2 * lib.pi / 7 := by push_cast; ring
  have hs := hl.circle (2 * lib.pi * (j : K) / 7)
  have h7 := hc.seventh
  have hq : 0 < (n : K) := by exact_mod_cast hn
  have hk : 0 < height / n := by positivity
  have area : 0 < (halves r).x * (halves r).y * lib.sin (2 * lib.pi / 7) := by positivity
  have v1 : 0 < height / n * ((halves r).x * (halves r).y * lib.sin (2 * lib.pi / 7)) := by positivity
  have v2 : 0 < height / 2 * ((halves r).x * (halves r).y * lib.sin (2 * lib.pi / 7)) := by positivity
  have hnn : height * (n : K) / n = height := by field_simp
  intro u hu
  simp only [storey, List.mem_append, List.mem_cons, List.not_mem_nil, or_false] at hu
  rcases hu with ((rfl | rfl) | hu) | hu
  · simp only [Away, apart, volume, rim, e, hc.sin_add, hc.cos_add]
    push_cast
    rw [show height * ((i : K) + 1) / n = height * i / n + height / n by ring]
    generalize lib.sin (2 * lib.pi * (j : K) / 7) = s at *
    generalize lib.cos (2 * lib.pi * (j : K) / 7) = c at *
    refine lt_of_lt_of_eq v1 ?_
    linear_combination (-(height / n) * (halves r).x * (halves r).y * lib.sin (2 * lib.pi / 7)) * hs
  · simp only [Away, apart, volume, rim, e, hc.sin_add, hc.cos_add]
    push_cast
    rw [show height * ((i : K) + 1) / n = height * i / n + height / n by ring]
    generalize lib.sin (2 * lib.pi * (j : K) / 7) = s at *
    generalize lib.cos (2 * lib.pi * (j : K) / 7) = c at *
    refine lt_of_lt_of_eq v1 ?_
    linear_combination (-(height / n) * (halves r).x * (halves r).y * lib.sin (2 * lib.pi / 7)) * hs
  · split at hu
    · simp only [List.mem_singleton] at hu
      subst hu
      simp only [Away, apart, volume, rim, core, e, hc.sin_add, hc.cos_add, Nat.cast_zero, mul_zero, zero_div]
      generalize lib.sin (2 * lib.pi * (j : K) / 7) = s at *
      generalize lib.cos (2 * lib.pi * (j : K) / 7) = c at *
      refine lt_of_lt_of_eq v2 ?_
      linear_combination (-(height / 2) * (halves r).x * (halves r).y * lib.sin (2 * lib.pi / 7)) * hs
    · simp at hu
  · split at hu
    · simp only [List.mem_singleton] at hu
      subst hu
      simp only [Away, apart, volume, rim, core, e, hc.sin_add, hc.cos_add, hnn]
      generalize lib.sin (2 * lib.pi * (j : K) / 7) = s at *
      generalize lib.cos (2 * lib.pi * (j : K) / 7) = c at *
      refine lt_of_lt_of_eq v2 ?_
      linear_combination (-(height / 2) * (halves r).x * (halves r).y * lib.sin (2 * lib.pi / 7)) * hs
    · simp at hu

theorem tower_ok {lib : Library K} (hl : Standard lib) (hc : Circular lib) (epsilon : K) (look : Look K) (bottom height : K) (hh : 0 < height)
    (heps : epsilon ≤ height) (r : Rect K) : Draws look.texture (fun m => tower lib epsilon look height bottom m r) (TowerFaces lib look bottom height r) := by
  obtain ⟨n0, e, n1, n2⟩ := ceil_nat hl height hh
  have cone : (shaft lib bottom height r).isCone epsilon = false := by
    simp only [Solids.Cylinder.isCone, shaft, sub_zero, decide_eq_false_iff_not, not_and, abs_of_pos hh]
    intro _ h
    exact absurd h (not_lt.2 heps)
  intro m done ts h
  obtain ⟨m2, h2, g2⟩ := (Drawn.facets look (((shaft lib bottom height r).generate epsilon id).map generated) h).textured
  have mem : ∀ u, u ∈ (shaft lib bottom height r).generate epsilon id ↔ ∃ j < 7, ∃ i < (lib.ceil (height / 5)).toNat,
      u ∈ storey lib bottom height r (lib.ceil (height / 5)).toNat j i := by
    intro u
    rw [generate_eq hl hc epsilon bottom height hh heps r]
    simp only [List.mem_flatMap, List.mem_range]
  refine ⟨m2, _, h2, g2, (lib.ceil (height / 5)).toNat, (shaft lib bottom height r).generate epsilon id, n1, n2, ?_, ?_, ?_, ?_, ?_, ?_⟩
  · exact C65_cylinder_partial epsilon _ id (fun h => by rw [cone] at h; simp at h)
  · rw [C78_cylinder_count epsilon _ id n0]
    rw [if_neg]
    · rfl
    · rintro ⟨-, h, -⟩
      simp only [shaft, abs_of_pos hh] at h
      exact absurd h (not_lt.2 heps)
  · intro u hu c hc'
    obtain ⟨j, hj, i, hi, hu⟩ := (mem u).1 hu
    have up : ∀ k ≤ (lib.ceil (height / 5)).toNat, ∃ j' < 7, ∃ i ≤ (lib.ceil (height / 5)).toNat, rim lib bottom height r (lib.ceil (height / 5)).toNat (j + 1) k =
        rim lib bottom height r (lib.ceil (height / 5)).toNat j' i := by
      intro k hk
      by_cases h : j = 6
      · subst h; exact ⟨0, by omega, k, hk, rim_turn hl hc ..⟩
      · exact ⟨j + 1, by omega, k, hk, rfl⟩
    have same : ∀ k ≤ (lib.ceil (height / 5)).toNat, ∃ j' < 7, ∃ i ≤ (lib.ceil (height / 5)).toNat, rim lib bottom height r (lib.ceil (height / 5)).toNat j k =
        rim lib bottom height r (lib.ceil (height / 5)).toNat j' i := fun k hk => ⟨j, hj, k, hk, rfl⟩
    simp only [storey, List.mem_append, List.mem_cons, List.not_mem_nil, or_false] at hu
    rcases hu with ((rfl | rfl) | hu) | hu
    · simp only [tips, List.mem_cons, List.not_mem_nil, or_false] at hc'
      rcases hc' with rfl | rfl | rfl
      · exact .inr (up _ hi.le)
      · exact .inr (up _ hi)
      · exact .inr (same _ hi.le)
    · simp only [tips, List.mem_cons, List.not_mem_nil, or_false] at hc'
      rcases hc' with rfl | rfl | rfl
      · exact .inr (same _ hi.le)
      · exact .inr (up _ hi)
      · exact .inr (same _ hi)
    · split at hu
      · simp only [List.mem_singleton] at hu
        subst hu
        simp only [tips, List.mem_cons, List.not_mem_nil, or_false] at hc'
        rcases hc' with rfl | rfl | rfl
        · exact .inl ⟨0, .inl rfl, rfl⟩
        · exact .inr (up _ (Nat.zero_le _))
        · exact .inr (same _ (Nat.zero_le _))
      · simp at hu
    · split at hu
      · simp only [List.mem_singleton] at hu
        subst hu
        simp only [tips, List.mem_cons, List.not_mem_nil, or_false] at hc'
        rcases hc' with rfl | rfl | rfl
        · exact .inl ⟨_, .inr rfl, rfl⟩
        · exact .inr (same _ le_rfl)
        · exact .inr (up _ le_rfl)
      · simp at hu
  · intro j hj i hi
    rcases Nat.lt_or_ge i (lib.ceil (height / 5)).toNat with h | h
    · exact ⟨_, (mem _).2 ⟨j, hj, i, h, List.mem_append_left _ (List.mem_append_left _ (List.mem_cons_self ..))⟩, by simp [tips]⟩
    · refine ⟨_, (mem _).2 ⟨j, hj, i - 1, by omega, List.mem_append_left _ (List.mem_append_left _ (List.mem_cons_of_mem _ (List.mem_singleton.2 rfl)))⟩, ?_⟩
      rw [show i - 1 + 1 = i by omega]
      simp [tips]
  · intro hx hy u hu
    obtain ⟨j, hj, i, hi, hu⟩ := (mem u).1 hu
    exact storey_away hl hc bottom height hh r hx hy _ j i n0 u hu
  · rw [List.map_map]
    rfl

/-! ### Rectangles -/

/-- The rectangle of a polygon was grown by all of its points. -/
theorem rectangle_points (epsilon huge tiny : K) (cs : List (List (Vec K) × Bool)) (p0 p : Poly K) (h : Polygon.addAll epsilon huge tiny p0 cs = .ok p)
    (h0 : ∃ pts : List (Vec K), p0.points = pts.flatMap (fun v => [v.x, v.y]) ∧ p0.rectangle = (Rect.empty huge tiny).expandAll pts) :
    ∃ pts : List (Vec K), p.points = pts.flatMap (fun v => [v.x, v.y]) ∧ p.rectangle = (Rect.empty huge tiny).expandAll pts := by
  induction cs generalizing p0 with
  | nil => simp only [Polygon.addAll, Outcome.ok.injEq] at h; subst h; exact h0
  | cons c cs ih =>
    simp only [Polygon.addAll] at h
    obtain ⟨pts, e1, e2⟩ := h0
    unfold Polygon.addContour at h
    have grow : ∀ (q : Poly K) (vs : List (Vec K)) (o n : Nat), q.points = p0.points → q.rectangle = p0.rectangle →
        ∃ pts : List (Vec K), (Polygon.addPoints o n 0 q vs).points = pts.flatMap (fun v => [v.x, v.y]) ∧
          (Polygon.addPoints o n 0 q vs).rectangle = (Rect.empty huge tiny).expandAll pts := by
      intro q vs o n hq1 hq2
      rw [PolygonProof.addPoints_eq]
      refine ⟨pts ++ vs, ?_, ?_⟩
      · simp only [hq1, e1, List.flatMap_append]
      · simp only [hq2, e2, Rect.expandAll, List.foldl_append]
    split at h
    · simp only at h
      split at h
      · split at h
        · exact ih _ (by simpa [Outcome.bind] using h) ⟨pts, e1, e2⟩
        · rw [bind_okl] at h
          exact ih _ h (grow _ _ _ _ rfl rfl)
      · rw [bind_okl] at h
        exact ih _ h (grow _ _ _ _ rfl rfl)
    · simp [Outcome.bind] at h

theorem smallest_congr {r : Rect K} {a b : List (Vec K)} (h : ∀ v, v ∈ a ↔ v ∈ b) (hs : Smallest r a) : Smallest r b :=
  ⟨fun p hp => hs.1 p ((h p).2 hp), fun r' hr' => hs.2 r' fun p hp => hr' p ((h p).1 hp)⟩

theorem smallest_of {huge tiny : K} {a : List (Vec K)} (h : NorthEast huge tiny a) : Smallest ((Rect.empty huge tiny).expandAll a) a := by
  obtain ⟨⟨px, h1, h2⟩, ⟨py, h3, h4⟩, h5⟩ := h
  exact C46_smallest_partial huge tiny a px py h1 h2 h3 h4 h5

theorem stored_mem {p : Poly K} {rings : List (List (Vec K))} {ranges : List (Nat × Nat)} (h : List.Forall₂ (Stored p) rings ranges)
    {range : Nat × Nat} (hr : range ∈ ranges) : ∃ ring ∈ rings, Stored p ring range := by
  induction h with
  | nil => simp at hr
  | cons hs _ ih =>
    rcases List.mem_cons.1 hr with rfl | hr
    · exact ⟨_, List.mem_cons_self .., hs⟩
    · obtain ⟨ring, h1, h2⟩ := ih hr
      exact ⟨ring, List.mem_cons_of_mem _ h1, h2⟩

theorem mem_stored {p : Poly K} {rings : List (List (Vec K))} {ranges : List (Nat × Nat)} (h : List.Forall₂ (Stored p) rings ranges)
    {ring : List (Vec K)} (hr : ring ∈ rings) : ∃ range ∈ ranges, Stored p ring range := by
  induction h with
  | nil => simp at hr
  | cons hs _ ih =>
    rcases List.mem_cons.1 hr with rfl | hr
    · exact ⟨_, List.mem_cons_self .., hs⟩
    · obtain ⟨range, h1, h2⟩ := ih hr
      exact ⟨range, List.mem_cons_of_mem _ h1, h2⟩

/-- The points of a polygon are those of its rings. -/
theorem points_of_rings {p : Poly K} {rings : List (List (Vec K))} {ranges : List (Nat × Nat)} (h : List.Forall₂ (Stored p) rings ranges)
    (hall : ∀ i, 2 * i < p.points.length → ∃ r ∈ ranges, r.1 ≤ 2 * i ∧ 2 * i < r.2) {pts : List (Vec K)}
    (hp : p.points = pts.flatMap fun v => [v.x, v.y]) (v : Vec K) : v ∈ pts ↔ v ∈ rings.flatten := by
  have hlen : p.points.length = 2 * pts.length := by rw [hp, PolygonProof.pairs_length]
  rw [List.mem_flatten]
  constructor
  · intro hv
    obtain ⟨i, hi⟩ := List.mem_iff_getElem?.1 hv
    have hil := (List.getElem?_eq_some_iff.1 hi).1
    obtain ⟨range, hr, h1, h2⟩ := hall i (by omega)
    obtain ⟨ring, hring, lo, rfl, -, -, hpts⟩ := stored_mem h hr
    refine ⟨ring, hring, ?_⟩
    simp only at h1 h2
    have hw : ring[i - lo]? = some (ring[i - lo]'(by omega)) := List.getElem?_eq_getElem (by omega)
    obtain ⟨a, b⟩ := hpts _ _ hw
    rw [show lo + (i - lo) = i by omega, hp] at a b
    obtain ⟨c, d⟩ := PolygonProof.pairs_get (fun v : Vec K => v.x) (fun v => v.y) pts i v hi
    rw [c] at a
    rw [d] at b
    have : v = ring[i - lo]'(by omega) := by
      cases v
      rw [Polygon.Vec.mk.injEq] at *
      exact ⟨by simpa using a, by simpa using b⟩
    rw [this]
    exact List.getElem_mem _
  · rintro ⟨ring, hring, hv⟩
    obtain ⟨range, -, lo, rfl, hle, -, hpts⟩ := mem_stored h hring
    obtain ⟨i, hi⟩ := List.mem_iff_getElem?.1 hv
    have hil := (List.getElem?_eq_some_iff.1 hi).1
    obtain ⟨a, b⟩ := hpts _ _ hi
    simp only at hle
    have hw : pts[lo + i]? = some (pts[lo + i]'(by omega)) := List.getElem?_eq_getElem (by omega)
    obtain ⟨c, d⟩ := PolygonProof.pairs_get (fun v : Vec K => v.x) (fun v => v.y) pts _ _ hw
    rw [hp] at a b
    rw [c] at a
    rw [d] at b
    have : v = pts[lo + i]'(by omega) := by
      cases v
      rw [Polygon.Vec.mk.injEq] at *
      exact ⟨by simpa using a.symm, by simpa using b.symm⟩
    rw [this]
    exact List.getElem_mem _

/-- The smallest rectangle of a ring is that of all rings inside of it. -/
theorem smallest_holes {r : Rect K} {outline : List (Vec K)} {holes : List (List (Vec K))} (h : Smallest r (outline ++ holes.flatten))
    (hs : ∃ r', Smallest r' outline) (hin : HolesWithin [outline] holes) : Smallest r outline := by
  obtain ⟨r', h'⟩ := hs
  refine ⟨fun p hp => h.1 p (List.mem_append_left _ hp), fun r'' hr'' => ?_⟩
  obtain ⟨a1, a2, a3, a4⟩ := h.2 r' fun p hp => by
    rcases List.mem_append.1 hp with hp | hp
    · exact h'.1 p hp
    · obtain ⟨hole, hh, hp⟩ := List.mem_flatten.1 hp
      exact hin outline (List.mem_singleton.2 rfl) hole hh p hp r' h'
  obtain ⟨b1, b2, b3, b4⟩ := h'.2 r'' hr''
  exact ⟨le_trans b1 a1, le_trans a2 b2, le_trans b3 a3, le_trans a4 b4⟩

/-- Something is drawn in the rectangle of each outline. -/
theorem outerRectangles_draws (env : Env K) (t : Texture) (p : Poly K) (visitor : Mesh K → Rect K → Outcome (Mesh K)) (F : Rect K → List (Triangle K) → Prop)
    (hv : ∀ r, Draws t (fun m => visitor m r) (F r)) (outlines holes : List (List (Vec K))) (ho : List.Forall₂ (Stored p) outlines p.outers)
    (hr : Smallest p.rectangle (outlines ++ holes).flatten) (hne : ∀ o ∈ outlines, NorthEast env.huge env.tiny o) (hin : HolesWithin outlines holes) :
    Draws t (outerRectangles env p visitor) (InRectangles F outlines) := by
  have general : Draws t (fun m => foldO (fun m outer => (rangePoints p outer).bind fun points => visitor m ((Rect.empty env.huge env.tiny).expandAll points)) m p.outers)
      (InRectangles F outlines) := by
    intro m done ts h
    obtain ⟨m1, news, h1, g1, r1⟩ := Drawn.foldEx (fun m outer => (rangePoints p outer).bind fun points => visitor m ((Rect.empty env.huge env.tiny).expandAll points)) _
      (fun ring new => ∃ r, Smallest r ring ∧ F r new) (fun ring range hs m ts h => by
        obtain ⟨m', new, a1, a2, a3⟩ := hv ((Rect.empty env.huge env.tiny).expandAll ring) m done ts h
        refine ⟨m', new, ?_, a2, _, smallest_of hs.2, a3⟩
        simp only [rangePoints_eq p ring range hs.1, bind_okl]
        exact a1) (forall₂_and ho hne) h
    exact ⟨m1, _, h1, g1, news, r1, rfl⟩
  intro m done ts h
  unfold outerRectangles
  split
  · rename_i range heq
    rw [heq] at ho
    obtain ⟨outline, rest, -, hrest, rfl⟩ := List.forall₂_cons_right_iff.1 ho
    obtain rfl := List.forall₂_nil_right_iff.1 hrest
    obtain ⟨m', new, a1, a2, a3⟩ := hv p.rectangle m done ts h
    refine ⟨m', new, a1, a2, [new], .cons ⟨p.rectangle, ?_, a3⟩ .nil, by simp⟩
    exact smallest_holes (by simpa using hr) ⟨_, smallest_of (hne _ (List.mem_cons_self ..))⟩ hin
  · exact general m done ts h

end CurvedProof

open CurvedProof
variable {K : Type} [Field K] [LinearOrder K] [IsStrictOrderedRing K]

/-- C46: the rectangle of a polygon is the smallest one around all of its contours. Partial: there is a point east of Greenwich and one north of the
equator. -/
theorem C46_polygon_partial (epsilon huge tiny : K) (cs : List (List (Vec K) × Bool)) (hne : ∀ c ∈ cs, c.1 ≠ []) :
    ∃ p kept, Polygon.addAll epsilon huge tiny { rectangle := .empty huge tiny } cs = .ok p ∧
      List.Forall₂ (Stored p) ((cs.filter fun c => !c.2).map fun c => opened epsilon c.1) p.outers ∧
      kept.Sublist ((cs.filter fun c => c.2).map fun c => opened epsilon c.1) ∧ List.Forall₂ (Stored p) kept p.inners ∧
      (NorthEast huge tiny (((cs.filter fun c => !c.2).map fun c => opened epsilon c.1) ++ kept).flatten →
        Smallest p.rectangle (((cs.filter fun c => !c.2).map fun c => opened epsilon c.1) ++ kept).flatten) := by
  obtain ⟨p, kept, h1, h2, h3, h4, -, -, h7⟩ := C45_closed_partial epsilon huge tiny cs hne
  refine ⟨p, kept, h1, h2, h3, h4, fun hn => ?_⟩
  obtain ⟨pts, e1, e2⟩ := rectangle_points epsilon huge tiny cs _ p h1 ⟨[], rfl, rfl⟩
  have mem := points_of_rings (List.rel_append h2 h4) (fun i hi => by
    obtain ⟨r, a, b, -⟩ := h7 i hi
    exact ⟨r, a, b⟩) e1
  rw [e2]
  refine smallest_congr mem (smallest_of ?_)
  obtain ⟨⟨px, a1, a2⟩, ⟨py, a3, a4⟩, a5⟩ := hn
  exact ⟨⟨px, (mem px).2 a1, a2⟩, ⟨py, (mem py).2 a3, a4⟩, fun v hv => a5 v ((mem v).1 hv)⟩

/-- C89: a part is drawn as its roof, its floor and its facade: a dome is three fifths of a sphere of 80 triangles without border which faces outwards, in
the smallest rectangle around each outline; what is left out is in the lower half. A cylinder is a prism with seven sides from the bottom to the top, in
storeys of at most five meters, closed, facing outwards, in the rectangle of each outline; and a sphere is a whole one in the rectangle around all rings
with its middle at the bottom. Partial: only without roof, with flat, pyramidal roofs or domes, over each outline there is a point east of Greenwich and
one north of the equator, holes are within the rectangle of the outline, and the part is not lower than epsilon. -/
theorem C89_part_partial (lib : Library K) (hl : Standard lib) (hc : Circular lib) (env : Env K) (heps : env.epsilon ≤ 1 / 2) (part : BuildingSpec.Part K) (id : UInt64)
    (m : Mesh K) (done : List (Triangle K × Texture)) (hm : Built m) (hs : Paints m done []) (start : Geo K) (hd : Drawable (complete lib env) part start)
    (hroof : part.style.roofType ∈ ["none", "flat", "pyramidal", "dome"]) (hfacade : part.style.facadeType ∈ ["flat", "cylinder", "sphere"])
    (hheight : 0 < (if part.style.height = 0 then 10 else part.style.height) - part.style.minHeight)
    (hmore : env.epsilon ≤ (if part.style.height = 0 then 10 else part.style.height) - part.style.minHeight)
    (hne : ∀ r ∈ part.rings, NorthEast env.huge env.tiny (opened env.epsilon r.1))
    (hin : HolesWithin ((part.rings.filter fun r => !r.2).map fun r => opened env.epsilon r.1) ((part.rings.filter fun r => r.2).map fun r => opened env.epsilon r.1)) :
    DrawnAs (complete lib env) part id m done start
      (fun io outlines _ top roof => AnyRoof lib (part.style.roofLook id) part.style.roofType part.style.roofHeight top io outlines roof)
      (fun outlines holes bottom top walls => AnyFacade lib (part.style.facadeLook id) part.style.facadeType bottom top outlines holes walls) := by
  obtain ⟨⟨ring, rest, hf⟩, hrings, htri⟩ := hd
  obtain ⟨p, holes, hp, ho, hk, hi, hsmall⟩ := C46_polygon_partial (complete lib env).epsilon (complete lib env).huge (complete lib env).tiny part.rings (by
    intro r hr hc; exact hrings r hr (by rw [hc]; rfl))
  have hfirst := first_point _ part p hp start ring rest hf hrings
  have hout : ∀ o ∈ (part.rings.filter fun r => !r.2).map fun r => opened env.epsilon r.1, NorthEast env.huge env.tiny o := by
    intro o h
    obtain ⟨r, hr, rfl⟩ := List.mem_map.1 h
    exact hne r (List.mem_filter.1 hr).1
  have hhole : ∀ o ∈ holes, NorthEast env.huge env.tiny o := by
    intro o h
    obtain ⟨r, hr, rfl⟩ := List.mem_map.1 (hk.subset h)
    exact hne r (List.mem_filter.1 hr).1
  have hall : NorthEast env.huge env.tiny (((part.rings.filter fun r => !r.2).map fun r => opened env.epsilon r.1) ++ holes).flatten := by
    obtain ⟨⟨px, a1, a2⟩, ⟨py, a3, a4⟩, -⟩ := hne (ground start :: ring, false) (by rw [hf]; exact List.mem_cons_self ..)
    have hm0 : opened env.epsilon (ground start :: ring) ∈ (part.rings.filter fun r => !r.2).map fun r => opened env.epsilon r.1 := by
      rw [hf]; simp
    refine ⟨⟨px, List.mem_flatten.2 ⟨_, List.mem_append_left _ hm0, a1⟩, a2⟩, ⟨py, List.mem_flatten.2 ⟨_, List.mem_append_left _ hm0, a3⟩, a4⟩, ?_⟩
    intro v hv
    obtain ⟨o, ho, hv⟩ := List.mem_flatten.1 hv
    rcases List.mem_append.1 ho with ho | ho
    · exact (hout o ho).2.2 v hv
    · exact (hhole o ho).2.2 v hv
  have hrect := hsmall hall
  have hin' : HolesWithin ((part.rings.filter fun r => !r.2).map fun r => opened env.epsilon r.1) holes := fun o h1 h h2 => hin o h1 h (hk.subset h2)
  have roofs : ∃ face, roofOf (complete lib env) part.style.roofType = some face ∧
      Draws (part.style.roofLook id).texture (face (part.style.roofLook id) part.style.roofDirection part.style.roofHeight
        ((complete lib env).elevation start + (if part.style.height = 0 then 10 else part.style.height)) p)
        (AnyRoof lib (part.style.roofLook id) part.style.roofType part.style.roofHeight
          ((complete lib env).elevation start + (if part.style.height = 0 then 10 else part.style.height)) ((complete lib env).triangulate p)
          ((part.rings.filter fun r => !r.2).map fun r => opened env.epsilon r.1)) := by
    by_cases hdome : part.style.roofType = "dome"
    · refine ⟨domeRoof lib env, by simp [roofOf, hdome, complete, otherRoof], fun m done ts h => ?_⟩
      obtain ⟨m', new, a1, a2, a3⟩ := outerRectangles_draws env (part.style.roofLook id).texture p (ball lib env.epsilon (part.style.roofLook id) true
        ((complete lib env).elevation start + (if part.style.height = 0 then 10 else part.style.height))) _
        (fun r => dome_ok hl env.epsilon heps _ _ r) _ holes ho hrect hout hin' m done ts h
      exact ⟨m', new, a1, a2, .inr ⟨hdome, a3⟩⟩
    · obtain ⟨face, a1, a2⟩ := roof_draws (complete lib env) part.style id ((complete lib env).elevation start + (if part.style.height = 0 then 10 else part.style.height)) p _ ho
        (htri p hp) (by simpa [hdome] using hroof)
      refine ⟨face, a1, fun m done ts h => ?_⟩
      obtain ⟨m', new, b1, b2, b3⟩ := a2 m done ts h
      exact ⟨m', new, b1, b2, .inl b3⟩
  have facades : ∃ face, facadeOf (complete lib env) part.style.facadeType = some face ∧
      Draws (part.style.facadeLook id).texture (face (part.style.facadeLook id) "" ((if part.style.height = 0 then 10 else part.style.height) - part.style.minHeight)
        ((complete lib env).elevation start + part.style.minHeight) p)
        (AnyFacade lib (part.style.facadeLook id) part.style.facadeType ((complete lib env).elevation start + part.style.minHeight)
          ((complete lib env).elevation start + (if part.style.height = 0 then 10 else part.style.height))
          ((part.rings.filter fun r => !r.2).map fun r => opened env.epsilon r.1) holes) := by
    have e : (complete lib env).elevation start + (if part.style.height = 0 then 10 else part.style.height) - ((complete lib env).elevation start + part.style.minHeight) =
      (if part.style.height = 0 then 10 else part.style.height) - part.style.minHeight := by ring
    simp only [List.mem_cons, List.not_mem_nil, or_false] at hfacade
    rcases hfacade with h0 | h0 | h0
    · refine ⟨_, by simp only [facadeOf, h0, if_true]; rfl, fun m done ts h => ?_⟩
      obtain ⟨m', new, a1, a2, a3⟩ := flatFacade_draws (part.style.facadeLook id).texture (part.style.facadeLook id)
        ((if part.style.height = 0 then 10 else part.style.height) - part.style.minHeight) ((complete lib env).elevation start + part.style.minHeight) p _ holes ho hi m done ts h
      refine ⟨m', new, a1, a2, .inl ⟨h0, ?_⟩⟩
      rw [a3, ← e]
      ring_nf
      rfl
    · refine ⟨cylinderFacade lib env, by simp [facadeOf, h0, complete, otherFacade], fun m done ts h => ?_⟩
      obtain ⟨m', new, a1, a2, a3⟩ := outerRectangles_draws env (part.style.facadeLook id).texture p (tower lib env.epsilon (part.style.facadeLook id)
        ((if part.style.height = 0 then 10 else part.style.height) - part.style.minHeight) ((complete lib env).elevation start + part.style.minHeight)) _
        (fun r => tower_ok hl hc env.epsilon _ _ _ hheight hmore r) _ holes ho hrect hout hin' m done ts h
      exact ⟨m', new, a1, a2, .inr (.inl ⟨h0, by rw [e]; exact a3⟩)⟩
    · refine ⟨sphereFacade lib env, by simp [facadeOf, h0, complete, otherFacade], fun m done ts h => ?_⟩
      obtain ⟨m', new, a1, a2, a3⟩ := sphere_ok hl env.epsilon heps (part.style.facadeLook id) ((complete lib env).elevation start + part.style.minHeight) p.rectangle m done ts h
      exact ⟨m', new, a1, a2, .inr (.inr ⟨h0, p.rectangle, hrect, a3⟩)⟩
  obtain ⟨roof, r1, r2⟩ := roofs
  obtain ⟨facade, f1, f2⟩ := facades
  obtain ⟨m', top, floor, walls, h1, h2, h3, h4, h5, h6⟩ := part_drawn _ part id m done hm hs p hp start hfirst (htri p hp) roof facade _ _ r1 f1 r2 f2
  exact ⟨p, holes, m', top, floor, walls, hp, ho, hi, hk, h1, h2, h3, h4, h6, h5⟩

namespace CurvedProof

theorem sphere_low {lib : Library K} (hl : Standard lib) (epsilon : K) (heps : epsilon ≤ 1 / 2) (look : Look K) (semi : Bool) (bottom : K) (r : Rect K)
    (hpos : 0 < lib.distance ⟨(centre r).y, (centre r).x⟩ ⟨(centre r).y + (halves r).y, (centre r).x⟩) :
    Draws look.texture (fun m => ball lib epsilon look semi bottom m r) (fun new => ∃ t ∈ new, t.1.position.y < bottom) := by
  obtain ⟨g1, g2⟩ := golden hl
  set phi := (1 + lib.sqrt 5) / 2 with hphi
  set unit := normalized lib.sqrt epsilon with hunit
  obtain ⟨ts, h1, h2, h3, h4⟩ := C48_sphere_partial (middleOf unit) (SolidsShapeProof.middle_symm _) (bulge lib bottom r) (createVertexList unit phi) rfl semi 1
  have low : (unit ⟨0, -1, phi⟩).y < 0 := by
    have hq : dot (⟨0, -1, phi⟩ : Vec3 K) ⟨0, -1, phi⟩ = phi + 2 := by simp only [dot]; linear_combination g2
    rw [hunit, SolidsShapeProof.norm_eq lib.sqrt hl.sqrt epsilon heps _ _ hq (by linarith)]
    obtain ⟨s1, s2⟩ := hl.sqrt (phi + 2) (by linarith)
    have : 0 < lib.sqrt (phi + 2) := lt_of_le_of_ne s1 fun h => by rw [← h] at s2; linarith
    exact div_neg_of_neg_of_pos (by simp) this
  have mem : (unit ⟨0, 1, phi⟩, unit ⟨-phi, 0, 1⟩, unit ⟨0, -1, phi⟩) ∈ ts := by
    obtain ⟨cs, c1, -, c3⟩ := SolidsProof.pointsOf_total (createVertexList unit phi) (if semi then semiSphereFaces else sphereFaces) (SolidsProof.faces_small semi)
    rw [h1] at c1
    cases c1
    rw [c3 (fun i => (createVertexList unit phi)[i]?.getD ⟨0, 0, 0⟩) (fun i v hv => by simp [hv])]
    refine List.mem_map.2 ⟨(5, 11, 4), by cases semi <;> decide, rfl⟩
  intro m done ts' h
  obtain ⟨m', new, a1, a2, a3⟩ := ball_draws epsilon look.texture look rfl semi bottom r _ h3 m done ts' h
  refine ⟨m', new, a1, a2, ?_⟩
  rw [a3]
  refine ⟨_, List.mem_map.2 ⟨_, List.mem_flatMap.2 ⟨_, mem, List.mem_cons_of_mem _ (List.mem_cons_of_mem _ (List.mem_cons_self ..))⟩, rfl⟩, ?_⟩
  simp only [whole, facet, bulge, ellipsoid]
  nlinarith [mul_pos_of_neg_of_neg low (neg_lt_zero.2 hpos)]

end CurvedProof

/-- C89: a dome sticks out below the top of the walls: some of its corners are in the lower half of the sphere, however high the roof is. -/
theorem C89_violated_dome (lib : Library K) (hl : Standard lib) (env : Env K) (heps : env.epsilon ≤ 1 / 2) (look : Look K) (direction : String) (height bottom : K)
    (p : Poly K) (range : Nat × Nat) (hp : p.outers = [range])
    (hpos : 0 < lib.distance ⟨(centre p.rectangle).y, (centre p.rectangle).x⟩ ⟨(centre p.rectangle).y + (halves p.rectangle).y, (centre p.rectangle).x⟩) :
    Draws look.texture (domeRoof lib env look direction height bottom p) (fun new => ∃ t ∈ new, t.1.position.y < bottom) := by
  have := sphere_low hl env.epsilon heps look true bottom p.rectangle hpos
  intro m done ts h
  obtain ⟨m', new, a1, a2, a3⟩ := this m done ts h
  refine ⟨m', new, ?_, a2, a3⟩
  unfold domeRoof outerRectangles
  rw [hp]
  exact a1

/-- C89: a sphere begins below the bottom of its part. -/
theorem C89_violated_sphere (lib : Library K) (hl : Standard lib) (env : Env K) (heps : env.epsilon ≤ 1 / 2) (look : Look K) (direction : String) (height bottom : K)
    (p : Poly K)
    (hpos : 0 < lib.distance ⟨(centre p.rectangle).y, (centre p.rectangle).x⟩ ⟨(centre p.rectangle).y + (halves p.rectangle).y, (centre p.rectangle).x⟩) :
    Draws look.texture (sphereFacade lib env look direction height bottom p) (fun new => ∃ t ∈ new, t.1.position.y < bottom) :=
  sphere_low hl env.epsilon heps look false bottom p.rectangle hpos

/-- C89: a cylinder around an outline west of Greenwich reaches to the zero meridian. -/
theorem C89_violated_west (lib : Library K) (hl : Standard lib) (hc : Circular lib) (env : Env K) (look : Look K) (direction : String) (height bottom : K)
    (hh : 0 < height) (heps : env.epsilon ≤ height) (p : Poly K) (ring : List (Vec K)) (hp : Single env p ring) (hwest : ∀ v ∈ ring, v.x ≤ env.tiny) :
    Draws look.texture (cylinderFacade lib env look direction height bottom p)
      (fun new => ∃ t ∈ new, ∃ c ∈ [t.1.position, t.2.1.position, t.2.2.position], c.x = env.tiny) := by
  intro m done ts h
  obtain ⟨m', new, a1, a2, n, us, -, -, -, -, -, hall, -, rfl⟩ := tower_ok hl hc env.epsilon look bottom height hh heps p.rectangle m done ts h
  refine ⟨m', _, ?_, a2, ?_⟩
  · unfold cylinderFacade outerRectangles
    rw [hp.outers]
    exact a1
  · obtain ⟨u, hu, hm⟩ := hall 0 (by omega) 0 (Nat.zero_le _)
    refine ⟨_, List.mem_map.2 ⟨u, hu, rfl⟩, _, hm, ?_⟩
    have hx : p.rectangle.xMax = env.tiny := by
      rw [hp.rectangle]
      obtain ⟨-, -, h3, -⟩ := PolygonProof.expandAll_spec ring (Rect.empty env.huge env.tiny)
      refine le_antisymm ((h3 _).2 ⟨le_refl _, hwest⟩) ((h3 _).1 (le_refl _)).1
    simp only [rim, Nat.cast_zero, mul_zero, zero_div, hl.zero.2, centre, halves, hx]
    ring

namespace CurvedProof

theorem circular (parseDouble : String → ℝ) (distance : Geo ℝ → Geo ℝ → ℝ) (offset : Terrain.Path → ℝ → List Terrain.Path) :
    Circular (realLibrary parseDouble distance offset) where
  sin_add x y := Real.sin_add x y
  cos_add x y := Real.cos_add x y
  seventh := Real.sin_pos_of_pos_of_lt_pi (by have := Real.pi_pos; simp only [realLibrary]; positivity)
    (by have := Real.pi_pos; simp only [realLibrary]; linarith)

/-- A round tower or a ball on a house of 4 to 3 meters, on pillars of 2 meters. -/
noncomputable def roundHouse (roof facade : String) : Style ℝ := ⟨true, false, 12, 2, roof, 5, "", facade, fun _ => realLook, fun _ => realLook⟩

/-- A house without a hole east of Greenwich. -/
example (parseDouble : String → ℝ) (distance : Geo ℝ → Geo ℝ → ℝ) (offset : Terrain.Path → ℝ → List Terrain.Path) (roof facade : String)
    (hroof : roof ∈ ["none", "flat", "pyramidal", "dome"]) (hfacade : facade ∈ ["flat", "cylinder", "sphere"]) :
    DrawnAs (complete (realLibrary parseDouble distance offset) (realWorld roof "")) ⟨roundHouse roof facade, [(realRing, false)]⟩ 7 {} [] ⟨0, 0⟩
      (fun io outlines _ top new => AnyRoof (realLibrary parseDouble distance offset) realLook roof 5 top io outlines new)
      (fun outlines holes bottom top walls => AnyFacade (realLibrary parseDouble distance offset) realLook facade bottom top outlines holes walls) := by
  refine C89_part_partial _ (C86_library ..) (circular ..) (realWorld roof "") (by norm_num [realWorld]) ⟨roundHouse roof facade, [(realRing, false)]⟩ 7 {} []
    Built.empty ⟨[], [], [], ⟨rfl, by simp, by simp⟩, rfl, .nil, .nil⟩ ⟨0, 0⟩ ⟨⟨_, [], rfl⟩, ?_, ?_⟩ hroof hfacade (by norm_num [roundHouse]) (by norm_num [roundHouse, realWorld]) ?_ ?_
  · exact (realHouse_drawable (realLibrary parseDouble distance offset) roof "").rings
  · intro p hp
    exact (realHouse_drawable (realLibrary parseDouble distance offset) roof "").library p hp
  · intro r hr
    simp only [List.mem_singleton] at hr
    subst hr
    rw [show opened (realWorld roof "").epsilon (realRing, false).1 = realRing from realRing_opened _ rfl]
    refine ⟨⟨⟨4, 3⟩, by simp [realRing], by norm_num [realWorld]⟩, ⟨⟨4, 3⟩, by simp [realRing], by norm_num [realWorld]⟩, ?_⟩
    intro v hv
    simp only [realRing, List.mem_cons, List.not_mem_nil, or_false] at hv
    rcases hv with rfl | rfl | rfl | rfl <;> norm_num [realWorld]
  · intro o _ h hh
    simp at hh

/-- A polygon west of Greenwich. -/
example (parseDouble : String → ℝ) (distance : Geo ℝ → Geo ℝ → ℝ) (offset : Terrain.Path → ℝ → List Terrain.Path) (env : Env ℝ) (htiny : 0 < env.tiny) (p : Poly ℝ)
    (hp : Single env p [⟨-4, 0⟩, ⟨-1, 0⟩, ⟨-1, 3⟩, ⟨-4, 3⟩]) (heps : env.epsilon ≤ 12) (look : Look ℝ) :
    Draws look.texture (cylinderFacade (realLibrary parseDouble distance offset) env look "" 12 0 p)
      (fun new => ∃ t ∈ new, ∃ c ∈ [t.1.position, t.2.1.position, t.2.2.position], c.x = env.tiny) := by
  refine C89_violated_west _ (C86_library ..) (circular ..) env look "" 12 0 (by norm_num) heps p _ hp ?_
  intro v hv
  simp only [List.mem_cons, List.not_mem_nil, or_false] at hv
  rcases hv with rfl | rfl | rfl | rfl <;> simp only <;> linarith

end CurvedProof

end Verif.Props
