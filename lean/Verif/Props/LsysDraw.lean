import Verif.Model.LsysDraw
import Verif.Props.Along
import Verif.Props.Curved
import Verif.Props.LsysDrawSpec
import Verif.Props.Strings
import Verif.Props.Turtle

/-! # C90: what an L-system draws -/
namespace Verif.Props
open Verif.MeshBuilder Verif.MeshSpec Verif.ShownSpec Verif.RoofsSpec Verif.CurvedSpec Verif.LsysDrawSpec Verif.LsysDraw
open Verif.Building (Look)
open Verif.Roofs (Library addFacet generated)
open Verif.SolidsSpec (Closed divided quarters)
open Verif.SolidsShapeSpec (Outward ellipsoid volume dot)
open Verif.Solids (Cylinder normalized middleOf placeAt createVertexList)
open Verif.Lsys (Shape State Rule Op Turtle Settings LSystem)
open Verif.LsysSpec (Frame)
open BuildingProof RoofsProof

namespace LsysDrawProof
set_option linter.unusedSectionVars false
variable {K : Type} [Field K] [LinearOrder K] [IsStrictOrderedRing K]

/-! ### The ground -/

theorem translate_eq (lib : Library K) (s : Setup K) (v : Vec3 K) : translate lib s v = ground lib s.position s.minHeight v := by
  simp only [translate, worldToGeo, ground, Vec3.mk.injEq]
  refine ⟨?_, by ring, ?_⟩
  · rw [show (40075160 : K) * lib.cos (lib.pi * s.position.lat / 180) = 360 * (40075160 / 360 * lib.cos (lib.pi * s.position.lat / 180)) by ring,
      mul_comm v.x 360, mul_div_mul_left _ _ (by norm_num)]
  · rw [div_div_eq_mul_div]

/-! ### Cylinders and cones -/

theorem segment_map (epsilon : K) (c : Cylinder K) (f : Vec3 K → Vec3 K) (j i : Nat) :
    c.segment epsilon f j i = (c.segment epsilon id j i).map fun u => (f u.1, f u.2.1, f u.2.2) := by
  unfold Cylinder.segment
  simp only [List.map_append, id]
  congr 1
  · congr 1
    split <;> rfl
  · split <;> rfl

theorem generate_map (epsilon : K) (c : Cylinder K) (f : Vec3 K → Vec3 K) :
    c.generate epsilon f = (c.generate epsilon id).map fun u => (f u.1, f u.2.1, f u.2.2) := by
  unfold Cylinder.generate
  simp only [List.map_flatMap]
  refine List.flatMap_congr fun j _ => List.flatMap_congr fun i _ => segment_map epsilon c f j i

theorem turned_eq {lib : Library K} (hl : Standard lib) (hc : Circular lib) (st : State K) (h : Frame st.direction st.right) (j : Nat) :
    turned lib st j =
      ⟨lib.cos (2 * lib.pi * j / 7) * st.right.x + lib.sin (2 * lib.pi * j / 7) * (st.direction.y * st.right.z - st.direction.z * st.right.y),
       lib.cos (2 * lib.pi * j / 7) * st.right.y + lib.sin (2 * lib.pi * j / 7) * (st.direction.z * st.right.x - st.direction.x * st.right.z),
       lib.cos (2 * lib.pi * j / 7) * st.right.z + lib.sin (2 * lib.pi * j / 7) * (st.direction.x * st.right.y - st.direction.y * st.right.x)⟩ := by
  have e : 2 * lib.pi * (j : K) / 7 = (j : K) * (2 * lib.pi / 7) * (1 / 2) + (j : K) * (2 * lib.pi / 7) * (1 / 2) := by ring
  obtain ⟨h1, h2, h3⟩ := h
  have hcirc := hl.circle ((j : K) * (2 * lib.pi / 7) * (1 / 2))
  rw [e, hc.sin_add, hc.cos_add]
  unfold turned
  simp only
  rw [(C54_angle _ _ (by linear_combination hcirc) st.direction st.right (by simp only [QuaternionSpec.lengthSq]; linear_combination h1)
    (by simp only [Quaternion.Vec3.dot]; linear_combination h3)).2]
  simp only [vec, Quaternion.Vec3.add, Quaternion.Vec3.scale, Quaternion.Vec3.cross, Vec3.mk.injEq]
  refine ⟨by ring, by ring, by ring⟩

theorem around_turn {lib : Library K} (hl : Standard lib) (hc : Circular lib) (st : State K) (h radius : K) :
    around lib st h radius 7 = around lib st h radius 0 := by
  have e7 : 2 * lib.pi * ((7 : Nat) : K) / 7 = lib.pi + lib.pi := by push_cast; ring
  have e0 : 2 * lib.pi * ((0 : Nat) : K) / 7 = 0 := by simp
  unfold around
  rw [e7, e0, hc.cos_add, hc.sin_add, hl.half.1, hl.half.2, hl.zero.1, hl.zero.2]
  simp

/-- The triangles of one side; `top` is the radius at the top. -/
def side (lib : Library K) (st : State K) (top : K) (cap : Bool) (j : Nat) : List (Tri K) :=
  let P := around lib st 0 st.width
  let Q := around lib st st.length top
  [(P (j + 1), Q (j + 1), P j), (P j, Q (j + 1), Q j), (axis st 0, P (j + 1), P j)] ++ if cap then [(axis st st.length, Q j, Q (j + 1))] else []

theorem generate_eq {lib : Library K} (hl : Standard lib) (hc : Circular lib) (epsilon : K) (st : State K) (hf : Frame st.direction st.right) (top y : K) :
    (cylinderOf lib st ⟨top, y, top⟩).generate epsilon id =
      (List.range 7).flatMap (side lib st top (!(cylinderOf lib st ⟨top, y, top⟩).isCone epsilon)) := by
  unfold Cylinder.generate
  apply List.flatMap_congr
  intro j hj
  have hj := List.mem_range.1 hj
  simp only [cylinderOf] at hj
  rw [show (cylinderOf lib st ⟨top, y, top⟩).heightSegments = 1 from rfl, List.range_one, List.flatMap_singleton]
  have next : ∀ h r, around lib st h r (if j = 7 - 1 then 0 else j + 1) = around lib st h r (j + 1) := by
    intro h r
    by_cases h6 : j = 6
    · subst h6; exact (around_turn hl hc ..).symm
    · rw [if_neg (by omega)]
  have low : ∀ k, Solids.plus (Solids.plus (vec st.position) (Solids.times (vec st.direction) (st.length / 1 * ((0 : Nat) : K))))
      (Solids.scaleBy (turned lib st k) ((cylinderOf lib st ⟨top, y, top⟩).getRadius ((((1 : Nat) : K) - ((0 : Nat) : K)) / ((1 : Nat) : K)))) =
      around lib st 0 st.width k := by
    intro k
    rw [turned_eq hl hc st hf]
    simp only [Solids.plus, Solids.times, Solids.scaleBy, Cylinder.getRadius, cylinderOf, Solids.lerp, getSize, vec, around, axis, Vec3.mk.injEq]
    push_cast
    refine ⟨by ring, by ring, by ring⟩
  have high : ∀ k, Solids.plus (Solids.plus (vec st.position) (Solids.times (vec st.direction) (st.length / 1 * (((0 : Nat) : K) + 1))))
      (Solids.scaleBy (turned lib st k) ((cylinderOf lib st ⟨top, y, top⟩).getRadius ((((1 : Nat) : K) - ((0 : Nat) : K) - 1) / ((1 : Nat) : K)))) =
      around lib st st.length top k := by
    intro k
    rw [turned_eq hl hc st hf]
    simp only [Solids.plus, Solids.times, Solids.scaleBy, Cylinder.getRadius, cylinderOf, Solids.lerp, getSize, vec, around, axis, Vec3.mk.injEq]
    push_cast
    refine ⟨by ring, by ring, by ring⟩
  have base : Solids.plus (vec st.position) (Solids.times (vec st.direction) (st.length / 1 * ((0 : Nat) : K))) = axis st 0 := by
    simp only [Solids.plus, Solids.times, vec, axis, Vec3.mk.injEq]
    push_cast
    refine ⟨by ring, by ring, by ring⟩
  have tip : Solids.plus (vec st.position) (Solids.times (vec st.direction) (st.length / 1 * (((0 : Nat) : K) + 1))) = axis st st.length := by
    simp only [Solids.plus, Solids.times, vec, axis, Vec3.mk.injEq]
    push_cast
    refine ⟨by ring, by ring, by ring⟩
  have e : ∀ k, (cylinderOf lib st ⟨top, y, top⟩).rotated k = turned lib st k := fun _ => rfl
  have e1 : (cylinderOf lib st ⟨top, y, top⟩).center = vec st.position := rfl
  have e2 : (cylinderOf lib st ⟨top, y, top⟩).direction = vec st.direction := rfl
  have e3 : (cylinderOf lib st ⟨top, y, top⟩).heightStep = st.length / 1 := rfl
  have e4 : (cylinderOf lib st ⟨top, y, top⟩).heightSegments = 1 := rfl
  have e5 : (cylinderOf lib st ⟨top, y, top⟩).radialSegments = 7 := rfl
  unfold Cylinder.segment side
  simp only [e, e1, e2, e3, e4, e5, low, high, next, id]
  rw [base, tip, if_pos trivial]
  cases (cylinderOf lib st ⟨top, y, top⟩).isCone epsilon <;> rfl

/-- A combination of the vectors of the turtle. -/
def mix (st : State K) (a b c : K) : Vec3 K :=
  ⟨a * st.right.x + b * st.direction.x + c * (st.direction.y * st.right.z - st.direction.z * st.right.y),
   a * st.right.y + b * st.direction.y + c * (st.direction.z * st.right.x - st.direction.x * st.right.z),
   a * st.right.z + b * st.direction.z + c * (st.direction.x * st.right.y - st.direction.y * st.right.x)⟩

theorem mix_volume (st : State K) (h : Frame st.direction st.right) (a1 b1 c1 a2 b2 c2 a3 b3 c3 : K) :
    volume (mix st a1 b1 c1) (mix st a2 b2 c2) (mix st a3 b3 c3) = - volume ⟨a1, b1, c1⟩ ⟨a2, b2, c2⟩ ⟨a3, b3, c3⟩ := by
  obtain ⟨h1, h2, h3⟩ := h
  simp only [volume, mix]
  generalize st.direction.x = dx at *
  generalize st.direction.y = dy at *
  generalize st.direction.z = dz at *
  generalize st.right.x = rx at *
  generalize st.right.y = ry at *
  generalize st.right.z = rz at *
  linear_combination (a1 * (b2 * c3 - c2 * b3) - b1 * (a2 * c3 - c2 * a3) + c1 * (a2 * b3 - b2 * a3)) *
    ((dx * rx + dy * ry + dz * rz) * h3 - (rx ^ 2 + ry ^ 2 + rz ^ 2) * h1 - h2)

theorem around_mix (lib : Library K) (st : State K) (h m r : K) (j : Nat) :
    apart (around lib st h r j) (axis st m) = mix st (r * lib.cos (2 * lib.pi * j / 7)) (h - m) (r * lib.sin (2 * lib.pi * j / 7)) := by
  simp only [apart, around, axis, mix, Vec3.mk.injEq]
  refine ⟨by ring, by ring, by ring⟩

theorem axis_mix (st : State K) (h m : K) : apart (axis st h) (axis st m) = mix st 0 (h - m) 0 := by
  simp only [apart, axis, mix, Vec3.mk.injEq]
  refine ⟨by ring, by ring, by ring⟩

theorem side_away {lib : Library K} (hl : Standard lib) (hc : Circular lib) (st : State K) (hf : Frame st.direction st.right) (hw : 0 < st.width)
    (hh : 0 < st.length) (top : K) (htop : top = st.width ∨ top = 0) (cap : Bool) (hcap : cap = true → top = st.width) (j : Nat) :
    ∀ u ∈ side lib st top cap j, Away (axis st (st.length / 2)) u ∨ top = 0 ∧ u = (around lib st 0 st.width j, around lib st st.length top (j + 1), around lib st st.length top j) := by
  have e : 2 * lib.pi * ((j + 1 : Nat) : K) / 7 = 2 * lib.pi * (j : K) / 7 + 2 * lib.pi / 7 := by push_cast; ring
  have hs := hl.circle (2 * lib.pi * (j : K) / 7)
  have h7 := hc.seventh
  have v1 : 0 < st.width * st.width * st.length * lib.sin (2 * lib.pi / 7) := by positivity
  have v2 : 0 < st.width * st.width * (st.length / 2) * lib.sin (2 * lib.pi / 7) := by positivity
  intro u hu
  simp only [side, List.mem_append, List.mem_cons, List.not_mem_nil, or_false] at hu
  rcases hu with (rfl | rfl | rfl) | hu
  · left
    unfold Away
    simp only [around_mix]
    rw [mix_volume st hf]
    simp only [e, hc.sin_add, hc.cos_add, volume]
    generalize lib.sin (2 * lib.pi * (j : K) / 7) = s at *
    generalize lib.cos (2 * lib.pi * (j : K) / 7) = c at *
    generalize lib.sin (2 * lib.pi / 7) = s7 at *
    generalize lib.cos (2 * lib.pi / 7) = c7 at *
    rcases htop with rfl | rfl
    · refine lt_of_lt_of_eq v1 ?_
      linear_combination (-(st.width * st.width * st.length * s7)) * hs
    · refine lt_of_lt_of_eq v2 ?_
      linear_combination (-(st.width * st.width * (st.length / 2) * s7)) * hs
  · rcases htop with htop | htop
    · left
      subst htop
      unfold Away
      simp only [around_mix]
      rw [mix_volume st hf]
      simp only [e, hc.sin_add, hc.cos_add, volume]
      generalize lib.sin (2 * lib.pi * (j : K) / 7) = s at *
      generalize lib.cos (2 * lib.pi * (j : K) / 7) = c at *
      generalize lib.sin (2 * lib.pi / 7) = s7 at *
      generalize lib.cos (2 * lib.pi / 7) = c7 at *
      refine lt_of_lt_of_eq v1 ?_
      linear_combination (-(st.width * st.width * st.length * s7)) * hs
    · exact .inr ⟨htop, rfl⟩
  · left
    unfold Away
    simp only [around_mix, axis_mix]
    rw [mix_volume st hf]
    simp only [e, hc.sin_add, hc.cos_add, volume]
    generalize lib.sin (2 * lib.pi * (j : K) / 7) = s at *
    generalize lib.cos (2 * lib.pi * (j : K) / 7) = c at *
    generalize lib.sin (2 * lib.pi / 7) = s7 at *
    generalize lib.cos (2 * lib.pi / 7) = c7 at *
    refine lt_of_lt_of_eq v2 ?_
    linear_combination (-(st.width * st.width * (st.length / 2) * s7)) * hs
  · left
    cases cap with
    | false => simp at hu
    | true =>
      have := hcap rfl
      subst this
      simp only [if_true, List.mem_singleton] at hu
      subst hu
      unfold Away
      simp only [around_mix, axis_mix]
      rw [mix_volume st hf]
      simp only [e, hc.sin_add, hc.cos_add, volume]
      generalize lib.sin (2 * lib.pi * (j : K) / 7) = s at *
      generalize lib.cos (2 * lib.pi * (j : K) / 7) = c at *
      generalize lib.sin (2 * lib.pi / 7) = s7 at *
      generalize lib.cos (2 * lib.pi / 7) = c7 at *
      refine lt_of_lt_of_eq v2 ?_
      linear_combination (-(st.width * st.width * (st.length / 2) * s7)) * hs

theorem next_around {lib : Library K} (hl : Standard lib) (hc : Circular lib) (st : State K) (h r : K) (j : Nat) (hj : j < 7) :
    ∃ k < 7, around lib st h r (j + 1) = around lib st h r k := by
  by_cases h6 : j = 6
  · subst h6; exact ⟨0, by omega, around_turn hl hc ..⟩
  · exact ⟨j + 1, by omega, rfl⟩

theorem around_zero (lib : Library K) (st : State K) (h : K) (j : Nat) : around lib st h 0 j = axis st h := by
  simp [around, axis]

theorem isCone_iff (lib : Library K) (epsilon : K) (st : State K) (size2 : Vec3 K) :
    (cylinderOf lib st size2).isCone epsilon = true ↔ |size2.x| < epsilon ∧ |size2.y| < epsilon ∧ |size2.z| < epsilon := by
  simp [Cylinder.isCone, cylinderOf]

theorem cylinder_body {lib : Library K} (hl : Standard lib) (hc : Circular lib) (epsilon : K) (st : State K) (hbig : epsilon ≤ |st.width| ∨ epsilon ≤ |st.length|) :
    CylinderBody lib st ((cylinderOf lib st (getSize st)).generate epsilon id) := by
  have cone : (cylinderOf lib st (getSize st)).isCone epsilon = false := by
    rw [Bool.eq_false_iff, Ne, isCone_iff]
    rintro ⟨h1, h2, -⟩
    rcases hbig with h | h
    · exact absurd h1 (not_lt.2 h)
    · exact absurd h2 (not_lt.2 h)
  refine ⟨C65_cylinder_partial epsilon _ id (fun h => by rw [cone] at h; simp at h), ?_, fun hf => ?_⟩
  · rw [C78_cylinder_count epsilon _ id (by simp [cylinderOf]), if_neg]
    · rfl
    · intro h
      have := (isCone_iff lib epsilon st (getSize st)).2 h
      rw [cone] at this
      simp at this
  · have eq := generate_eq hl hc epsilon st hf st.width st.length
    rw [show (⟨st.width, st.length, st.width⟩ : Vec3 K) = getSize st from rfl, cone] at eq
    rw [eq]
    refine ⟨?_, ?_, ?_⟩
    · intro u hu c hcm
      obtain ⟨j, hj, hu⟩ := List.mem_flatMap.1 hu
      have hj := List.mem_range.1 hj
      have low : ∀ k ≤ 1, ∃ h, (h = 0 ∨ h = st.length) ∧ (around lib st 0 st.width (j + k) = axis st h ∨ ∃ i < 7, around lib st 0 st.width (j + k) = around lib st h st.width i) := by
        intro k hk
        refine ⟨0, .inl rfl, .inr ?_⟩
        interval_cases k
        · exact ⟨j, hj, rfl⟩
        · exact next_around hl hc st _ _ j hj
      have high : ∀ k ≤ 1, ∃ h, (h = 0 ∨ h = st.length) ∧ (around lib st st.length st.width (j + k) = axis st h ∨ ∃ i < 7, around lib st st.length st.width (j + k) = around lib st h st.width i) := by
        intro k hk
        refine ⟨st.length, .inr rfl, .inr ?_⟩
        interval_cases k
        · exact ⟨j, hj, rfl⟩
        · exact next_around hl hc st _ _ j hj
      simp only [side, Bool.not_false, if_true, List.mem_append, List.mem_cons, List.not_mem_nil, or_false] at hu
      rcases hu with (rfl | rfl | rfl) | rfl <;> simp only [tips, List.mem_cons, List.not_mem_nil, or_false] at hcm <;> rcases hcm with rfl | rfl | rfl
      · exact low 1 le_rfl
      · exact high 1 le_rfl
      · exact low 0 (by omega)
      · exact low 0 (by omega)
      · exact high 1 le_rfl
      · exact high 0 (by omega)
      · exact ⟨0, .inl rfl, .inl rfl⟩
      · exact low 1 le_rfl
      · exact low 0 (by omega)
      · exact ⟨_, .inr rfl, .inl rfl⟩
      · exact high 0 (by omega)
      · exact high 1 le_rfl
    · intro h hh j hj
      rcases hh with rfl | rfl
      · exact ⟨_, List.mem_flatMap.2 ⟨j, List.mem_range.2 hj, List.mem_append_left _ (List.mem_cons_self ..)⟩, by simp [tips]⟩
      · exact ⟨_, List.mem_flatMap.2 ⟨j, List.mem_range.2 hj, List.mem_append_left _ (List.mem_cons_of_mem _ (List.mem_cons_self ..))⟩, by simp [tips]⟩
    · intro hw hh u hu
      obtain ⟨j, -, hu⟩ := List.mem_flatMap.1 hu
      rcases side_away hl hc st hf hw hh st.width (.inl rfl) _ (fun _ => rfl) j u hu with h | ⟨h, -⟩
      · exact h
      · exact absurd h hw.ne'

theorem cone_body {lib : Library K} (hl : Standard lib) (hc : Circular lib) (epsilon : K) (heps : 0 < epsilon) (st : State K) :
    ConeBody lib st ((cylinderOf lib st ⟨0, 0, 0⟩).generate epsilon id) := by
  have cone : (cylinderOf lib st ⟨0, 0, 0⟩).isCone epsilon = true := by
    rw [isCone_iff]
    simp [heps]
  refine ⟨C65_cylinder_partial epsilon _ id (fun _ => rfl), ?_, fun hf => ?_⟩
  · rw [C78_cylinder_count epsilon _ id (by simp [cylinderOf]), if_pos]
    · rfl
    · exact (isCone_iff lib epsilon st ⟨0, 0, 0⟩).1 cone
  · have eq := generate_eq hl hc epsilon st hf 0 0
    rw [cone] at eq
    rw [eq]
    refine ⟨?_, ?_, ?_⟩
    · intro u hu c hcm
      obtain ⟨j, hj, hu⟩ := List.mem_flatMap.1 hu
      have hj := List.mem_range.1 hj
      simp only [side, around_zero, Bool.not_true, Bool.false_eq_true, if_false, List.append_nil, List.mem_cons, List.not_mem_nil, or_false] at hu
      rcases hu with rfl | rfl | rfl <;> simp only [tips, List.mem_cons, List.not_mem_nil, or_false] at hcm <;> rcases hcm with rfl | rfl | rfl
      · exact .inr (.inr (next_around hl hc st _ _ j hj))
      · exact .inr (.inl rfl)
      · exact .inr (.inr ⟨j, hj, rfl⟩)
      · exact .inr (.inr ⟨j, hj, rfl⟩)
      · exact .inr (.inl rfl)
      · exact .inr (.inl rfl)
      · exact .inl rfl
      · exact .inr (.inr (next_around hl hc st _ _ j hj))
      · exact .inr (.inr ⟨j, hj, rfl⟩)
    · intro j hj
      refine ⟨_, List.mem_flatMap.2 ⟨j, List.mem_range.2 hj, List.mem_append_left _ (List.mem_cons_self ..)⟩, by simp [tips], by simp [tips, around_zero]⟩
    · intro hw hh u hu
      obtain ⟨j, -, hu⟩ := List.mem_flatMap.1 hu
      rcases side_away hl hc st hf hw hh 0 (.inr rfl) _ (by simp) j u hu with h | ⟨-, rfl⟩
      · exact .inl h
      · exact .inr ⟨around_zero .., around_zero ..⟩

/-! ### Spheres -/

theorem place_eq (lib : Library K) (s : Setup K) (st : State K) (v : Vec3 K) : placeAt (translate lib s) (vec st.position) (getSize st) v =
    ground lib s.position s.minHeight (ellipsoid ⟨st.position.x, st.position.y, st.position.z⟩ ⟨st.width, st.length, st.width⟩ v) := by
  unfold placeAt
  rw [translate_eq]
  refine congrArg _ ?_
  simp only [vec, getSize, ellipsoid, Vec3.mk.injEq]
  refine ⟨by ring, by ring, by ring⟩

theorem sphere_body {lib : Library K} (hl : Standard lib) (epsilon : K) (heps : epsilon ≤ 1 / 2) (s : Setup K) (st : State K) :
    ∃ us, SphereBody st us ∧ bodyOf lib epsilon s .sphere st = .ok (us.map (onGround lib s.position s.minHeight)) := by
  obtain ⟨g1, g2⟩ := CurvedProof.golden hl
  obtain ⟨ts, h1, h2, h3, h4⟩ := C48_sphere_partial (middleOf (normalized lib.sqrt epsilon)) (SolidsShapeProof.middle_symm _)
    (placeAt (translate lib s) (vec st.position) (getSize st)) (createVertexList (normalized lib.sqrt epsilon) ((1 + lib.sqrt 5) / 2)) rfl false 0
  refine ⟨_, ⟨divided (middleOf (normalized lib.sqrt epsilon)) ts 1, ?_, ?_, ?_, rfl⟩, ?_⟩
  · intro u hu
    simp only [divided, List.mem_flatMap] at hu
    obtain ⟨tri, hm, hu⟩ := hu
    obtain ⟨a, b, c, hf, rfl⟩ := SolidsShapeProof.faces_of lib.sqrt epsilon _ g2 false ts h1 tri hm
    exact (SolidsShapeProof.quarters_outward lib.sqrt hl.sqrt epsilon heps _ g1 g2 a b c hf).2.2.2.2 u hu
  · obtain ⟨ts2, k1, k2⟩ := C65_sphere (middleOf (normalized lib.sqrt epsilon)) (SolidsShapeProof.middle_symm _) id
      (createVertexList (normalized lib.sqrt epsilon) ((1 + lib.sqrt 5) / 2)) rfl 1
    obtain ⟨ts3, i1, i2, i3, i4⟩ := C48_sphere_partial (middleOf (normalized lib.sqrt epsilon)) (SolidsShapeProof.middle_symm _) id
      (createVertexList (normalized lib.sqrt epsilon) ((1 + lib.sqrt 5) / 2)) rfl false 0
    rw [h1] at i1
    cases i1
    rw [k1] at i3
    cases i3
    simpa using k2
  · rw [h4]; rfl
  · have h5 : bodyOf lib epsilon s .sphere st = _ := h3
    rw [h5, List.map_map]
    refine congrArg Outcome.ok (List.map_congr_left ?_)
    intro u _
    simp only [place_eq, Function.comp_apply, onGround]

theorem body_ok {lib : Library K} (hl : Standard lib) (hc : Circular lib) (epsilon : K) (hpos : 0 < epsilon) (heps : epsilon ≤ 1 / 2) (s : Setup K) (shape : Shape)
    (st : State K) : ∃ us, Body lib epsilon shape st us ∧ bodyOf lib epsilon s shape st = .ok (us.map (onGround lib s.position s.minHeight)) := by
  have e : translate lib s = ground lib s.position s.minHeight := funext (translate_eq lib s)
  cases shape with
  | sphere => exact sphere_body hl epsilon heps s st
  | cylinder =>
    refine ⟨_, fun h => cylinder_body hl hc epsilon st h, ?_⟩
    simp only [bodyOf, e]
    rw [generate_map]
    rfl
  | cone =>
    refine ⟨_, cone_body hl hc epsilon hpos st, ?_⟩
    simp only [bodyOf, e]
    rw [generate_map]
    rfl

/-! ### The mesh -/

theorem appearance_ok (index : Nat) (appearances : List (Look K)) (hne : appearances ≠ []) :
    ∃ look, appearances[index % appearances.length]? = some look ∧ getAppearanceByIndex index appearances = .ok look := by
  have hpos : 0 < appearances.length := List.length_pos_iff.2 hne
  have hlt := Nat.mod_lt index hpos
  refine ⟨appearances[index % appearances.length], List.getElem?_eq_getElem hlt, ?_⟩
  unfold getAppearanceByIndex at'
  rw [if_neg (by omega), List.getElem?_eq_getElem hlt]

theorem addShape_ok {lib : Library K} (hl : Standard lib) (hc : Circular lib) (epsilon : K) (hpos : 0 < epsilon) (heps : epsilon ≤ 1 / 2) (set : Settings K)
    (s : Setup K) (hset : set.appearances = s.appearances.length) (hne : s.appearances ≠ []) (shape : Shape) (t : Turtle K) (m : Mesh K)
    (done : List (Triangle K × Texture)) (hm : Built m) (hp : Paints m done []) :
    ∃ m' d block, addShape lib epsilon set s shape t m = .ok (Lsys.draw set shape t, m') ∧ Built m' ∧ Paints m' (done ++ block) [] ∧
      (Lsys.draw set shape t).drawn = t.drawn ++ [d] ∧ Pictured lib epsilon s.appearances s.position s.minHeight d block := by
  obtain ⟨look, a1, a2⟩ := appearance_ok (if shape = .sphere then t.style + 1 else t.style) s.appearances hne
  obtain ⟨us, b1, b2⟩ := body_ok hl hc epsilon hpos heps s shape t.state
  obtain ⟨m', h1, h2, h3⟩ := (Drawn.facets look ((us.map (onGround lib s.position s.minHeight)).map generated) (Drawn.start (t := look.texture) hm hp)).texture
  refine ⟨m', _, _, ?_, h2, h3, rfl, look, us, ?_, b1, ?_⟩
  · unfold addShape addBody
    rw [a2, bind_okl, b2, bind_okl, h1]
    rfl
  · simp only [hset]; exact a1
  · rw [List.nil_append, List.map_map, List.map_map, List.map_map]
    rfl

theorem apply_ok {lib : Library K} (hl : Standard lib) (hc : Circular lib) (epsilon : K) (hpos : 0 < epsilon) (heps : epsilon ≤ 1 / 2) (set : Settings K)
    (s : Setup K) (hset : set.appearances = s.appearances.length) (hne : s.appearances ≠ []) (t t' : Turtle K) (r : Rule) (h : Lsys.apply set t r = .ok t') (m : Mesh K)
    (done : List (Triangle K × Texture)) (hm : Built m) (hp : Paints m done []) :
    ∃ m' ds, LsysDraw.apply lib epsilon set s t m r = .ok (t', m') ∧ t'.drawn = t.drawn ++ ds ∧
      Pictures lib epsilon s.appearances s.position s.minHeight ds m' done := by
  have shape : ∀ sh, t' = Lsys.draw set sh t → ∃ m' ds, addShape lib epsilon set s sh t m = .ok (t', m') ∧ t'.drawn = t.drawn ++ ds ∧
      Pictures lib epsilon s.appearances s.position s.minHeight ds m' done := by
    rintro sh rfl
    obtain ⟨m', d, block, h1, h2, h3, h4, h5⟩ := addShape_ok hl hc epsilon hpos heps set s hset hne sh t m done hm hp
    exact ⟨m', [d], h1, h4, [block], .cons h5 .nil, h2, by simpa using h3⟩
  have other : t'.drawn = t.drawn → ∃ m' ds, (.ok (t', m) : Outcome (Turtle K × Mesh K)) = .ok (t', m') ∧ t'.drawn = t.drawn ++ ds ∧
      Pictures lib epsilon s.appearances s.position s.minHeight ds m' done :=
    fun h => ⟨m, [], rfl, by simpa using h, [], .nil, hm, by simpa using hp⟩
  cases r with
  | op o =>
    cases o with
    | moveForward =>
      simp only [Lsys.apply, Lsys.step, Outcome.ok.injEq] at h
      exact shape .cylinder h.symm
    | restore =>
      unfold LsysDraw.apply
      simp only [Lsys.apply] at h
      simp only [h, bind_okl]
      apply other
      simp only [Lsys.step] at h
      cases hs : t.stack with
      | nil => rw [hs] at h; simp at h
      | cons a b => rw [hs] at h; simp only [Outcome.ok.injEq] at h; subst h; rfl
    | _ =>
      unfold LsysDraw.apply
      simp only [Lsys.apply] at h
      simp only [h, bind_okl]
      apply other
      simp only [Lsys.step, Outcome.ok.injEq] at h
      subst h
      rfl
  | word w =>
    simp only [Lsys.apply, Lsys.say] at h
    simp only [LsysDraw.apply]
    split_ifs at h ⊢ with c1 c2 c3
    · simp only [Outcome.ok.injEq] at h; exact shape _ h.symm
    · simp only [Outcome.ok.injEq] at h; exact shape _ h.symm
    · simp only [Outcome.ok.injEq] at h; exact shape _ h.symm

theorem forall₂_append {α β : Type} {R : α → β → Prop} {a c : List α} {b d : List β} (h1 : List.Forall₂ R a b) (h2 : List.Forall₂ R c d) :
    List.Forall₂ R (a ++ c) (b ++ d) := by
  induction h1 with
  | nil => exact h2
  | cons h _ ih => exact .cons h ih

theorem runRules_ok {lib : Library K} (hl : Standard lib) (hc : Circular lib) (epsilon : K) (hpos : 0 < epsilon) (heps : epsilon ≤ 1 / 2) (set : Settings K)
    (s : Setup K) (hset : set.appearances = s.appearances.length) (hne : s.appearances ≠ []) (rs : List Rule) (t t' : Turtle K)
    (h : Lsys.runRules set t rs = .ok t') (m : Mesh K) (done : List (Triangle K × Texture)) (hm : Built m) (hp : Paints m done []) :
    ∃ m' ds, LsysDraw.runRules lib epsilon set s t m rs = .ok (t', m') ∧ t'.drawn = t.drawn ++ ds ∧
      Pictures lib epsilon s.appearances s.position s.minHeight ds m' done := by
  induction rs generalizing t m done with
  | nil =>
    simp only [Lsys.runRules, Outcome.ok.injEq] at h
    subst h
    exact ⟨m, [], rfl, by simp, [], .nil, hm, by simpa using hp⟩
  | cons r rs ih =>
    simp only [Lsys.runRules] at h
    cases ha : Lsys.apply set t r with
    | throw e => rw [ha] at h; simp [Outcome.bind] at h
    | ub w => rw [ha] at h; simp [Outcome.bind] at h
    | ok u =>
      rw [ha, bind_okl] at h
      obtain ⟨m1, ds1, h1, h2, blocks1, h3, h4, h5⟩ := apply_ok hl hc epsilon hpos heps set s hset hne t u r ha m done hm hp
      obtain ⟨m2, ds2, g1, g2, blocks2, g3, g4, g5⟩ := ih u h m1 _ h4 h5
      refine ⟨m2, ds1 ++ ds2, ?_, ?_, blocks1 ++ blocks2, forall₂_append h3 g3, g4, ?_⟩
      · simp only [LsysDraw.runRules]
        rw [h1, bind_okl]
        exact g1
      · rw [g2, h2, List.append_assoc]
      · rw [List.flatten_append, ← List.append_assoc]; exact g5

/-- The turtle stops for the same reason. -/
theorem runRules_fails {lib : Library K} (hl : Standard lib) (hc : Circular lib) (epsilon : K) (hpos : 0 < epsilon) (heps : epsilon ≤ 1 / 2) (set : Settings K)
    (s : Setup K) (hset : set.appearances = s.appearances.length) (hne : s.appearances ≠ []) (rs : List Rule) (t : Turtle K) (m : Mesh K)
    (done : List (Triangle K × Texture)) (hm : Built m) (hp : Paints m done []) :
    (∀ e, Lsys.runRules set t rs = .throw e → LsysDraw.runRules lib epsilon set s t m rs = .throw e) ∧
    ∀ e, Lsys.runRules set t rs = .ub e → LsysDraw.runRules lib epsilon set s t m rs = .ub e := by
  induction rs generalizing t m done with
  | nil => simp [Lsys.runRules]
  | cons r rs ih =>
    simp only [Lsys.runRules, LsysDraw.runRules]
    cases ha : Lsys.apply set t r with
    | ok u =>
      obtain ⟨m1, ds1, h1, h2, blocks1, h3, h4, h5⟩ := apply_ok hl hc epsilon hpos heps set s hset hne t u r ha m done hm hp
      rw [h1, bind_okl, bind_okl]
      exact ih u m1 _ h4 h5
    | throw x =>
      have : LsysDraw.apply lib epsilon set s t m r = .throw x := by
        cases r with
        | op o =>
          cases o with
          | moveForward => simp [Lsys.apply, Lsys.step] at ha
          | _ => simp only [Lsys.apply] at ha; simp only [LsysDraw.apply, ha, Outcome.bind]
        | word w =>
          simp only [Lsys.apply, Lsys.say] at ha
          simp only [LsysDraw.apply]
          split_ifs at ha ⊢
          simpa using ha
      rw [this]
      simp [Outcome.bind]
    | ub x =>
      have : LsysDraw.apply lib epsilon set s t m r = .ub x := by
        cases r with
        | op o =>
          cases o with
          | moveForward => simp [Lsys.apply, Lsys.step] at ha
          | _ => simp only [Lsys.apply] at ha; simp only [LsysDraw.apply, ha, Outcome.bind]
        | word w =>
          simp only [Lsys.apply, Lsys.say] at ha
          split_ifs at ha
      rw [this]
      simp [Outcome.bind]

/-! ### The appearances -/

theorem at_ok {α : Type} {l : List α} {i : Nat} {a : α} (h : l[i]? = some a) : at' l i = .ok a := by
  unfold at'; rw [h]

theorem at_of {α : Type} {l : List α} {i : Nat} {a : α} (h : at' l i = .ok a) : i < l.length := by
  unfold at' at h
  cases e : l[i]? with
  | none => rw [e] at h; simp at h
  | some b => exact (List.getElem?_eq_some_iff.1 e).1

theorem bind_of {α β : Type} {x : Outcome α} {f : α → Outcome β} {b : β} (h : x.bind f = .ok b) : ∃ a, x = .ok a ∧ f a = .ok b := by
  cases x with
  | ok a => exact ⟨a, rfl, h⟩
  | throw e => simp [Outcome.bind] at h
  | ub e => simp [Outcome.bind] at h

theorem appearancesFrom_ok (provider : Provider K) (colors indices types scales : List (List Char)) (es : List (Entry K)) (i : Nat)
    (hu : ∀ e ∈ es, Understood provider e)
    (hall : ∀ k e, es[k]? = some e → colors[i + k]? = some e.color ∧ indices[i + k]? = some e.index ∧ types[i + k]? = some e.type ∧ scales[i + k]? = some e.scale) :
    appearancesFrom provider colors indices types scales i es.length = .ok (es.map (·.look)) := by
  induction es generalizing i with
  | nil => rfl
  | cons e es ih =>
    obtain ⟨-, -, -, -, index, scale, h1, h2, h3⟩ := hu e (List.mem_cons_self ..)
    obtain ⟨a1, a2, a3, a4⟩ := hall 0 e rfl
    rw [Nat.add_zero] at a1 a2 a3 a4
    have := ih (i + 1) (fun e he => hu e (List.mem_cons_of_mem _ he)) (fun k e' he => by
      rw [show i + 1 + k = i + (k + 1) by omega]
      exact hall (k + 1) e' (by simpa using he))
    simp only [List.length_cons, appearancesFrom, at_ok a1, at_ok a2, at_ok a3, at_ok a4, h1, h2, h3, bind_okl, this, List.map_cons]

theorem appearancesFrom_length (provider : Provider K) (colors indices types scales : List (List Char)) (n i : Nat) (looks : List (Look K))
    (h : appearancesFrom provider colors indices types scales i n = .ok looks) :
    looks.length = n ∧ (0 < n → i + n ≤ indices.length ∧ i + n ≤ types.length ∧ i + n ≤ scales.length) := by
  induction n generalizing i looks with
  | zero => simp only [appearancesFrom, Outcome.ok.injEq] at h; subst h; simp
  | succ n ih =>
    unfold appearancesFrom at h
    obtain ⟨x1, h1, h⟩ := bind_of h
    obtain ⟨x2, h2, h⟩ := bind_of h
    obtain ⟨x3, h3, h⟩ := bind_of h
    obtain ⟨x4, h4, h⟩ := bind_of h
    obtain ⟨x5, h5, h⟩ := bind_of h
    obtain ⟨x6, h6, h⟩ := bind_of h
    obtain ⟨x7, h7, h⟩ := bind_of h
    obtain ⟨x8, h8, h⟩ := bind_of h
    obtain ⟨g1, g2⟩ := ih (i + 1) x8 h8
    simp only [Outcome.ok.injEq] at h
    subst h
    refine ⟨by simp [g1], fun _ => ?_⟩
    have b1 := at_of h1
    have b4 := at_of h4
    have b5 := at_of h5
    rcases Nat.eq_zero_or_pos n with hn | hn
    · omega
    · have := g2 hn; omega

theorem join_count (c : Char) (ps : List (List Char)) (hne : ps ≠ []) (h : ∀ p ∈ ps, c ∉ p) : (StringsSpec.join c ps).count c + 1 = ps.length := by
  induction ps with
  | nil => exact absurd rfl hne
  | cons p ps ih =>
    have hp : p.count c = 0 := List.count_eq_zero.2 (h p (List.mem_cons_self ..))
    cases ps with
    | nil => simp [StringsSpec.join, hp]
    | cons q qs =>
      have := ih (by simp) (fun x hx => h x (List.mem_cons_of_mem _ hx))
      simp only [StringsSpec.join, List.count_append, List.count_cons_self, hp, List.length_cons] at this ⊢
      omega

theorem split_length (text : List Char) : (Strings.splitBy ',' text).length = parts text := by
  obtain ⟨h1, h2, h3, -⟩ := C53_split ',' text
  unfold parts
  rw [← join_count ',' _ h1 h2, h3]

end LsysDrawProof

open LsysDrawProof

set_option linter.unusedSectionVars false
variable {K : Type} [Field K] [LinearOrder K] [IsStrictOrderedRing K]

/-- C90: the appearances are those of the entries of the four lists, one for each color; further entries of the other lists are not used. -/
theorem C90_appearances (provider : Provider K) (es : List (Entry K)) (hne : es ≠ []) (hu : ∀ e ∈ es, Understood provider e) (xs ys zs : List (List Char))
    (hx : ∀ x ∈ xs ++ ys ++ zs, ',' ∉ x) :
    createAppearances provider ⟨StringsSpec.join ',' (es.map (·.color)), StringsSpec.join ',' (es.map (·.index) ++ xs), StringsSpec.join ',' (es.map (·.type) ++ ys),
      StringsSpec.join ',' (es.map (·.scale) ++ zs)⟩ = .ok (es.map (·.look)) := by
  have split : ∀ ps : List (List Char), ps ≠ [] → (∀ p ∈ ps, ',' ∉ p) → Strings.splitBy ',' (StringsSpec.join ',' ps) = ps :=
    fun ps h1 h2 => ((C53_split ',' (StringsSpec.join ',' ps)).2.2.2 ps h1 h2 rfl).symm
  have full : ∀ (f : Entry K → List Char) (l : List (List Char)), (∀ e ∈ es, ',' ∉ f e) → (∀ x ∈ l, ',' ∉ x) →
      Strings.splitBy ',' (StringsSpec.join ',' (es.map f ++ l)) = es.map f ++ l := by
    intro f l h1 h2
    refine split _ (by simp [hne]) ?_
    intro p hp
    rcases List.mem_append.1 hp with hp | hp
    · obtain ⟨e, he, rfl⟩ := List.mem_map.1 hp
      exact h1 e he
    · exact h2 p hp
  have e1 := full (·.color) [] (fun e he => (hu e he).1) (by simp)
  rw [List.append_nil] at e1
  unfold createAppearances
  simp only
  rw [e1, full (·.index) xs (fun e he => (hu e he).2.1) (fun x h => hx x (by simp [h])), full (·.type) ys (fun e he => (hu e he).2.2.1) (fun x h => hx x (by simp [h])),
    full (·.scale) zs (fun e he => (hu e he).2.2.2.1) (fun x h => hx x (by simp [h])), List.length_map]
  refine appearancesFrom_ok provider _ _ _ _ es 0 hu ?_
  intro k e he
  have hk := (List.getElem?_eq_some_iff.1 he).1
  rw [Nat.zero_add]
  refine ⟨by simp [he], ?_, ?_, ?_⟩ <;> rw [List.getElem?_append_left (by simpa using hk)] <;> simp [he]

/-- C90: there is always at least one appearance, so that the remainder by their number is defined; a list shorter than that of the colors is refused. -/
theorem C90_lists (provider : Provider K) (texts : Texts) (looks : List (Look K)) (h : createAppearances provider texts = .ok looks) :
    looks.length = parts texts.colors ∧ looks ≠ [] ∧ parts texts.colors ≤ parts texts.indices ∧ parts texts.colors ≤ parts texts.types ∧
    parts texts.colors ≤ parts texts.scales := by
  unfold createAppearances at h
  obtain ⟨h1, h2⟩ := appearancesFrom_length provider _ _ _ _ _ 0 looks h
  have hpos : 0 < parts texts.colors := Nat.succ_pos _
  rw [split_length] at h1 h2
  obtain ⟨a, b, c⟩ := h2 hpos
  simp only [split_length, Nat.zero_add] at a b c
  refine ⟨h1, ?_, a, b, c⟩
  intro e
  rw [e] at h1
  simp at h1
  omega

/-- C90: what an L-system draws is put on the ground body by body, in the order of its commands, each with the appearance of that number; if the turtle
stops at an unknown word or at a bracket without partner, so does the drawing. Partial: exact arithmetic; the appearance is not the one of the restored
state, see `C90_violated_restore`. -/
theorem C90_generate_partial {W G : Type} (lib : Library K) (hl : Standard lib) (hc : Circular lib) (epsilon : K) (hpos : 0 < epsilon) (heps : epsilon ≤ 1 / 2)
    (provider : Provider K) (lt : Rule → Rule → Bool) (pick : G → List W → Nat × G) (texts : Texts) (appearances : List (Look K))
    (ha : createAppearances provider texts = .ok appearances) (size angle scale : K) (l : LSystem W) (g : G) (position : Geo K) (elevation : K) (m : Mesh K)
    (done : List (Triangle K × Texture)) (hm : Built m) (hp : Paints m done []) :
    (∀ t, Lsys.run lt pick (settings lib angle scale appearances.length) l g (Lsys.initial size) = .ok t → ∃ m',
      generate lib epsilon provider lt pick texts size angle scale l g position elevation m = .ok m' ∧
      Pictures lib epsilon appearances position elevation t.drawn m' done) ∧
    (∀ e, Lsys.run lt pick (settings lib angle scale appearances.length) l g (Lsys.initial size) = .throw e →
      generate lib epsilon provider lt pick texts size angle scale l g position elevation m = .throw e) ∧
    (∀ e, Lsys.run lt pick (settings lib angle scale appearances.length) l g (Lsys.initial size) = .ub e →
      generate lib epsilon provider lt pick texts size angle scale l g position elevation m = .ub e) := by
  have hne := (C90_lists provider texts appearances ha).2.1
  obtain ⟨look0, -, a0⟩ := appearance_ok 0 appearances hne
  obtain ⟨look1, -, a1⟩ := appearance_ok 1 appearances hne
  have e : generate lib epsilon provider lt pick texts size angle scale l g position elevation m = (Lsys.expand lt pick l g).bind fun rules =>
      (runRules lib epsilon (settings lib angle scale appearances.length) ⟨appearances, position, elevation⟩ (Lsys.initial size) m rules).bind fun p => .ok p.2 := by
    unfold generate
    rw [ha, bind_okl, a0, bind_okl, a1, bind_okl]
  rw [e]
  unfold Lsys.run
  cases hx : Lsys.expand lt pick l g with
  | throw x => simp [Outcome.bind]
  | ub x => simp [Outcome.bind]
  | ok rules =>
    simp only [bind_okl]
    have set : (settings lib angle scale appearances.length).appearances = appearances.length := rfl
    obtain ⟨f1, f2⟩ := runRules_fails hl hc epsilon hpos heps (settings lib angle scale appearances.length) ⟨appearances, position, elevation⟩ rfl hne rules
      (Lsys.initial size) m done hm hp
    refine ⟨fun t h => ?_, fun x h => ?_, fun x h => ?_⟩
    · obtain ⟨m', ds, h1, h2, h3⟩ := runRules_ok hl hc epsilon hpos heps (settings lib angle scale appearances.length) ⟨appearances, position, elevation⟩ rfl hne rules
        (Lsys.initial size) t h m done hm hp
      refine ⟨m', by rw [h1, bind_okl], ?_⟩
      rw [h2]
      simpa [Lsys.initial] using h3
    · rw [f1 x h]; rfl
    · rw [f2 x h]; rfl

/-- C90: the ground keeps orientations, so that triangles which face away from a point do so on the ground if the place is no pole. -/
theorem C90_outwards (lib : Library K) (place : Geo K) (elevation : K) (hcos : 0 < lib.cos (lib.pi * place.lat / 180)) (c : Vec3 K) (u : Tri K) (h : Away c u) :
    Away (ground lib place elevation c) (onGround lib place elevation u) := by
  have e : ∀ a b, apart (ground lib place elevation a) (ground lib place elevation b) =
      ⟨(apart a b).x / (40075160 / 360 * lib.cos (lib.pi * place.lat / 180)), (apart a b).y, (apart a b).z / (40008000 / 360)⟩ := by
    intro a b
    simp only [apart, ground, Vec3.mk.injEq]
    refine ⟨by ring, by ring, by ring⟩
  unfold Away onGround at *
  simp only [e]
  have h1 : 0 < (40075160 / 360 * lib.cos (lib.pi * place.lat / 180))⁻¹ := by positivity
  have h2 : (0 : K) < (40008000 / 360)⁻¹ := by positivity
  generalize (apart u.1 c) = x at *
  generalize (apart u.2.1 c) = y at *
  generalize (apart u.2.2 c) = z at *
  simp only [div_eq_mul_inv _ (40075160 / 360 * lib.cos (lib.pi * place.lat / 180)), div_eq_mul_inv _ ((40008000 : K) / 360)]
  generalize (40075160 / 360 * lib.cos (lib.pi * place.lat / 180))⁻¹ = p at *
  generalize ((40008000 : K) / 360)⁻¹ = q at *
  refine lt_of_lt_of_eq (mul_pos (mul_pos h1 h2) h) ?_
  simp only [volume]
  ring

/-- C90: the triangles of a sphere face away from its middle. -/
theorem C90_sphere (st : State K) (hw : 0 < st.width) (hh : 0 < st.length) (us : List (Tri K)) (h : SphereBody st us) : ∀ u ∈ us, Away (axis st 0) u := by
  obtain ⟨vs, h1, -, -, rfl⟩ := h
  intro u hu
  obtain ⟨v, hv, rfl⟩ := List.mem_map.1 hu
  obtain ⟨-, -, -, h⟩ := h1 v hv
  refine lt_of_lt_of_eq (mul_pos (mul_pos (mul_pos hw hh) hw) h) ?_
  simp only [volume, apart, ellipsoid, axis]
  ring

namespace LsysDrawProof

/-- The appearance in use is that of the state. -/
def Current (t : Turtle K) : Prop := t.style = t.state.texture

theorem current_run (set : Settings K) (rs : List Rule) (hrs : Rule.op .restore ∉ rs) (t t' : Turtle K) (h : Lsys.runRules set t rs = .ok t') (h0 : Current t)
    (hd : ∀ d ∈ t.drawn, d.2.2 = (if d.1 = .sphere then d.2.1.texture + 1 else d.2.1.texture) % set.appearances) :
    ∀ d ∈ t'.drawn, d.2.2 = (if d.1 = .sphere then d.2.1.texture + 1 else d.2.1.texture) % set.appearances := by
  induction rs generalizing t with
  | nil => simp only [Lsys.runRules, Outcome.ok.injEq] at h; subst h; exact hd
  | cons r rs ih =>
    simp only [Lsys.runRules] at h
    obtain ⟨u, h1, h2⟩ := bind_of h
    have hdraw : ∀ sh, u = Lsys.draw set sh t → Current u ∧ ∀ d ∈ u.drawn, d.2.2 = (if d.1 = .sphere then d.2.1.texture + 1 else d.2.1.texture) % set.appearances := by
      rintro sh rfl
      refine ⟨h0, ?_⟩
      intro d hdm
      rcases List.mem_append.1 hdm with hdm | hdm
      · exact hd d hdm
      · simp only [List.mem_singleton] at hdm
        subst hdm
        simp only [Current] at h0
        simp only [h0]
    have key : Current u ∧ ∀ d ∈ u.drawn, d.2.2 = (if d.1 = .sphere then d.2.1.texture + 1 else d.2.1.texture) % set.appearances := by
      cases r with
      | op o =>
        simp only [Lsys.apply] at h1
        cases o with
        | moveForward => simp only [Lsys.step, Outcome.ok.injEq] at h1; exact hdraw _ h1.symm
        | restore => exact absurd (List.mem_cons_self ..) hrs
        | switchStyle => simp only [Lsys.step, Outcome.ok.injEq] at h1; subst h1; exact ⟨rfl, hd⟩
        | _ => simp only [Lsys.step, Outcome.ok.injEq] at h1; subst h1; exact ⟨h0, hd⟩
      | word w =>
        simp only [Lsys.apply, Lsys.say] at h1
        split_ifs at h1
        all_goals simp only [Outcome.ok.injEq] at h1; exact hdraw _ h1.symm
    exact ih (fun hm => hrs (List.mem_cons_of_mem _ hm)) u h2 key.1 key.2

end LsysDrawProof

/-- C90: cylinders and cones have the appearance of the turtle's state, spheres the next one. Partial: without going back to a saved state. -/
theorem C90_state_partial (set : Settings K) (rs : List Rule) (hrs : Rule.op .restore ∉ rs) (size : K) (t : Turtle K)
    (h : Lsys.runRules set (Lsys.initial size) rs = .ok t) :
    ∀ d ∈ t.drawn, d.2.2 = (if d.1 = .sphere then d.2.1.texture + 1 else d.2.1.texture) % set.appearances :=
  current_run set rs hrs _ t h rfl (by simp [Lsys.initial])

/-- C90 is violated: going back to a saved state does not go back to its appearance: what is drawn next has the one of the branch. -/
theorem C90_violated_restore (set : Settings K) (hn : 2 ≤ set.appearances) (size : K) : ∃ t st,
    Lsys.runRules set (Lsys.initial size) [.op .save, .op .switchStyle, .op .restore, .op .moveForward] = .ok t ∧
    t.drawn = [(.cylinder, st, 1)] ∧ st.texture = 0 := by
  refine ⟨_, (Lsys.initial size).state, rfl, ?_, rfl⟩
  simp only [Lsys.draw, Lsys.initial, List.nil_append, List.cons.injEq, Prod.mk.injEq, true_and, and_true]
  exact Nat.mod_eq_of_lt hn

/-- C90: what is drawn has perpendicular unit vectors for direction and right, which is what the description of cylinders and cones asks for. Partial:
without pitch and roll, which break it (`C62_violated_pitch`). -/
theorem C90_frame_partial (set : Settings K) (hsc : set.sinHalf ^ 2 + set.cosHalf ^ 2 = 1) (rs : List Rule)
    (hrs : ∀ r ∈ rs, r ≠ .op .pitchUp ∧ r ≠ .op .pitchDown ∧ r ≠ .op .rollLeft ∧ r ≠ .op .rollRight) (size : K) (t : Turtle K)
    (h : Lsys.runRules set (Lsys.initial size) rs = .ok t) : ∀ d ∈ t.drawn, Frame d.2.1.direction d.2.1.right := by
  have key : ∀ (rs : List Rule) (t t' : Turtle K), (∀ r ∈ rs, r ≠ .op .pitchUp ∧ r ≠ .op .pitchDown ∧ r ≠ .op .rollLeft ∧ r ≠ .op .rollRight) →
      (∀ s ∈ t.state :: t.stack, Frame s.direction s.right) → (∀ d ∈ t.drawn, Frame d.2.1.direction d.2.1.right) →
      Lsys.runRules set t rs = .ok t' → ∀ d ∈ t'.drawn, Frame d.2.1.direction d.2.1.right := by
    intro rs
    induction rs with
    | nil => intro t t' _ _ hd h; simp only [Lsys.runRules, Outcome.ok.injEq] at h; subst h; exact hd
    | cons r rs ih =>
      intro t t' hrs h0 hd h
      simp only [Lsys.runRules] at h
      obtain ⟨u, h1, h2⟩ : ∃ u, Lsys.apply set t r = .ok u ∧ Lsys.runRules set u rs = .ok t' := by
        cases ha : Lsys.apply set t r with
        | ok u => rw [ha] at h; exact ⟨u, rfl, h⟩
        | throw e => rw [ha] at h; simp [Outcome.bind] at h
        | ub e => rw [ha] at h; simp [Outcome.bind] at h
      have hu := C62_frame_partial set hsc [r] (fun x hx => by rw [List.mem_singleton.1 hx]; exact hrs r (by simp)) t u h0
        (by simp [Lsys.runRules, h1, Outcome.bind])
      refine ih u t' (fun x hx => hrs x (List.mem_cons_of_mem _ hx)) hu ?_ h2
      have hs := h0 t.state (by simp)
      have hdraw : ∀ shape, u = Lsys.draw set shape t → ∀ d ∈ u.drawn, Frame d.2.1.direction d.2.1.right := by
        rintro shape rfl d hm
        simp only [Lsys.draw, List.mem_append, List.mem_singleton] at hm
        rcases hm with hm | rfl
        · exact hd d hm
        · exact hs
      cases r with
      | word w =>
        simp only [Lsys.apply, Lsys.say] at h1
        split_ifs at h1
        all_goals simp only [Outcome.ok.injEq] at h1; exact hdraw _ h1.symm
      | op o =>
        cases o <;> simp only [Lsys.apply, Lsys.step] at h1
        case moveForward => simp only [Outcome.ok.injEq] at h1; exact hdraw _ h1.symm
        case restore =>
          split at h1
          · simp at h1
          · simp only [Outcome.ok.injEq] at h1; subst h1; exact hd
        all_goals simp only [Outcome.ok.injEq] at h1; subst h1; exact hd
  refine key rs _ t hrs ?_ (by simp [Lsys.initial]) h
  intro s hs
  simp only [Lsys.initial, List.mem_cons, List.not_mem_nil, or_false] at hs
  subst hs
  simp [Frame]

/-- C90: the angle of an L-system is in degrees: a turn to the right turns the direction to the right by it, a turn to the left the other way round. -/
theorem C90_turn (lib : Library K) (hl : Standard lib) (hc : Circular lib) (angle scale : K) (n : Nat) (t : Turtle K) (hf : Frame t.state.direction t.state.right)
    (right : Bool) : ∃ u, Lsys.step (settings lib angle scale n) t (if right then .turnRight else .turnLeft) = .ok u ∧
      u.state.direction = (t.state.direction.scale (lib.cos (lib.pi * angle / 180))).add
        (t.state.right.scale ((if right then 1 else -1) * lib.sin (lib.pi * angle / 180))) ∧
      u.state.right = (t.state.right.scale (lib.cos (lib.pi * angle / 180))).add
        (t.state.direction.scale ((if right then -1 else 1) * lib.sin (lib.pi * angle / 180))) := by
  obtain ⟨f1, f2, f3⟩ := hf
  have hh : lib.pi * angle / 180 = lib.pi * angle / 180 * (1 / 2) + lib.pi * angle / 180 * (1 / 2) := by ring
  have h1 := hl.circle (lib.pi * angle / 180 * (1 / 2))
  have c2 := hc.cos_add (lib.pi * angle / 180 * (1 / 2)) (lib.pi * angle / 180 * (1 / 2))
  have s2 := hc.sin_add (lib.pi * angle / 180 * (1 / 2)) (lib.pi * angle / 180 * (1 / 2))
  rw [← hh] at c2 s2
  rw [c2, s2]
  have key : ∀ s c : K, s * s + c * c = 1 → (Lsys.turn s c t.state).direction = (t.state.direction.scale (c * c - s * s)).add (t.state.right.scale (s * c + c * s)) ∧
      (Lsys.turn s c t.state).right = (t.state.right.scale (c * c - s * s)).add (t.state.direction.scale (-(s * c + c * s))) := by
    intro s c h
    have ha : QuaternionSpec.lengthSq (Quaternion.Vec3.cross t.state.direction t.state.right) = 1 := by
      simp only [QuaternionSpec.lengthSq, Quaternion.Vec3.cross]
      linear_combination (t.state.right.x ^ 2 + t.state.right.y ^ 2 + t.state.right.z ^ 2) * f1 + f2 -
        (t.state.direction.x * t.state.right.x + t.state.direction.y * t.state.right.y + t.state.direction.z * t.state.right.z) * f3
    have h' : s ^ 2 + c ^ 2 = 1 := by linear_combination h
    have p1 := (C54_angle s c h' _ t.state.direction ha (by simp only [Quaternion.Vec3.dot, Quaternion.Vec3.cross]; ring)).2
    have p2 := (C54_angle s c h' _ t.state.right ha (by simp only [Quaternion.Vec3.dot, Quaternion.Vec3.cross]; ring)).2
    simp only [Lsys.turn, Lsys.createRotation]
    rw [p1, p2]
    simp only [Quaternion.Vec3.add, Quaternion.Vec3.scale, Quaternion.Vec3.cross, Quaternion.Vec3.mk.injEq]
    refine ⟨⟨?_, ?_, ?_⟩, ?_, ?_, ?_⟩
    · linear_combination (2 * s * c * t.state.right.x) * f1 - (2 * s * c * t.state.direction.x) * f3
    · linear_combination (2 * s * c * t.state.right.y) * f1 - (2 * s * c * t.state.direction.y) * f3
    · linear_combination (2 * s * c * t.state.right.z) * f1 - (2 * s * c * t.state.direction.z) * f3
    · linear_combination -(2 * s * c * t.state.direction.x) * f2 + (2 * s * c * t.state.right.x) * f3
    · linear_combination -(2 * s * c * t.state.direction.y) * f2 + (2 * s * c * t.state.right.y) * f3
    · linear_combination -(2 * s * c * t.state.direction.z) * f2 + (2 * s * c * t.state.right.z) * f3
  cases right with
  | true =>
    obtain ⟨e1, e2⟩ := key _ _ h1
    refine ⟨_, rfl, ?_, ?_⟩
    · refine e1.trans ?_
      simp only [if_true, one_mul]
    · refine e2.trans ?_
      simp only [if_true, neg_one_mul]
  | false =>
    obtain ⟨e1, e2⟩ := key (-lib.sin (lib.pi * angle / 180 * (1 / 2))) (lib.cos (lib.pi * angle / 180 * (1 / 2))) (by linear_combination h1)
    refine ⟨_, rfl, ?_, ?_⟩
    · refine e1.trans ?_
      simp only [Quaternion.Vec3.add, Quaternion.Vec3.scale, Quaternion.Vec3.mk.injEq, Bool.false_eq_true, if_false]
      refine ⟨?_, ?_, ?_⟩ <;> ring
    · refine e2.trans ?_
      simp only [Quaternion.Vec3.add, Quaternion.Vec3.scale, Quaternion.Vec3.mk.injEq, Bool.false_eq_true, if_false]
      refine ⟨?_, ?_, ?_⟩ <;> ring

/-- C90: the mesh of a node with a tree or a lamp shows the bodies on the ground at the node. Partial as `C90_generate_partial`. -/
theorem C90_node_partial {W G : Type} [FloorRing K] (lib : Library K) (hl : Standard lib) (hc : Circular lib) (epsilon : K) (hpos : 0 < epsilon) (heps : epsilon ≤ 1 / 2)
    (provider : Provider K) (lt : Rule → Rule → Bool) (pick : G → List W → Nat × G) (texts : Texts) (appearances : List (Look K))
    (ha : createAppearances provider texts = .ok appearances) (size angle scale step width : K) (l : LSystem W) (g : G) (t : Turtle K)
    (ht : Lsys.run lt pick (settings lib angle scale appearances.length) l g (Lsys.initial size) = .ok t) (w : Along.World K) (kind : Along.Kind) (id : UInt64) (tags : List Tag)
    (c : Geo K) : ∃ m, Along.visit w kind (fun _ => LsysDraw.plant lib epsilon provider lt pick texts size angle scale l g step width) [] (.node id tags c) =
        .ok [⟨if kind = .tree then "tree:" else "lamp:", id, m⟩] ∧
      Pictures lib epsilon appearances c (w.elevation c) t.drawn m [] := by
  obtain ⟨m, h1, h2⟩ := (C90_generate_partial lib hl hc epsilon hpos heps provider lt pick texts appearances ha size angle scale l g c (w.elevation c) {} [] Built.empty
    ⟨[], [], [], ⟨rfl, by simp, by simp⟩, rfl, .nil, .nil⟩).1 t ht
  refine ⟨m, ?_, h2⟩
  cases kind <;> simp only [Along.visit, Along.single, Along.plantNode, LsysDraw.plant, h1, bind_okl, List.nil_append] <;> rfl

/-- A provider which knows two colors. -/
noncomputable def twoColors : Provider ℝ where
  toIndex text := if text = ['3'] then .ok 3 else .throw "bad_lexical_cast"
  toScale text := if text = ['2'] then .ok 2 else .throw "bad_lexical_cast"
  appearance color _ _ _ := if color = ['a'] ∨ color = ['b'] then .ok realLook else .throw "no gradient"

theorem twoColors_ok : createAppearances twoColors ⟨['a', ',', 'b'], ['3', ',', '3'], ['t', ',', 'u'], ['2', ',', '2', ',', 'x']⟩ = .ok [realLook, realLook] :=
  C90_appearances twoColors [⟨['a'], ['3'], ['t'], ['2'], realLook⟩, ⟨['b'], ['3'], ['u'], ['2'], realLook⟩] (by simp)
    (by
      intro e he
      simp only [List.mem_cons, List.not_mem_nil, or_false] at he
      rcases he with rfl | rfl
      · exact ⟨by decide, by decide, by decide, by decide, 3, 2, by simp [twoColors], by simp [twoColors], by simp [twoColors]⟩
      · exact ⟨by decide, by decide, by decide, by decide, 3, 2, by simp [twoColors], by simp [twoColors], by simp [twoColors]⟩)
    [] [] [['x']] (by simp)

/-- A trunk, a branch with a cone, and a ball on top. -/
def littleTree : LSystem Nat := ⟨1, [.op .moveForward, .op .jumpForward], [(.op .jumpForward, [(1, [.op .save, .op .turnLeft, .word ['c', 'o', 'n', 'e'], .op .restore,
  .word ['s', 'p', 'h', 'e', 'r', 'e']])])]⟩

/-- The hypotheses can be met: the mesh shows the 28 triangles of the trunk, the 21 of the cone and the 80 of the ball. -/
example (parseDouble : String → ℝ) (distance : Geo ℝ → Geo ℝ → ℝ) (offset : Terrain.Path → ℝ → List Terrain.Path) (lt : Rule → Rule → Bool)
    (hlt : lt = fun a b => a = .op .moveForward && b = .op .jumpForward) : ∃ m paint,
    generate (Roofs.realLibrary parseDouble distance offset) (1 / 100) twoColors lt (fun (g : Nat) _ => (0, g))
      ⟨['a', ',', 'b'], ['3', ',', '3'], ['t', ',', 'u'], ['2', ',', '2', ',', 'x']⟩ 1 30 2 littleTree 0 ⟨52, 13⟩ 34 {} = .ok m ∧
    Paints m paint [] ∧ paint.length = 28 + 21 + 80 := by
  subst hlt
  obtain ⟨t, ht, hd⟩ : ∃ t, Lsys.run (fun a b => a = .op .moveForward && b = .op .jumpForward) (fun (g : Nat) (_ : List Nat) => (0, g))
      (settings (Roofs.realLibrary parseDouble distance offset) 30 2 2) littleTree 0 (Lsys.initial 1) = .ok t ∧
      ∃ a b c, t.drawn = [(.cylinder, a), (.cone, b), (.sphere, c)] ∧ a.1.width = 1 := by
    refine ⟨_, rfl, _, _, _, rfl, rfl⟩
  obtain ⟨m, h1, blocks, h2, h3, h4⟩ := (C90_generate_partial (Roofs.realLibrary parseDouble distance offset) (C86_library parseDouble distance offset)
    (CurvedProof.circular parseDouble distance offset) (1 / 100) (by norm_num) (by norm_num) twoColors (fun a b => a = .op .moveForward && b = .op .jumpForward)
    (fun (g : Nat) (_ : List Nat) => (0, g)) _ _ twoColors_ok 1 30 2 littleTree 0 ⟨52, 13⟩ 34 {} [] Built.empty
    ⟨[], [], [], ⟨rfl, by simp, by simp⟩, rfl, .nil, .nil⟩).1 t ht
  refine ⟨m, _, h1, h4, ?_⟩
  obtain ⟨a, b, c, e, hw⟩ := hd
  rw [e] at h2
  obtain ⟨x, xs, ⟨_, ux, _, bx, rfl⟩, k2, rfl⟩ := List.forall₂_cons_left_iff.1 h2
  obtain ⟨y, ys, ⟨_, uy, _, by', rfl⟩, k3, rfl⟩ := List.forall₂_cons_left_iff.1 k2
  obtain ⟨z, zs, ⟨_, uz, _, bz, rfl⟩, k4, rfl⟩ := List.forall₂_cons_left_iff.1 k3
  cases k4
  obtain ⟨-, lx, -⟩ := bx (.inl (by rw [hw]; norm_num))
  obtain ⟨-, ly, -⟩ := by'
  obtain ⟨vs, -, -, lz, rfl⟩ := bz
  simp [lx, ly, lz]

end Verif.Props
