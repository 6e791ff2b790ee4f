import Verif.Props.RoofsMansard
import Verif.Props.Geometry

/-! # C88: skillion roofs -/
namespace Verif.Props
open Verif.MeshBuilder Verif.MeshSpec Verif.ShownSpec Verif.PolygonSpec Verif.Building Verif.BuildingSpec Verif.RoofsSpec Verif.Roofs
open Verif.Polygon (Vec Poly Rect)
open Verif.SolidsSpec (Closed)
open Verif.GeometrySpec (Parallel OnSegment side)
open BuildingProof RoofsProof

namespace SkillionProof
set_option linter.unusedSectionVars false

/-! ### The mesh of a polygon -/

section
variable {α : Type}

/-- The vertices of points. -/
def verts (attr : Nat → Vec2 α → α × Int × Vec2 α) (i : Nat) : List (Vec2 α) → List α
  | [] => []
  | p :: ps => p.x :: p.y :: (attr i p).1 :: verts attr (i + 1) ps

def cols (attr : Nat → Vec2 α → α × Int × Vec2 α) (i : Nat) : List (Vec2 α) → List Int
  | [] => []
  | p :: ps => (attr i p).2.1 :: cols attr (i + 1) ps

def maps (attr : Nat → Vec2 α → α × Int × Vec2 α) (i : Nat) : List (Vec2 α) → List α
  | [] => []
  | p :: ps => (attr i p).2.2.x :: (attr i p).2.2.y :: maps attr (i + 1) ps

theorem fillPoints_eq (attr : Nat → Vec2 α → α × Int × Vec2 α) (m : Mesh α) (i : Nat) (ps : List (Vec2 α)) :
    fillPoints attr m i ps = { m with vertices := m.vertices ++ verts attr i ps, colors := m.colors ++ cols attr i ps, uvs := m.uvs ++ maps attr i ps } := by
  induction ps generalizing m i with
  | nil => simp [fillPoints, verts, cols, maps]
  | cons p ps ih => simp [fillPoints, ih, fillPoint, verts, cols, maps]

theorem verts_length (attr : Nat → Vec2 α → α × Int × Vec2 α) (i : Nat) (ps : List (Vec2 α)) : (verts attr i ps).length = 3 * ps.length := by
  induction ps generalizing i with
  | nil => rfl
  | cons p ps ih => simp only [verts, List.length_cons, ih]; omega

theorem verts_get (attr : Nat → Vec2 α → α × Int × Vec2 α) (i : Nat) (ps : List (Vec2 α)) (j : Nat) (p : Vec2 α) (h : ps[j]? = some p) :
    (verts attr i ps)[3 * j]? = some p.x ∧ (verts attr i ps)[3 * j + 1]? = some p.y ∧ (verts attr i ps)[3 * j + 2]? = some (attr (i + j) p).1 := by
  induction ps generalizing i j with
  | nil => simp at h
  | cons q ps ih =>
    cases j with
    | zero =>
      simp only [List.getElem?_cons_zero, Option.some.injEq] at h
      subst h
      simp [verts]
    | succ j =>
      rw [List.getElem?_cons_succ] at h
      have := ih (i + 1) j h
      rw [show i + (j + 1) = i + 1 + j by omega]
      simpa [verts, Nat.mul_add] using this

theorem verts_congr (attr attr' : Nat → Vec2 α → α × Int × Vec2 α) (i : Nat) (ps : List (Vec2 α)) (h : ∀ j p, ps[j]? = some p → (attr (i + j) p).1 = (attr' (i + j) p).1) :
    verts attr i ps = verts attr' i ps := by
  induction ps generalizing i with
  | nil => rfl
  | cons q ps ih =>
    simp only [verts]
    rw [show (attr i q).1 = (attr' i q).1 from h 0 q rfl, ih (i + 1) fun j p hj => by
      have := h (j + 1) p (by simpa using hj)
      rwa [show i + (j + 1) = i + 1 + j by omega] at this]

theorem setHeights_verts (f : Nat → Vec2 α → α → α) (attr attr' : Nat → Vec2 α → α × Int × Vec2 α) (i : Nat) (ps : List (Vec2 α))
    (h : ∀ j p, ps[j]? = some p → (attr' (i + j) p).1 = f (3 * (i + j)) p (attr (i + j) p).1) : setHeights f (3 * i) (verts attr i ps) = verts attr' i ps := by
  induction ps generalizing i with
  | nil => rfl
  | cons q ps ih =>
    have h0 : (attr' i q).1 = f (3 * i) q (attr i q).1 := h 0 q rfl
    simp only [verts, setHeights]
    rw [h0, show 3 * i + 3 = 3 * (i + 1) by omega, ih (i + 1) fun j p hj => by
      have := h (j + 1) p (by simpa using hj)
      rwa [show i + (j + 1) = i + 1 + j by omega] at this]

theorem cols_congr (attr attr' : Nat → Vec2 α → α × Int × Vec2 α) (h : ∀ j p, (attr j p).2 = (attr' j p).2) (i : Nat) (ps : List (Vec2 α)) : cols attr i ps = cols attr' i ps := by
  induction ps generalizing i with
  | nil => rfl
  | cons q ps ih => simp only [cols, ih, h]

theorem maps_congr (attr attr' : Nat → Vec2 α → α × Int × Vec2 α) (h : ∀ j p, (attr j p).2 = (attr' j p).2) (i : Nat) (ps : List (Vec2 α)) : maps attr i ps = maps attr' i ps := by
  induction ps generalizing i with
  | nil => rfl
  | cons q ps ih => simp only [maps, ih, h]

theorem shiftVertices_verts {K : Type} [Field K] (attr : Nat → Vec2 K → K × Int × Vec2 K) (i : Nat) (ps : List (Vec2 K)) :
    shiftVertices ⟨0, 0, 0⟩ (verts attr i ps) = .ok (verts attr i ps) := by
  induction ps generalizing i with
  | nil => rfl
  | cons q ps ih => simp only [verts, shiftVertices, ih, Outcome.bind, add_zero]

/-- Copying the mesh of a polygon with other heights is the same as adding the polygon with these heights. -/
theorem copy_fill {K : Type} [Field K] (io : TriangleIo K) (attr attr' : Nat → Vec2 K → K × Int × Vec2 K) (h : ∀ j p, (attr j p).2 = (attr' j p).2) (m : Mesh K) :
    copyMesh ⟨0, 0, 0⟩ { fillMesh {} io attr false with vertices := verts attr' 0 io.points } m = .ok (fillMesh m io attr' false) := by
  unfold copyMesh fillMesh
  simp only [fillPoints_eq, shiftVertices_verts, Outcome.bind, List.nil_append, cols_congr attr attr' h, maps_congr attr attr' h, shiftMap, List.append_nil]
  congr 2
  rw [List.map_flatMap]
  congr 1
  apply List.flatMap_congr
  rintro ⟨a, b, c⟩ -
  simp [corners, MeshBuilder.nextIndex]
  omega

end

theorem visited_three (k fuel : Nat) (hf : k ≤ fuel) (lo : Nat) : visited lo (lo + 3 * k) 3 fuel = (List.range k).map fun j => lo + 3 * j := by
  induction k generalizing fuel lo with
  | zero =>
    cases fuel with
    | zero => rfl
    | succ fuel => rw [visited, if_neg (by omega)]; rfl
  | succ k ih =>
    obtain ⟨fuel, rfl⟩ : ∃ f, fuel = f + 1 := ⟨fuel - 1, by omega⟩
    rw [visited, if_pos (by omega), List.range_succ_eq_map, List.map_cons, List.map_map, show lo + 3 * (k + 1) = lo + 3 + 3 * k by omega, ih fuel (by omega)]
    congr 1
    apply List.map_congr_left
    intro j _
    simp only [Function.comp]; omega

variable {K : Type} [Field K] [LinearOrder K]

/-- The points of the triangle library as corners. -/
def ringOf (io : TriangleIo K) : List (Vec K) := io.points.map fun p => ⟨p.x, p.y⟩

theorem vertexAt_eq (io : TriangleIo K) (attr : Nat → Vec2 K → K × Int × Vec2 K) (m : Mesh K) (hm : m.vertices = verts attr 0 io.points) (j : Nat) (hj : j < (ringOf io).length) :
    vertexAt m (3 * j) = .ok (corner (ringOf io) j) ∧ ∃ q, io.points[j]? = some q ∧ corner (ringOf io) j = ⟨q.x, q.y⟩ ∧
      vecAt m.vertices (((3 * j : Nat) : Int) + 2) = .ok (attr j q).1 := by
  have hl : j < io.points.length := by simpa [ringOf] using hj
  obtain ⟨h1, h2, h3⟩ := verts_get attr 0 io.points j _ (List.getElem?_eq_getElem hl)
  rw [← hm] at h1 h2 h3
  have hc : corner (ringOf io) j = ⟨io.points[j].x, io.points[j].y⟩ := by
    unfold corner
    rw [Nat.mod_eq_of_lt hj, getD_eq _ _ hj]
    simp [ringOf]
  refine ⟨?_, _, List.getElem?_eq_getElem hl, hc, ?_⟩
  · unfold vertexAt
    rw [vecAt_eq h1, show ((3 * j : Nat) : Int) + 1 = ((3 * j + 1 : Nat) : Int) by push_cast; ring, vecAt_eq h2, hc]
    rfl
  · rw [show ((3 * j : Nat) : Int) + 2 = ((3 * j + 2 : Nat) : Int) by push_cast; ring, vecAt_eq h3, Nat.zero_add]

theorem corner_mod (ring : List (Vec K)) (j : Nat) : corner ring (j % ring.length) = corner ring j := by
  unfold corner; rw [Nat.mod_mod]

theorem next_three {j n : Nat} (h : j < n) : (if 3 * j = 3 * n - 3 then 0 else 3 * j + 3) = 3 * ((j + 1) % n) := by
  rw [← next_mod h]; split <;> split <;> omega

variable [IsStrictOrderedRing K]

theorem crosses_iff (a b c d q : Vec K) : Crosses a b c d q ↔ ∃ r, Geometry.getIntersection a b c d = some r ∧ q = Geometry.getPointAlongLine a b r := by
  constructor
  · rintro ⟨hp, h1, h2⟩
    cases hi : Geometry.getIntersection a b c d with
    | none =>
      rcases (C55_none a b c d).1 hi with h | h
      · exact absurd h hp
      · exact absurd ⟨q, h1, h2⟩ h
    | some r =>
      refine ⟨r, rfl, ?_⟩
      obtain ⟨-, -, g1, g2⟩ := C55_point a b c d r hi
      generalize Geometry.getPointAlongLine a b r = w at g1 g2
      obtain ⟨t, -, -, tx, ty⟩ := h1
      obtain ⟨s, -, -, sx, sy⟩ := h2
      obtain ⟨t', -, -, tx', ty'⟩ := g1
      obtain ⟨s', -, -, sx', sy'⟩ := g2
      have hd : (b.x - a.x) * (d.y - c.y) - (b.y - a.y) * (d.x - c.x) ≠ 0 := fun e => hp (sub_eq_zero.1 e)
      have e1 : (t - t') * (b.x - a.x) = (s - s') * (d.x - c.x) := by linear_combination sx - sx' - tx + tx'
      have e2 : (t - t') * (b.y - a.y) = (s - s') * (d.y - c.y) := by linear_combination sy - sy' - ty + ty'
      have e3 : (t - t') * ((b.x - a.x) * (d.y - c.y) - (b.y - a.y) * (d.x - c.x)) = 0 := by linear_combination (d.y - c.y) * e1 - (d.x - c.x) * e2
      have e4 : t = t' := by
        rcases mul_eq_zero.1 e3 with h | h
        · exact sub_eq_zero.1 h
        · exact absurd h hd
      subst e4
      cases q; cases w
      simp only at tx ty tx' ty'
      rw [tx, ty, tx', ty']
  · rintro ⟨r, hr, rfl⟩
    obtain ⟨-, -, g1, g2⟩ := C55_point a b c d r hr
    refine ⟨fun hp => ?_, g1, g2⟩
    have := (C55_none a b c d).2 (.inl hp)
    rw [hr] at this
    cases this

theorem square_le {lib : Library K} (hl : Standard lib) {a b c d : Vec K} (h : square a b ≤ square c d) : distance2d lib a b ≤ distance2d lib c d := by
  by_contra hc
  have := not_le.1 hc
  obtain ⟨h1, h2⟩ := hl.sqrt _ (square_nonneg a b)
  obtain ⟨h3, h4⟩ := hl.sqrt _ (square_nonneg c d)
  rw [distance_eq, distance_eq] at this
  nlinarith

theorem lt_of_distance {lib : Library K} (hl : Standard lib) {a b c d : Vec K} (h : distance2d lib a b < distance2d lib c d) : square a b < square c d := by
  by_contra hc
  exact absurd (square_le hl (not_lt.1 hc)) (not_le.2 h)

/-- The state of the search after `j` sides. -/
structure Found (lib : Library K) (huge : K) (ring : List (Vec K)) (start finish : Vec K) (j : Nat) (s : Sides K) : Prop where
  far : ∀ i < j, ∀ q, Crosses (corner ring i) (corner ring (i + 1)) start finish q → distance2d lib start q ≤ s.maxDistance
  front : (s.front = 3 * ring.length ∧ s.maxDistance = 0) ∨ ∃ i < j, ∃ q, Crosses (corner ring i) (corner ring (i + 1)) start finish q ∧ s.front = 3 * i ∧
    s.maxDistance = distance2d lib start q ∧ 0 < s.maxDistance
  near : ∀ i < j, ∀ q, Crosses (corner ring i) (corner ring (i + 1)) start finish q → s.minDistance ≤ distance2d lib start q
  back : (s.back = 3 * ring.length ∧ s.minDistance = huge) ∨ ∃ i < j, ∃ q, Crosses (corner ring i) (corner ring (i + 1)) start finish q ∧
    s.minDistance = distance2d lib start q ∧ ((s.back = 3 * i ∧ distance2d lib (corner ring i) q < distance2d lib (corner ring (i + 1)) q) ∨
      (s.back = 3 * ((i + 1) % ring.length) ∧ ¬ distance2d lib (corner ring i) q < distance2d lib (corner ring (i + 1)) q))

theorem findSide_eq {lib : Library K} (huge : K) (io : TriangleIo K) (attr : Nat → Vec2 K → K × Int × Vec2 K) (m : Mesh K)
    (hm : m.vertices = verts attr 0 io.points) (start finish : Vec K) (j : Nat) (hj : j < (ringOf io).length) (s : Sides K) (h : Found lib huge (ringOf io) start finish j s) :
    ∃ s', findSide lib start finish m s (3 * j) = .ok s' ∧ Found lib huge (ringOf io) start finish (j + 1) s' := by
  have hn : m.vertices.length = 3 * (ringOf io).length := by rw [hm, verts_length]; simp [ringOf]
  have hm2 := Nat.mod_lt (j + 1) (show 0 < (ringOf io).length by omega)
  unfold findSide
  simp only [hn]
  rw [next_three hj, (vertexAt_eq io attr m hm j hj).1, (vertexAt_eq io attr m hm _ hm2).1, corner_mod]
  simp only [bind_okl]
  cases hi : Geometry.getIntersection (corner (ringOf io) j) (corner (ringOf io) (j + 1)) start finish with
  | none =>
    have none : ∀ q, ¬ Crosses (corner (ringOf io) j) (corner (ringOf io) (j + 1)) start finish q := by
      intro q hq
      obtain ⟨r, hr, -⟩ := (crosses_iff _ _ _ _ _).1 hq
      rw [hi] at hr; cases hr
    refine ⟨s, rfl, ?_, ?_, ?_, ?_⟩
    · intro i hij q hq
      by_cases he : i = j
      · subst he; exact absurd hq (none q)
      · exact h.far i (by omega) q hq
    · rcases h.front with h | ⟨i, hi, h⟩
      · exact .inl h
      · exact .inr ⟨i, by omega, h⟩
    · intro i hij q hq
      by_cases he : i = j
      · subst he; exact absurd hq (none q)
      · exact h.near i (by omega) q hq
    · rcases h.back with h | ⟨i, hi, h⟩
      · exact .inl h
      · exact .inr ⟨i, by omega, h⟩
  | some r =>
    simp only
    have hq : Crosses (corner (ringOf io) j) (corner (ringOf io) (j + 1)) start finish (Geometry.getPointAlongLine (corner (ringOf io) j) (corner (ringOf io) (j + 1)) r) :=
      (crosses_iff _ _ _ _ _).2 ⟨r, hi, rfl⟩
    have huniq : ∀ q, Crosses (corner (ringOf io) j) (corner (ringOf io) (j + 1)) start finish q →
        q = Geometry.getPointAlongLine (corner (ringOf io) j) (corner (ringOf io) (j + 1)) r := by
      intro q hq
      obtain ⟨r', hr, rfl⟩ := (crosses_iff _ _ _ _ _).1 hq
      rw [hi] at hr
      injection hr with hr
      rw [hr]
    generalize Geometry.getPointAlongLine (corner (ringOf io) j) (corner (ringOf io) (j + 1)) r = q at hq huniq
    refine ⟨_, rfl, ?_⟩
    have keep : ∀ s : Sides K, s.front = s.front := fun _ => rfl
    set s1 : Sides K := if distance2d lib start q > s.maxDistance then { s with front := 3 * j, maxDistance := distance2d lib start q } else s with hs1
    have hmin : s1.minDistance = s.minDistance := by rw [hs1]; split <;> rfl
    have hback : s1.back = s.back := by rw [hs1]; split <;> rfl
    have hfar : ∀ i < j + 1, ∀ q, Crosses (corner (ringOf io) i) (corner (ringOf io) (i + 1)) start finish q → distance2d lib start q ≤ s1.maxDistance := by
      intro i hij q' hq'
      rw [hs1]
      by_cases he : i = j
      · subst he
        rw [huniq q' hq']
        split
        · exact le_refl _
        · rename_i hlt; exact not_lt.1 hlt
      · have := h.far i (by omega) q' hq'
        split
        · rename_i hlt; exact le_trans this hlt.le
        · exact this
    have hfront : (s1.front = 3 * (ringOf io).length ∧ s1.maxDistance = 0) ∨ ∃ i < j + 1, ∃ q, Crosses (corner (ringOf io) i) (corner (ringOf io) (i + 1)) start finish q ∧
        s1.front = 3 * i ∧ s1.maxDistance = distance2d lib start q ∧ 0 < s1.maxDistance := by
      rw [hs1]
      split
      · rename_i hlt
        refine .inr ⟨j, by omega, q, hq, rfl, rfl, ?_⟩
        rcases h.front with ⟨-, h0⟩ | ⟨i, -, -, -, -, -, h0⟩
        · rw [h0] at hlt; exact hlt
        · exact lt_trans h0 hlt
      · rcases h.front with h | ⟨i, hi, h⟩
        · exact .inl h
        · exact .inr ⟨i, by omega, h⟩
    refine ⟨?_, ?_, ?_, ?_⟩
    · intro i hij q' hq'
      have := hfar i hij q' hq'
      split <;> exact this
    · split <;> exact hfront
    · intro i hij q' hq'
      by_cases he : i = j
      · subst he
        rw [huniq q' hq']
        split
        · exact le_refl _
        · rename_i hlt; exact not_lt.1 hlt
      · have := h.near i (by omega) q' hq'
        split
        · rename_i hlt
          rw [hmin] at hlt
          exact le_trans hlt.le this
        · rw [hmin]; exact this
    · split
      · refine .inr ⟨j, by omega, q, hq, rfl, ?_⟩
        simp only
        split
        · rename_i hlt; exact .inl ⟨rfl, hlt⟩
        · rename_i hlt; exact .inr ⟨rfl, hlt⟩
      · rw [hmin, hback]
        rcases h.back with h | ⟨i, hi, h⟩
        · exact .inl h
        · exact .inr ⟨i, by omega, h⟩

theorem tilted_front (bottom height : K) (a b c : Vec K) : tilted bottom height a b c a = bottom ∧ tilted bottom height a b c b = bottom := by
  have h1 : side a b a = 0 := by unfold side; ring
  have h2 : side a b b = 0 := by unfold side; ring
  unfold tilted
  rw [h1, h2]
  simp

theorem tilted_plane (bottom height : K) (a b c q : Vec K) (h : side a b c ≠ 0) :
    clamp (calcHeight q (roofPlane bottom (bottom + height) a b c).1 (roofPlane bottom (bottom + height) a b c).2) bottom (bottom + height) = tilted bottom height a b c q := by
  have hy : (roofPlane bottom (bottom + height) a b c).1.y = side a b c := by simp only [roofPlane, minus, side]; ring
  unfold clamp tilted calcHeight
  rw [hy, if_pos h]
  congr 2
  rw [div_eq_iff h, add_mul, mul_assoc, div_mul_cancel₀ _ h]
  simp only [roofPlane, minus, side]
  ring

theorem search_eq {lib : Library K} (env : Env K) (io : TriangleIo K) (attr : Nat → Vec2 K → K × Int × Vec2 K) (m : Mesh K)
    (hm : m.vertices = verts attr 0 io.points) (start finish : Vec K) :
    ∃ s, foldO (findSide lib start finish m) ⟨3 * (ringOf io).length, 3 * (ringOf io).length, env.huge, 0⟩ (visited 0 (3 * (ringOf io).length) 3 (3 * (ringOf io).length)) = .ok s ∧
      Found lib env.huge (ringOf io) start finish (ringOf io).length s := by
  have hv := visited_three (ringOf io).length (3 * (ringOf io).length) (by omega) 0
  simp only [Nat.zero_add] at hv
  rw [hv, foldO_map]
  exact foldO_range _ (Found lib env.huge (ringOf io) start finish) _ (fun j hj s hs => findSide_eq env.huge io attr m hm start finish j hj s hs)
    ⟨fun i hi => absurd hi (Nat.not_lt_zero _), .inl ⟨rfl, rfl⟩, fun i hi => absurd hi (Nat.not_lt_zero _), .inl ⟨rfl, rfl⟩⟩

theorem fill_vertices (io : TriangleIo K) (attr : Nat → Vec2 K → K × Int × Vec2 K) : (fillMesh {} io attr false).vertices = verts attr 0 io.points := by
  unfold fillMesh
  simp only [fillPoints_eq, List.nil_append]

/-- The roof for an outline which the line crosses. -/
theorem skillionRange_drawn {lib : Library K} (hl : Standard lib) (env : Env K) (look : Look K) (d : Vec K) (height bottom : K) (p : Poly K) (outline : List (Vec K))
    (range : Nat × Nat) (hst : Stored p outline range) (hio : InRange (env.triangulate p)) (hhuge : 0 < env.huge)
    (hfront : ∃ j < (ringOf (env.triangulate p)).length, ∃ q, Crosses (corner (ringOf (env.triangulate p)) j) (corner (ringOf (env.triangulate p)) (j + 1)) (lineStart outline d)
      (lineEnd outline d) q ∧ 0 < square (lineStart outline d) q)
    (hback : ∃ j < (ringOf (env.triangulate p)).length, ∃ q, Crosses (corner (ringOf (env.triangulate p)) j) (corner (ringOf (env.triangulate p)) (j + 1)) (lineStart outline d)
      (lineEnd outline d) q ∧ square (lineStart outline d) q < env.huge * env.huge)
    (hproper : ∀ f k, IsFront (ringOf (env.triangulate p)) (lineStart outline d) (lineEnd outline d) f → IsBack (ringOf (env.triangulate p)) (lineStart outline d) (lineEnd outline d) k →
      f ≠ k ∧ side (corner (ringOf (env.triangulate p)) f) (corner (ringOf (env.triangulate p)) (f + 1)) (corner (ringOf (env.triangulate p)) k) ≠ 0)
    (m : Mesh K) {t : Texture} {done : List (Triangle K × Texture)} (ts : List (Triangle K)) (hd : Drawn t done m ts) :
    ∃ m' new f k, skillionRange lib env look d height bottom p (m, true) range = .ok (m', true) ∧ Drawn t done m' (ts ++ new) ∧
      IsFront (ringOf (env.triangulate p)) (lineStart outline d) (lineEnd outline d) f ∧ IsBack (ringOf (env.triangulate p)) (lineStart outline d) (lineEnd outline d) k ∧
      SkillionFaces look bottom height (env.triangulate p) (ringOf (env.triangulate p)) f k new := by
  set io := env.triangulate p with hiodef
  set ring := ringOf io with hring
  have hlen : io.points.length = ring.length := by simp [hring, ringOf]
  set attr : Nat → Vec2 K → K × Int × Vec2 K := fun _ q => (bottom + 0, look.pointColor q, look.pointUv q) with hattr
  have hvs := fill_vertices io attr
  have hcount : (fillMesh {} io attr false).vertices.length = 3 * ring.length := by rw [hvs, verts_length, hlen]
  obtain ⟨s, hs, hF⟩ := search_eq (lib := lib) env io attr (fillMesh {} io attr false) hvs (lineStart outline d) (lineEnd outline d)
  obtain ⟨f, hf, hfr⟩ : ∃ f, s.front = 3 * f ∧ IsFront ring (lineStart outline d) (lineEnd outline d) f := by
    rcases hF.front with ⟨-, h0⟩ | ⟨f, hlt, q, hq, h1, h2, h3⟩
    · obtain ⟨j, hj, q, hq, hpos⟩ := hfront
      have := hF.far j hj q hq
      obtain ⟨a, b⟩ := hl.sqrt _ (square_nonneg (lineStart outline d) q)
      rw [h0, distance_eq] at this
      have : lib.sqrt (square (lineStart outline d) q) = 0 := le_antisymm this a
      rw [this] at b
      simp only [mul_zero] at b
      rw [← b] at hpos
      exact absurd hpos (lt_irrefl _)
    · refine ⟨f, h1, hlt, q, hq, ?_, ?_⟩
      · obtain ⟨a, b⟩ := hl.sqrt _ (square_nonneg (lineStart outline d) q)
        rw [h2, distance_eq] at h3
        rw [← b]; exact mul_pos h3 h3
      · intro j hj q' hq'
        have := hF.far j hj q' hq'
        rw [h2] at this
        exact distance_le hl this
  obtain ⟨k, hk, hklt, hbk⟩ : ∃ k, s.back = 3 * k ∧ k < ring.length ∧ IsBack ring (lineStart outline d) (lineEnd outline d) k := by
    rcases hF.back with ⟨-, h0⟩ | ⟨j, hlt, q, hq, h1, h2⟩
    · obtain ⟨j, hj, q, hq, hlt⟩ := hback
      have := hF.near j hj q hq
      obtain ⟨a, b⟩ := hl.sqrt _ (square_nonneg (lineStart outline d) q)
      rw [h0, distance_eq] at this
      rw [← b] at hlt
      nlinarith
    · have hall : ∀ j < ring.length, ∀ q', Crosses (corner ring j) (corner ring (j + 1)) (lineStart outline d) (lineEnd outline d) q' →
          square (lineStart outline d) q ≤ square (lineStart outline d) q' := by
        intro j hj q' hq'
        have := hF.near j hj q' hq'
        rw [h1] at this
        exact distance_le hl this
      rcases h2 with ⟨h2, h3⟩ | ⟨h2, h3⟩
      · exact ⟨j, h2, hlt, j, hlt, q, hq, hall, .inl ⟨rfl, lt_of_distance hl h3⟩⟩
      · exact ⟨(j + 1) % ring.length, h2, Nat.mod_lt _ (by omega), j, hlt, q, hq, hall, .inr ⟨rfl, distance_le hl (not_lt.1 h3)⟩⟩
  obtain ⟨hne, hside⟩ := hproper f k hfr hbk
  have hflt : f < ring.length := hfr.1
  have hnf := Nat.mod_lt (f + 1) (show 0 < ring.length by omega)
  set lifted := tilted bottom height (corner ring f) (corner ring (f + 1)) (corner ring k) with hlifted
  set attr' : Nat → Vec2 K → K × Int × Vec2 K := fun _ q => (lifted ⟨q.x, q.y⟩, look.pointColor q, look.pointUv q) with hattr'
  obtain ⟨tf1, tf2⟩ := tilted_front bottom height (corner ring f) (corner ring (f + 1)) (corner ring k)
  have hset : setHeights (fun i q h => if i = 3 * f ∨ i = 3 * ((f + 1) % ring.length) then h
      else clamp (calcHeight ⟨q.x, q.y⟩ (roofPlane bottom (bottom + height) (corner ring f) (corner ring (f + 1)) (corner ring k)).1
        (roofPlane bottom (bottom + height) (corner ring f) (corner ring (f + 1)) (corner ring k)).2) bottom (bottom + height)) 0 (fillMesh {} io attr false).vertices =
      verts attr' 0 io.points := by
    rw [hvs]
    refine setHeights_verts _ attr attr' 0 io.points ?_
    intro j q hj
    have hjl : j < ring.length := by rw [← hlen]; exact (List.getElem?_eq_some_iff.1 hj).1
    have hc : corner ring j = ⟨q.x, q.y⟩ := by
      obtain ⟨-, q', h1, h2, -⟩ := vertexAt_eq io attr (fillMesh {} io attr false) hvs j hjl
      rw [hj] at h1
      injection h1 with h1
      rw [h1]; exact h2
    simp only [Nat.zero_add, hattr', hattr]
    rw [← hc]
    by_cases h1 : j = f
    · subst h1
      rw [if_pos (.inl rfl), add_zero, hlifted]; exact tf1
    · by_cases h2 : j = (f + 1) % ring.length
      · rw [if_pos (.inr (by rw [h2])), add_zero, hlifted, h2, corner_mod]; exact tf2
      · rw [if_neg (by omega), tilted_plane _ _ _ _ _ _ hside]
  have hvs' : ({ fillMesh {} io attr false with vertices := verts attr' 0 io.points } : Mesh K).vertices = verts attr' 0 io.points := rfl
  have hcount' : (verts attr' 0 io.points).length = 3 * ring.length := by rw [verts_length, hlen]
  have hv := visited_three ring.length (3 * ring.length) (by omega) 0
  simp only [Nat.zero_add] at hv
  have hheight : ∀ j, j < ring.length → vecAt (verts attr' 0 io.points) (((3 * j : Nat) : Int) + 2) = .ok (lifted (corner ring j)) := by
    intro j hj
    obtain ⟨-, q, -, h2, h3⟩ := vertexAt_eq io attr' { fillMesh {} io attr false with vertices := verts attr' 0 io.points } rfl j hj
    rw [h2]; exact h3
  obtain ⟨m1, h1, g1⟩ := Drawn.fold (t := t) (done := done) (fun m (j : Nat) => skillionSide look height bottom (3 * f) (3 * ((f + 1) % ring.length))
      { fillMesh {} io attr false with vertices := verts attr' 0 io.points } m (3 * j)) (fun j =>
      let a := corner ring j
      let b := corner ring (j + 1)
      let scale := look.scaled height
      let right := facet look (above bottom a) (above (lifted b) b) (above bottom b) ⟨0, 0⟩ ⟨scale, scale⟩ ⟨scale, 0⟩
      if j = f then []
      else if j = (f + 1) % ring.length then [right]
      else if (j + 1) % ring.length = f then [facet look (above bottom a) (above (lifted a) a) (above bottom b) ⟨0, 0⟩ ⟨0, scale⟩ ⟨scale, 0⟩]
      else [right, facet look (above bottom a) (above (lifted a) a) (above (lifted b) b) ⟨0, 0⟩ ⟨0, scale⟩ ⟨scale, scale⟩]) (List.range ring.length) (by
      intro j hj m ts hd
      have hj : j < ring.length := by simpa using hj
      have hnj := Nat.mod_lt (j + 1) (show 0 < ring.length by omega)
      unfold skillionSide
      by_cases e1 : j = f
      · refine ⟨m, by rw [if_pos (by rw [e1])], ?_⟩
        simp only
        rw [if_pos e1, List.append_nil]; exact hd
      · rw [if_neg (by omega)]
        simp only [hcount']
        rw [next_three hj, (vertexAt_eq io attr' _ hvs' j hj).1, (vertexAt_eq io attr' _ hvs' _ hnj).1, hheight j hj, hheight _ hnj, corner_mod]
        simp only [bind_okl]
        by_cases e2 : j = (f + 1) % ring.length
        · refine ⟨_, rfl, ?_⟩
          rw [if_pos (by rw [e2]), if_neg e1, if_pos e2]
          exact Drawn.facet look hd _
        · by_cases e3 : (j + 1) % ring.length = f
          · refine ⟨_, rfl, ?_⟩
            rw [if_neg (by omega), if_pos (by rw [e3]), if_neg e1, if_neg e2, if_pos e3]
            exact Drawn.facet look hd _
          · refine ⟨_, rfl, ?_⟩
            rw [if_neg (by omega), if_neg (by omega), if_neg e1, if_neg e2, if_neg e3]
            have := Drawn.facet look (Drawn.facet look hd ((above bottom (corner ring j), above (lifted (corner ring (j + 1))) (corner ring (j + 1)), above bottom (corner ring (j + 1))),
              ⟨0, 0⟩, ⟨look.scaled height, look.scaled height⟩, ⟨look.scaled height, 0⟩))
              ((above bottom (corner ring j), above (lifted (corner ring j)) (corner ring j), above (lifted (corner ring (j + 1))) (corner ring (j + 1))),
              ⟨0, 0⟩, ⟨0, look.scaled height⟩, ⟨look.scaled height, look.scaled height⟩)
            rw [List.append_assoc] at this
            exact this) hd
  obtain ⟨n, hn⟩ := C43_well_formed m1 g1.1
  obtain ⟨surface, f1, f2⟩ := ShownProof.fillMesh_adds hn io attr' false hio
  have g2 := g1.add hn f1 (.polygon _ _ g1.1 hio)
  refine ⟨fillMesh m1 io attr' false, panels look bottom height lifted ring f ++ surface, f, k, ?_, ?_, hfr, hbk, surface, f2, rfl⟩
  · unfold skillionRange
    rw [if_neg (by simp), rangePoints_eq p outline range hst, bind_okl]
    simp only [centroid_eq]
    rw [show env.triangulate p = io from rfl, show (fun _ q => (bottom + 0, look.pointColor q, look.pointUv q) : Nat → Vec2 K → K × Int × Vec2 K) = attr from rfl, hcount]
    have hs' := hs
    unfold lineStart lineEnd at hs'
    rw [hs', bind_okl]
    rw [if_neg (by rw [hf, hk]; omega)]
    rw [hf, hk, next_three hflt, (vertexAt_eq io attr _ hvs f hflt).1, (vertexAt_eq io attr _ hvs _ hnf).1, (vertexAt_eq io attr _ hvs k hklt).1, corner_mod]
    simp only [bind_okl]
    rw [hset, hv, foldO_map]
    rw [h1, bind_okl, copy_fill io attr attr' (fun _ _ => rfl), bind_okl]
  · rw [← List.append_assoc]
    exact g2

/-- Without a proper front and back the function returns false. -/
theorem skillionRange_flat {lib : Library K} (hl : Standard lib) (env : Env K) (look : Look K) (d : Vec K) (height bottom : K) (p : Poly K) (outline : List (Vec K))
    (range : Nat × Nat) (hst : Stored p outline range)
    (hnone : ∀ f k, IsFront (ringOf (env.triangulate p)) (lineStart outline d) (lineEnd outline d) f →
      IsBack (ringOf (env.triangulate p)) (lineStart outline d) (lineEnd outline d) k → f = k) (m : Mesh K) :
    skillionRange lib env look d height bottom p (m, true) range = .ok (m, false) := by
  set io := env.triangulate p with hiodef
  set ring := ringOf io with hring
  have hlen : io.points.length = ring.length := by simp [hring, ringOf]
  set attr : Nat → Vec2 K → K × Int × Vec2 K := fun _ q => (bottom + 0, look.pointColor q, look.pointUv q) with hattr
  have hvs := fill_vertices io attr
  have hcount : (fillMesh {} io attr false).vertices.length = 3 * ring.length := by rw [hvs, verts_length, hlen]
  obtain ⟨s, hs, hF⟩ := search_eq (lib := lib) env io attr (fillMesh {} io attr false) hvs (lineStart outline d) (lineEnd outline d)
  have hrl : (ringOf io).length = ring.length := rfl
  have hcond : s.front > 3 * ring.length - 3 ∨ s.back > 3 * ring.length - 3 ∨ s.front = s.back := by
    rcases hF.front with ⟨h0, -⟩ | ⟨f, hlt, q, hq, h1, h2, h3⟩
    · by_cases hn : ring.length = 0
      · rcases hF.back with ⟨h1, -⟩ | ⟨j, hlt, -⟩
        · right; right; rw [h0, h1]
        · omega
      · left; omega
    · rcases hF.back with ⟨h0, -⟩ | ⟨j, hlt', q', hq', g1, g2⟩
      · right; left; omega
      · right; right
        have hfr : IsFront ring (lineStart outline d) (lineEnd outline d) f := by
          refine ⟨hlt, q, hq, ?_, ?_⟩
          · obtain ⟨a, b⟩ := hl.sqrt _ (square_nonneg (lineStart outline d) q)
            rw [h2, distance_eq] at h3
            rw [← b]; exact mul_pos h3 h3
          · intro j hj q' hq'
            have := hF.far j hj q' hq'
            rw [h2] at this
            exact distance_le hl this
        have hall : ∀ j < ring.length, ∀ w, Crosses (corner ring j) (corner ring (j + 1)) (lineStart outline d) (lineEnd outline d) w →
            square (lineStart outline d) q' ≤ square (lineStart outline d) w := by
          intro j hj w hw
          have := hF.near j hj w hw
          rw [g1] at this
          exact distance_le hl this
        rcases g2 with ⟨g2, g3⟩ | ⟨g2, g3⟩
        · rw [h1, g2, hnone f j hfr ⟨j, hlt', q', hq', hall, .inl ⟨rfl, lt_of_distance hl g3⟩⟩]
        · rw [h1, g2, hnone f _ hfr ⟨j, hlt', q', hq', hall, .inr ⟨rfl, distance_le hl (not_lt.1 g3)⟩⟩]
  unfold skillionRange
  rw [if_neg (by simp), rangePoints_eq p outline range hst, bind_okl]
  simp only [centroid_eq]
  rw [show env.triangulate p = io from rfl, show (fun _ q => (bottom + 0, look.pointColor q, look.pointUv q) : Nat → Vec2 K → K × Int × Vec2 K) = attr from rfl, hcount]
  have hs' := hs
  unfold lineStart lineEnd at hs'
  rw [hs', bind_okl, if_pos hcond]

theorem slope_eq {lib : Library K} (hl : Standard lib) (epsilon : K) (he : epsilon < 1) (direction : String) : slope lib epsilon direction = heading lib (degrees lib direction) := by
  unfold slope heading
  simp only
  have h1 : lib.sqrt 1 = 1 := by
    obtain ⟨a, b⟩ := hl.sqrt 1 zero_le_one
    nlinarith
  rw [hl.circle, h1, if_pos he, div_one, div_one]

theorem degrees_eq (lib : Library K) (name : String) : Degrees lib name (degrees lib name) := by
  unfold Degrees
  by_cases h : name ∈ compass
  · refine .inl ?_
    simp only [compass, List.mem_cons, List.not_mem_nil, or_false] at h
    rcases h with rfl | rfl | rfl | rfl | rfl | rfl | rfl | rfl | rfl | rfl | rfl | rfl | rfl | rfl | rfl | rfl
    · exact ⟨0, rfl, rfl⟩
    · exact ⟨1, rfl, rfl⟩
    · exact ⟨2, rfl, rfl⟩
    · exact ⟨3, rfl, rfl⟩
    · exact ⟨4, rfl, rfl⟩
    · exact ⟨5, rfl, rfl⟩
    · exact ⟨6, rfl, rfl⟩
    · exact ⟨7, rfl, rfl⟩
    · exact ⟨8, rfl, rfl⟩
    · exact ⟨9, rfl, rfl⟩
    · exact ⟨10, rfl, rfl⟩
    · exact ⟨11, rfl, rfl⟩
    · exact ⟨12, rfl, rfl⟩
    · exact ⟨13, rfl, rfl⟩
    · exact ⟨14, rfl, rfl⟩
    · exact ⟨15, rfl, rfl⟩
  · refine .inr ⟨h, ?_⟩
    simp only [compass, List.mem_cons, List.not_mem_nil, or_false, not_or] at h
    obtain ⟨h0, h1, h2, h3, h4, h5, h6, h7, h8, h9, h10, h11, h12, h13, h14, h15⟩ := h
    unfold degrees
    have : directions.find name = none := by
      simp [directions, Assoc.find, Ne.symm h0, Ne.symm h1, Ne.symm h2, Ne.symm h3, Ne.symm h4, Ne.symm h5, Ne.symm h6, Ne.symm h7, Ne.symm h8, Ne.symm h9, Ne.symm h10, Ne.symm h11,
        Ne.symm h12, Ne.symm h13, Ne.symm h14, Ne.symm h15]
    rw [this]

/-! ### Sums over edges -/

open ClosedProof (total lift)
open SolidsProof (esum)

theorem corners_sum (F : Vec K → Vec K → Int) (ring : List (Vec K)) :
    ((List.range ring.length).map fun j => F (corner ring j) (corner ring (j + 1))).sum = total F (ringEdges ring) := by
  rw [← ClosedProof.zip_edges, show ring.tail ++ ring.take 1 = following ring from rfl, following_eq (⟨0, 0⟩ : Vec K)]
  unfold total
  rw [List.map_map]
  congr 1
  apply List.map_congr_left
  intro j hj
  have hj : j < ring.length := by simpa using hj
  simp only [Function.comp, corner, Nat.mod_eq_of_lt hj]

theorem surface_sum (lifted : Vec K → K) (attr : Nat → Vec2 K → K × Int × Vec2 K) (ha : ∀ j q, (attr j q).1 = lifted ⟨q.x, q.y⟩) (io : TriangleIo K)
    (plan : List (Vec K × Vec K × Vec K)) (hp : IsPlan io plan) (ts : List (Triangle K))
    (hf : List.Forall₂ (fun c t => ∃ a b d : Corner K, IsPoint io attr c.1 a ∧ IsPoint io attr c.2.1 b ∧ IsPoint io attr c.2.2 d ∧ OtherSide t (a, b, d)) io.triangles ts)
    (f : Vec3 K → Vec3 K → Int) (hs : ∀ a b, f a b = - f b a) :
    esum f (ts.map place) = - esum (fun x y => f (above (lifted x) x) (above (lifted y) y)) plan := by
  unfold IsPlan at hp
  generalize io.triangles = cs at hp hf
  induction hp generalizing ts with
  | nil => cases hf; simp [SolidsProof.esum_nil]
  | @cons c t cs plan hc _ ih =>
    cases hf with
    | @cons _ s _ ts hd htl =>
      obtain ⟨i, j, k, rfl, hi, hj, hk⟩ := hc
      obtain ⟨a, b, d, ⟨i', p, hi', hpi, rfl⟩, ⟨j', q, hj', hqj, rfl⟩, ⟨k', r, hk', hrk, rfl⟩, hside⟩ := hd
      simp only [Int.natCast_inj] at hi' hj' hk'
      subst hi' hj' hk'
      rw [hi] at hpi; rw [hj] at hqj; rw [hk] at hrk
      cases hpi; cases hqj; cases hrk
      obtain ⟨t1, t2, t3⟩ := t
      obtain ⟨s1, s2, s3⟩ := s
      rw [List.map_cons]
      simp only [place]
      rw [SolidsProof.esum_cons, SolidsProof.esum_cons, ih ts htl]
      have := ClosedProof.esum_same (fun a b : Corner K => f a.position b.position) _ _ _ _ _ _ hside
      simp only [ha] at this
      have a1 := hs s1.position s2.position
      have a2 := hs s2.position s3.position
      have a3 := hs s3.position s1.position
      simp only [above] at this ⊢
      linarith

theorem panels_sum (look : Look K) (bottom height : K) (lifted : Vec K → K) (ring : List (Vec K)) (front : Nat) (h1 : lifted (corner ring front) = bottom)
    (h2 : lifted (corner ring (front + 1)) = bottom) (f : Vec3 K → Vec3 K → Int) (hs : ∀ a b, f a b = - f b a) :
    esum f ((panels look bottom height lifted ring front).map place) =
      total (fun x y => f (above (lifted x) x) (above (lifted y) y)) (ringEdges ring) - total (fun x y => f (lift bottom x) (lift bottom y)) (ringEdges ring) := by
  have key : esum f ((panels look bottom height lifted ring front).map place) = total (fun x y =>
      (f (above (lifted x) x) (above (lifted y) y) + - f (lift bottom x) (lift bottom y)) +
        (f (above bottom x) (above (lifted x) x) - f (above bottom y) (above (lifted y) y))) (ringEdges ring) := by
    unfold panels
    rw [List.map_flatMap, SolidsProof.esum_flatMap, ← corners_sum]
    congr 1
    apply List.map_congr_left
    intro j hj
    have self : ∀ x, f x x = 0 := fun x => by have := hs x x; omega
    have hlift : ∀ (z : K) (w : Vec K), lift z w = above z w := fun _ _ => rfl
    simp only [hlift]
    by_cases e1 : j = front
    · subst e1
      rw [if_pos rfl, h1, h2]
      simp only [List.map_nil, SolidsProof.esum_nil, self]
      omega
    · rw [if_neg e1]
      by_cases e2 : j = (front + 1) % ring.length
      · rw [if_pos e2]
        have : lifted (corner ring j) = bottom := by rw [e2, corner_mod]; exact h2
        rw [this]
        simp only [List.map_cons, List.map_nil, place, facet, SolidsProof.esum_cons, SolidsProof.esum_nil, self]
        have a1 := hs (above (lifted (corner ring (j + 1))) (corner ring (j + 1))) (above bottom (corner ring (j + 1)))
        have a2 := hs (above bottom (corner ring (j + 1))) (above bottom (corner ring j))
        omega
      · rw [if_neg e2]
        by_cases e3 : (j + 1) % ring.length = front
        · rw [if_pos e3]
          have : lifted (corner ring (j + 1)) = bottom := by rw [← corner_mod, e3]; exact h1
          rw [this]
          simp only [List.map_cons, List.map_nil, place, facet, SolidsProof.esum_cons, SolidsProof.esum_nil, self]
          have a2 := hs (above bottom (corner ring (j + 1))) (above bottom (corner ring j))
          omega
        · rw [if_neg e3]
          simp only [List.map_cons, List.map_nil, place, facet, SolidsProof.esum_cons, SolidsProof.esum_nil]
          have a1 := hs (above (lifted (corner ring (j + 1))) (corner ring (j + 1))) (above bottom (corner ring (j + 1)))
          have a2 := hs (above bottom (corner ring (j + 1))) (above bottom (corner ring j))
          have a3 := hs (above (lifted (corner ring (j + 1))) (corner ring (j + 1))) (above bottom (corner ring j))
          omega
  rw [key, total_add, total_add, total_neg]
  have c0 : total (fun x y : Vec K => f (above bottom x) (above (lifted x) x) - f (above bottom y) (above (lifted y) y)) (ringEdges ring) = 0 :=
    ClosedProof.total_cycle (fun x : Vec K => f (above bottom x) (above (lifted x) x)) ring
  rw [c0]; ring

theorem degrees_unique {lib : Library K} {name : String} {x y : K} (hx : Degrees lib name x) (hy : Degrees lib name y) : x = y := by
  have inj : ∀ i j : Nat, compass[i]? = some name → compass[j]? = some name → i = j := by
    intro i j hi hj
    have hnd : compass.Nodup := by decide
    obtain ⟨hi', hi⟩ := List.getElem?_eq_some_iff.1 hi
    obtain ⟨hj', hj⟩ := List.getElem?_eq_some_iff.1 hj
    exact (List.Nodup.getElem_inj_iff hnd).1 (hi.trans hj.symm)
  rcases hx with ⟨i, hi, rfl⟩ | ⟨hn, rfl⟩ <;> rcases hy with ⟨j, hj, rfl⟩ | ⟨hn', rfl⟩
  · rw [inj i j hi hj]
  · exact absurd (List.mem_of_getElem? hi) hn'
  · exact absurd (List.mem_of_getElem? hj) hn
  · rfl

theorem ringOf_eq {io : TriangleIo K} {ring : List (Vec K)} (h : io.points = ring.map fun v => ⟨v.x, v.y⟩) : ringOf io = ring := by
  unfold ringOf
  rw [h, List.map_map]
  simp [Function.comp_def]

theorem skillionRoof_draws {lib : Library K} (hl : Standard lib) (env : Env K) (heps : env.epsilon < 1) (hhuge : 0 < env.huge) (look : Look K) (direction : String) (x : K)
    (hx : Degrees lib direction x) (height bottom : K) (p : Poly K) (ring : List (Vec K)) (range : Nat × Nat) (ho : p.outers = [range]) (hst : Stored p ring range)
    (hio : InRange (env.triangulate p)) (hpoints : (env.triangulate p).points = ring.map fun v => ⟨v.x, v.y⟩)
    (hfront : ∃ j < ring.length, ∃ q, Crosses (corner ring j) (corner ring (j + 1)) (lineStart ring (heading lib x)) (lineEnd ring (heading lib x)) q ∧
      0 < square (lineStart ring (heading lib x)) q)
    (hback : ∃ j < ring.length, ∃ q, Crosses (corner ring j) (corner ring (j + 1)) (lineStart ring (heading lib x)) (lineEnd ring (heading lib x)) q ∧
      square (lineStart ring (heading lib x)) q < env.huge * env.huge)
    (hproper : ∀ f k, IsFront ring (lineStart ring (heading lib x)) (lineEnd ring (heading lib x)) f →
      IsBack ring (lineStart ring (heading lib x)) (lineEnd ring (heading lib x)) k → f ≠ k ∧ side (corner ring f) (corner ring (f + 1)) (corner ring k) ≠ 0) :
    Draws look.texture (skillionRoof lib env look direction height bottom p) fun ts => ∃ f k,
      IsFront ring (lineStart ring (heading lib x)) (lineEnd ring (heading lib x)) f ∧ IsBack ring (lineStart ring (heading lib x)) (lineEnd ring (heading lib x)) k ∧
      SkillionFaces look bottom height (env.triangulate p) ring f k ts := by
  obtain rfl : x = degrees lib direction := degrees_unique hx (degrees_eq lib direction)
  intro m done ts hd
  have e := ringOf_eq hpoints
  rw [← slope_eq hl env.epsilon heps] at *
  obtain ⟨m', new, f, k, h1, h2, h3, h4, h5⟩ := skillionRange_drawn hl env look (slope lib env.epsilon direction) height bottom p ring range hst hio hhuge (by rw [e]; exact hfront)
    (by rw [e]; exact hback) (by rw [e]; exact hproper) m ts hd
  rw [e] at h3 h4 h5
  obtain ⟨m2, g1, g2⟩ := h2.textured
  refine ⟨m2, new, ?_, g2, f, k, h3, h4, h5⟩
  unfold skillionRoof
  rw [ho]
  simp only [foldO, h1, bind_okl, if_true]
  exact g1

theorem skillionRoof_flat {lib : Library K} (hl : Standard lib) (env : Env K) (heps : env.epsilon < 1) (look : Look K) (direction : String) (x : K)
    (hx : Degrees lib direction x) (height bottom : K) (p : Poly K) (ring : List (Vec K)) (range : Nat × Nat) (ho : p.outers = [range]) (hst : Stored p ring range)
    (hio : InRange (env.triangulate p)) (hpoints : (env.triangulate p).points = ring.map fun v => ⟨v.x, v.y⟩)
    (hnone : ∀ f k, IsFront ring (lineStart ring (heading lib x)) (lineEnd ring (heading lib x)) f →
      IsBack ring (lineStart ring (heading lib x)) (lineEnd ring (heading lib x)) k → f = k) :
    Draws look.texture (skillionRoof lib env look direction height bottom p) (FlatFaces look bottom false (env.triangulate p)) := by
  obtain rfl : x = degrees lib direction := degrees_unique hx (degrees_eq lib direction)
  intro m done ts hd
  have e := ringOf_eq hpoints
  rw [← slope_eq hl env.epsilon heps] at *
  have h0 := skillionRange_flat hl env look (slope lib env.epsilon direction) height bottom p ring range hst (by rw [e]; exact hnone) m
  obtain ⟨m', new, h1, h2, h3⟩ := flatRoof_draws env.triangulate false _ look bottom p hio m done ts hd
  refine ⟨m', new, ?_, h2, h3⟩
  rw [← h1]
  unfold skillionRoof
  rw [ho]
  simp only [foldO, h0, bind_okl]
  rfl

end SkillionProof
open SkillionProof
variable {K : Type} [Field K] [LinearOrder K] [IsStrictOrderedRing K]

/-- C88: a part with a skillion roof and one outline is drawn with one tilted plane: it begins at the top of the walls at the side where the line through the middle in
the direction of the roof leaves the outline, and reaches its full height at a corner where this line enters it. Below the other sides there are walls. Partial: exact
arithmetic; the triangle library returns the corners of the outline as its points; the front side is not a side at the corner in the back. -/
theorem C88_skillion_partial (lib : Library K) (hl : Standard lib) (env : Env K) (heps : env.epsilon < 1) (hhuge : 0 < env.huge) (part : BuildingSpec.Part K) (id : UInt64)
    (m : Mesh K) (done : List (Triangle K × Texture)) (hm : Built m) (hs : Paints m done []) (start : Geo K) (hd : Drawable (complete lib env) part start)
    (hroof : part.style.roofType = "skillion") (hfacade : part.style.facadeType = "flat") (contour ring : List (Vec K)) (hring : part.rings = [(contour, false)])
    (hopened : opened env.epsilon contour = ring) (hpoints : ∀ p, OnlyRing p ring → (env.triangulate p).points = ring.map fun v => ⟨v.x, v.y⟩)
    (x : K) (hx : Degrees lib part.style.roofDirection x)
    (hfront : ∃ j < ring.length, ∃ q, Crosses (corner ring j) (corner ring (j + 1)) (lineStart ring (heading lib x)) (lineEnd ring (heading lib x)) q ∧
      0 < square (lineStart ring (heading lib x)) q)
    (hback : ∃ j < ring.length, ∃ q, Crosses (corner ring j) (corner ring (j + 1)) (lineStart ring (heading lib x)) (lineEnd ring (heading lib x)) q ∧
      square (lineStart ring (heading lib x)) q < env.huge * env.huge)
    (hproper : ∀ f k, IsFront ring (lineStart ring (heading lib x)) (lineEnd ring (heading lib x)) f →
      IsBack ring (lineStart ring (heading lib x)) (lineEnd ring (heading lib x)) k → f ≠ k ∧ side (corner ring f) (corner ring (f + 1)) (corner ring k) ≠ 0) :
    DrawnWith (complete lib env) part id m done start fun io outlines holes top roof => outlines = [ring] ∧ holes = [] ∧ ∃ f k,
      IsFront ring (lineStart ring (heading lib x)) (lineEnd ring (heading lib x)) f ∧ IsBack ring (lineStart ring (heading lib x)) (lineEnd ring (heading lib x)) k ∧
      SkillionFaces (part.style.roofLook id) top part.style.roofHeight io ring f k roof := by
  refine part_with_roof _ part id m done hm hs start hd (skillionRoof lib env) _ (by simp [roofOf, hroof, complete, otherRoof]) ?_ hfacade
  intro p holes hp ho hi hk
  have hne : ring ≠ [] := by rw [← hopened]; exact hd.rings (contour, false) (by rw [hring]; exact List.mem_singleton.2 rfl)
  have hsingle := polygonOf_single _ part contour hring (opened_ne (epsilon := env.epsilon) (by rw [hopened]; exact hne)) p hp
  have e : (complete lib env).epsilon = env.epsilon := rfl
  rw [e, hopened] at hsingle
  rw [hring] at hk ho ⊢
  simp only [List.filter, Bool.not_false, List.map_cons, List.map_nil, e, hopened] at hk ho ⊢
  obtain rfl : holes = [] := by simpa using hk
  rw [hsingle.outers] at ho
  have hst := (List.forall₂_cons.1 ho).1
  intro m done ts h
  obtain ⟨m', new, h1, h2, h3⟩ := skillionRoof_draws hl env heps hhuge (part.style.roofLook id) part.style.roofDirection x hx part.style.roofHeight
    (env.elevation start + (if part.style.height = 0 then 10 else part.style.height)) p ring _ hsingle.outers hst (hd.library p hp)
    (hpoints p ⟨hsingle.points, hsingle.outers, hsingle.inners⟩) hfront hback hproper m done ts h
  exact ⟨m', new, h1, h2, trivial, rfl, h3⟩

/-- C88: if the line through the middle does not leave the outline, or if the front side begins at the corner in the back, then the roof is flat. -/
theorem C88_flat_partial (lib : Library K) (hl : Standard lib) (env : Env K) (heps : env.epsilon < 1) (part : BuildingSpec.Part K) (id : UInt64)
    (m : Mesh K) (done : List (Triangle K × Texture)) (hm : Built m) (hs : Paints m done []) (start : Geo K) (hd : Drawable (complete lib env) part start)
    (hroof : part.style.roofType = "skillion") (hfacade : part.style.facadeType = "flat") (contour ring : List (Vec K)) (hring : part.rings = [(contour, false)])
    (hopened : opened env.epsilon contour = ring) (hpoints : ∀ p, OnlyRing p ring → (env.triangulate p).points = ring.map fun v => ⟨v.x, v.y⟩)
    (x : K) (hx : Degrees lib part.style.roofDirection x)
    (hnone : ∀ f k, IsFront ring (lineStart ring (heading lib x)) (lineEnd ring (heading lib x)) f →
      IsBack ring (lineStart ring (heading lib x)) (lineEnd ring (heading lib x)) k → f = k) :
    DrawnWith (complete lib env) part id m done start fun io _ _ top roof => FlatFaces (part.style.roofLook id) top false io roof := by
  refine part_with_roof _ part id m done hm hs start hd (skillionRoof lib env) _ (by simp [roofOf, hroof, complete, otherRoof]) ?_ hfacade
  intro p holes hp ho hi hk
  have hne : ring ≠ [] := by rw [← hopened]; exact hd.rings (contour, false) (by rw [hring]; exact List.mem_singleton.2 rfl)
  have hsingle := polygonOf_single _ part contour hring (opened_ne (epsilon := env.epsilon) (by rw [hopened]; exact hne)) p hp
  have e : (complete lib env).epsilon = env.epsilon := rfl
  rw [e, hopened] at hsingle
  rw [hring] at ho
  simp only [List.filter, Bool.not_false, List.map_cons, List.map_nil, e, hopened] at ho
  rw [hsingle.outers] at ho
  have hst := (List.forall₂_cons.1 ho).1
  exact skillionRoof_flat hl env heps (part.style.roofLook id) part.style.roofDirection x hx part.style.roofHeight _ p ring _ hsingle.outers hst (hd.library p hp)
    (hpoints p ⟨hsingle.points, hsingle.outers, hsingle.inners⟩) hnone

/-- C88: the heights of the roof: at the bottom at the ends of the front side, at the top at the corner in the back, nowhere below or above, and the height grows
with the distance from the front side. -/
theorem C88_heights (bottom height : K) (hh : 0 ≤ height) (a b c : Vec K) (hside : side a b c ≠ 0) :
    tilted bottom height a b c a = bottom ∧ tilted bottom height a b c b = bottom ∧ tilted bottom height a b c c = bottom + height ∧
    (∀ q, bottom ≤ tilted bottom height a b c q ∧ tilted bottom height a b c q ≤ bottom + height) ∧
    ∀ q r, side a b q / side a b c ≤ side a b r / side a b c → tilted bottom height a b c q ≤ tilted bottom height a b c r := by
  obtain ⟨h1, h2⟩ := tilted_front bottom height a b c
  refine ⟨h1, h2, ?_, fun q => ⟨le_max_left _ _, max_le (by linarith) (min_le_right _ _)⟩, fun q r h => ?_⟩
  · unfold tilted
    rw [div_self hside, mul_one, min_self, max_eq_right (by linarith)]
  · exact max_le_max le_rfl (min_le_min (by linarith [mul_le_mul_of_nonneg_left h hh]) le_rfl)

/-- C88: there are no gaps in a skillion roof: its border are the edges of the outline at the top of the walls, if the triangle library fills the outline. -/
theorem C88_border (look : Look K) (bottom height : K) (io : TriangleIo K) (ring : List (Vec K)) (front back : Nat) (ts : List (Triangle K))
    (h : SkillionFaces look bottom height io ring front back ts) (hfill : Fills io [ring]) : HasBorder (ts.map place) (roofEdges bottom [ring]) := by
  obtain ⟨surface, h1, rfl⟩ := h
  obtain ⟨plan, hplan, hborder⟩ := hfill
  obtain ⟨t1, t2⟩ := tilted_front bottom height (corner ring front) (corner ring (front + 1)) (corner ring back)
  apply border_of_esum
  intro f hf
  rw [List.map_append, SolidsProof.esum_append, panels_sum look bottom height _ ring front t1 t2 f hf,
    surface_sum (tilted bottom height (corner ring front) (corner ring (front + 1)) (corner ring back)) _ (fun _ _ => rfl) io plan hplan surface h1 f hf,
    ClosedProof.border_sum plan _ hborder _ (fun a b => hf _ _), total_roof f hf]
  simp only [List.flatMap_cons, List.flatMap_nil, List.append_nil]
  ring

/-! ## Examples -/

namespace SkillionProof

/-- A smaller footprint, counterclockwise. -/
noncomputable def smallRing : List (Vec ℝ) := [⟨0, 0⟩, ⟨4 / 100, 0⟩, ⟨4 / 100, 3 / 100⟩, ⟨0, 3 / 100⟩]

theorem smallRing_opened (epsilon : ℝ) (h : epsilon = 1 / 1000) : opened epsilon smallRing = smallRing := by
  subst h
  unfold opened smallRing
  norm_num

theorem quads_points (p : Poly ℝ) (a b c d : Vec ℝ) (h : OnlyRing p [a, b, c, d]) : (quads p).points = [a, b, c, d].map fun v => ⟨v.x, v.y⟩ := by
  unfold quads
  rw [h.1]
  rfl

theorem smallHouse_drawable (lib : Library ℝ) (roof direction : String) :
    Drawable (complete lib (quadWorld roof direction)) ⟨realHouse roof direction, [(smallRing, false)]⟩ ⟨0, 0⟩ := by
  refine ⟨⟨_, [], rfl⟩, ?_, fun p _ => quads_range p⟩
  intro r hr
  simp only [List.mem_singleton] at hr
  subst hr
  rw [show opened (complete lib (quadWorld roof direction)).epsilon smallRing = smallRing from smallRing_opened _ rfl]
  simp [smallRing]

/-- East. -/
theorem east (distance : Geo ℝ → Geo ℝ → ℝ) (offset : Terrain.Path → ℝ → List Terrain.Path) : heading (realLibrary (fun _ => 0) distance offset) (90 : ℝ) = ⟨1, 0⟩ := by
  unfold heading
  simp only [realLibrary]
  rw [show Real.pi * 90 / 180 = Real.pi / 2 by ring, Real.sin_pi_div_two, Real.cos_pi_div_two]

theorem east_degrees (distance : Geo ℝ → Geo ℝ → ℝ) (offset : Terrain.Path → ℝ → List Terrain.Path) : Degrees (realLibrary (fun _ => 0) distance offset) "E" (90 : ℝ) :=
  .inl ⟨4, rfl, by norm_num⟩

theorem small_line : lineStart smallRing ⟨1, 0⟩ = ⟨- (8 / 100), 15 / 1000⟩ ∧ lineEnd smallRing ⟨1, 0⟩ = ⟨12 / 100, 15 / 1000⟩ := by
  constructor <;> norm_num [lineStart, lineEnd, mean, smallRing]

theorem small_corners : corner smallRing 0 = ⟨0, 0⟩ ∧ corner smallRing 1 = ⟨4 / 100, 0⟩ ∧ corner smallRing 2 = ⟨4 / 100, 3 / 100⟩ ∧ corner smallRing 3 = ⟨0, 3 / 100⟩ ∧
    corner smallRing 4 = ⟨0, 0⟩ := ⟨rfl, rfl, rfl, rfl, rfl⟩

/-- The line crosses the sides in the east and in the west. -/
theorem small_crosses {j : Nat} (hj : j < smallRing.length) (q : Vec ℝ)
    (h : Crosses (corner smallRing j) (corner smallRing (j + 1)) ⟨- (8 / 100), 15 / 1000⟩ ⟨12 / 100, 15 / 1000⟩ q) :
    (j = 1 ∧ q = ⟨4 / 100, 15 / 1000⟩) ∨ (j = 3 ∧ q = ⟨0, 15 / 1000⟩) := by
  obtain ⟨c0, c1, c2, c3, c4⟩ := small_corners
  obtain ⟨hp, ⟨t, -, -, h1, h2⟩, ⟨u, -, -, h3, h4⟩⟩ := h
  obtain ⟨qx, qy⟩ := q
  simp only [smallRing, List.length_cons, List.length_nil] at hj
  interval_cases j
  · exfalso; apply hp; rw [c0, c1]; unfold GeometrySpec.Parallel; norm_num
  · refine .inl ⟨rfl, ?_⟩
    rw [c1, c2] at h1
    simp only [Vec.mk.injEq] at *
    constructor <;> linarith
  · exfalso; apply hp; rw [c2, c3]; unfold GeometrySpec.Parallel; norm_num
  · refine .inr ⟨rfl, ?_⟩
    rw [c3, c4] at h1
    simp only [Vec.mk.injEq] at *
    constructor <;> linarith

theorem small_east : Crosses (corner smallRing 1) (corner smallRing (1 + 1)) ⟨- (8 / 100), 15 / 1000⟩ ⟨12 / 100, 15 / 1000⟩ ⟨4 / 100, 15 / 1000⟩ := by
  obtain ⟨c0, c1, c2, c3, c4⟩ := small_corners
  rw [c1, c2]
  refine ⟨by unfold GeometrySpec.Parallel; norm_num, ⟨1 / 2, ?_⟩, ⟨6 / 10, ?_⟩⟩ <;> norm_num

theorem small_west : Crosses (corner smallRing 3) (corner smallRing (3 + 1)) ⟨- (8 / 100), 15 / 1000⟩ ⟨12 / 100, 15 / 1000⟩ ⟨0, 15 / 1000⟩ := by
  obtain ⟨c0, c1, c2, c3, c4⟩ := small_corners
  rw [c3, c4]
  refine ⟨by unfold GeometrySpec.Parallel; norm_num, ⟨1 / 2, ?_⟩, ⟨4 / 10, ?_⟩⟩ <;> norm_num

theorem small_front (f : Nat) (h : IsFront smallRing ⟨- (8 / 100), 15 / 1000⟩ ⟨12 / 100, 15 / 1000⟩ f) : f = 1 := by
  obtain ⟨hlt, q, hq, -, hmax⟩ := h
  rcases small_crosses hlt q hq with ⟨rfl, -⟩ | ⟨rfl, rfl⟩
  · rfl
  · have := hmax 1 (by simp [smallRing]) _ small_east
    norm_num [square] at this

theorem small_back (k : Nat) (h : IsBack smallRing ⟨- (8 / 100), 15 / 1000⟩ ⟨12 / 100, 15 / 1000⟩ k) : k = 0 := by
  obtain ⟨c0, c1, c2, c3, c4⟩ := small_corners
  obtain ⟨j, hlt, q, hq, hmin, hk⟩ := h
  rcases small_crosses hlt q hq with ⟨rfl, rfl⟩ | ⟨rfl, rfl⟩
  · have := hmin 3 (by simp [smallRing]) _ small_west
    norm_num [square] at this
  · rw [c3, c4] at hk
    rcases hk with ⟨-, h⟩ | ⟨rfl, -⟩
    · norm_num [square] at h
    · rfl

/-- The house with a skillion roof: it begins in the east and is highest in the west. -/
theorem skillionHouse (distance : Geo ℝ → Geo ℝ → ℝ) (offset : Terrain.Path → ℝ → List Terrain.Path) :
    DrawnWith (complete (realLibrary (fun _ => 0) distance offset) (quadWorld "skillion" "E")) ⟨realHouse "skillion" "E", [(smallRing, false)]⟩ 7 {} [] ⟨0, 0⟩
      fun io outlines holes top roof => outlines = [smallRing] ∧ holes = [] ∧ SkillionFaces realLook top 5 io smallRing 1 0 roof := by
  obtain ⟨l1, l2⟩ := small_line
  obtain ⟨c0, c1, c2, c3, c4⟩ := small_corners
  have := C88_skillion_partial _ (C86_library _ _ _) (quadWorld "skillion" "E") (by norm_num [quadWorld, realWorld]) (by norm_num [quadWorld, realWorld])
    ⟨realHouse "skillion" "E", [(smallRing, false)]⟩ 7 {} [] .empty ⟨[], [], [], ⟨rfl, by simp, by simp⟩, rfl, .nil, .nil⟩ _
    (smallHouse_drawable (realLibrary (fun _ => 0) distance offset) _ _) rfl rfl smallRing smallRing rfl (smallRing_opened _ rfl) (fun p hp => quads_points p _ _ _ _ hp) 90
    (east_degrees distance offset) (by
      rw [east, l1, l2]
      exact ⟨1, by simp [smallRing], _, small_east, by norm_num [square]⟩) (by
      rw [east, l1, l2]
      exact ⟨1, by simp [smallRing], _, small_east, by norm_num [square, quadWorld, realWorld]⟩) (by
      intro f k hf hk
      rw [east, l1, l2] at hf hk
      rw [small_front f hf, small_back k hk]
      refine ⟨by omega, ?_⟩
      rw [c0, c1, c2]
      norm_num [side])
  rw [east, l1, l2] at this
  obtain ⟨p, holes, m', roof, floor, h1, h2, h3, h4, h5, h6, h7, ⟨g1, g2, f, k, hf, hk, g3⟩, h9⟩ := this
  refine ⟨p, holes, m', roof, floor, h1, h2, h3, h4, h5, h6, h7, ⟨g1, g2, ?_⟩, h9⟩
  rw [← small_front f hf, ← small_back k hk]
  exact g3

end SkillionProof

/-- The house with a skillion roof is closed. -/
example (distance : Geo ℝ → Geo ℝ → ℝ) (offset : Terrain.Path → ℝ → List Terrain.Path) :
    ∃ (m' : Mesh ℝ) (faces : List (Triangle ℝ × Texture)), drawPart (complete (realLibrary (fun _ => 0) distance offset) (quadWorld "skillion" "E")) 7 {}
      ⟨realHouse "skillion" "E", [(smallRing, false)]⟩ = .ok m' ∧ Built m' ∧ Paints m' ([] ++ faces) [] ∧
      SolidsSpec.Closed (([] ++ faces).map fun x : Triangle ℝ × Texture => place x.1) := by
  refine C76_roof_partial _ _ 7 {} [] ⟨0, 0⟩ _ (skillionHouse distance offset) (by intro a b; rfl) (by norm_num [realHouse]) ?_ ?_
  · intro p outlines holes hp ho hi
    have hsingle := polygonOf_single _ _ smallRing rfl (by simp [smallRing]) p hp
    rw [show opened (complete (realLibrary (fun _ => 0) distance offset) (quadWorld "skillion" "E")).epsilon smallRing = smallRing from smallRing_opened _ rfl] at hsingle
    obtain ⟨q, hq, h1, h2⟩ := polygon_of_ring (1 / 1000 : ℝ) 1000 (1 / 1000) smallRing (by simp [smallRing]) (smallRing_opened _ rfl)
    have hpq : Outcome.ok p = Outcome.ok q := hp.symm.trans hq
    injection hpq with hpq
    subst hpq
    rw [ClosedProof.all_unique ho h1]
    rw [h2] at hi
    rw [List.forall₂_nil_right_iff.1 hi]
    exact quads_fill p _ _ _ _ ⟨hsingle.points, hsingle.outers, hsingle.inners⟩
  · rintro io outlines holes top roof hfill ⟨rfl, rfl, h⟩
    exact C88_border realLook top 5 io smallRing 1 0 roof h hfill

/-- The line is too short to leave a large footprint: the roof is flat. -/
example (distance : Geo ℝ → Geo ℝ → ℝ) (offset : Terrain.Path → ℝ → List Terrain.Path) :
    DrawnWith (complete (realLibrary (fun _ => 0) distance offset) (quadWorld "skillion" "E")) ⟨realHouse "skillion" "E", [(realRing, false)]⟩ 7 {} [] ⟨0, 0⟩
      fun io _ _ top roof => FlatFaces realLook top false io roof := by
  refine C88_flat_partial _ (C86_library _ _ _) (quadWorld "skillion" "E") (by norm_num [quadWorld, realWorld])
    ⟨realHouse "skillion" "E", [(realRing, false)]⟩ 7 {} [] .empty ⟨[], [], [], ⟨rfl, by simp, by simp⟩, rfl, .nil, .nil⟩ _
    (quadHouse_drawable _ _ _) rfl rfl realRing realRing rfl (realRing_opened _ rfl) (fun p hp => quads_points p _ _ _ _ hp) 90
    (east_degrees distance offset) ?_
  rintro f k ⟨hlt, q, ⟨hp, ⟨t, ht0, ht1, h1, h2⟩, ⟨u, hu0, hu1, h3, h4⟩⟩, -⟩ -
  exfalso
  rw [east] at hp h3 h4
  simp only [lineStart, lineEnd, mean, realRing, List.map_cons, List.map_nil, List.sum_cons, List.sum_nil, List.length_cons, List.length_nil] at h3 h4
  push_cast at h3 h4
  simp only [realRing, List.length_cons, List.length_nil] at hlt
  have cs : corner realRing 0 = ⟨0, 0⟩ ∧ corner realRing 1 = ⟨4, 0⟩ ∧ corner realRing 2 = ⟨4, 3⟩ ∧ corner realRing 3 = ⟨0, 3⟩ ∧ corner realRing 4 = ⟨0, 0⟩ := ⟨rfl, rfl, rfl, rfl, rfl⟩
  obtain ⟨c0, c1, c2, c3, c4⟩ := cs
  interval_cases f
  · rw [c0, c1] at h2; norm_num at h2 h4; linarith
  · rw [c1, c2] at h1; norm_num at h1 h3; linarith
  · rw [c2, c3] at h2; norm_num at h2 h4; linarith
  · rw [c3, c4] at h1; norm_num at h1 h3; linarith

example : (2 : ℝ) ≤ tilted 2 3 ⟨0, 0⟩ ⟨1, 0⟩ ⟨0, 4⟩ ⟨7, 2⟩ := ((C88_heights (2 : ℝ) 3 (by norm_num) ⟨0, 0⟩ ⟨1, 0⟩ ⟨0, 4⟩ (by norm_num [side])).2.2.2.1 _).1

/-! ## Violations -/

namespace SkillionProof

/-- A second footprint in the north of the first one. -/
noncomputable def northRing : List (Vec ℝ) := [⟨0, 10 / 100⟩, ⟨4 / 100, 10 / 100⟩, ⟨4 / 100, 13 / 100⟩, ⟨0, 13 / 100⟩]

/-- The library returns two triangles for each of both. -/
noncomputable def bothWorld : Env ℝ := { realWorld "skillion" "E" with
  triangulate := fun _ => ⟨(smallRing ++ northRing).map fun v => ⟨v.x, v.y⟩, [(0, 1, 2), (2, 3, 0), (4, 5, 6), (6, 7, 4)]⟩ }

theorem both_corners : corner (smallRing ++ northRing) 0 = ⟨0, 0⟩ ∧ corner (smallRing ++ northRing) 1 = ⟨4 / 100, 0⟩ ∧ corner (smallRing ++ northRing) 2 = ⟨4 / 100, 3 / 100⟩ ∧
    corner (smallRing ++ northRing) 3 = ⟨0, 3 / 100⟩ ∧ corner (smallRing ++ northRing) 4 = ⟨0, 10 / 100⟩ ∧ corner (smallRing ++ northRing) 5 = ⟨4 / 100, 10 / 100⟩ ∧
    corner (smallRing ++ northRing) 6 = ⟨4 / 100, 13 / 100⟩ ∧ corner (smallRing ++ northRing) 7 = ⟨0, 13 / 100⟩ ∧ corner (smallRing ++ northRing) 8 = ⟨0, 0⟩ :=
  ⟨rfl, rfl, rfl, rfl, rfl, rfl, rfl, rfl, rfl⟩

/-- A line to the east crosses the side in the west, which belongs to no outline, and one side in the east. -/
theorem both_crosses {j : Nat} (hj : j < 8) (y : ℝ) (hy : (y = 15 / 1000) ∨ (y = 115 / 1000)) (q : Vec ℝ)
    (h : Crosses (corner (smallRing ++ northRing) j) (corner (smallRing ++ northRing) (j + 1)) ⟨- (8 / 100), y⟩ ⟨12 / 100, y⟩ q) :
    (j = 1 ∧ y = 15 / 1000 ∧ q = ⟨4 / 100, y⟩) ∨ (j = 5 ∧ y = 115 / 1000 ∧ q = ⟨4 / 100, y⟩) ∨ (j = 7 ∧ q = ⟨0, y⟩) := by
  obtain ⟨c0, c1, c2, c3, c4, c5, c6, c7, c8⟩ := both_corners
  obtain ⟨hp, ⟨t, ht0, ht1, h1, h2⟩, ⟨u, -, -, h3, h4⟩⟩ := h
  obtain ⟨qx, qy⟩ := q
  have hq : qy = y := by simp only at h4; linarith
  subst hq
  interval_cases j
  · exfalso; apply hp; rw [c0, c1]; unfold GeometrySpec.Parallel; norm_num
  · rw [c1, c2] at h1 h2
    simp only at h1 h2
    rcases hy with rfl | rfl
    · refine .inl ⟨rfl, rfl, ?_⟩
      simp only [Vec.mk.injEq, and_true]
      linarith
    · exfalso; linarith
  · exfalso; apply hp; rw [c2, c3]; unfold GeometrySpec.Parallel; norm_num
  · rw [c3, c4] at h2
    simp only at h2
    exfalso
    rcases hy with rfl | rfl <;> linarith
  · exfalso; apply hp; rw [c4, c5]; unfold GeometrySpec.Parallel; norm_num
  · rw [c5, c6] at h1 h2
    simp only at h1 h2
    rcases hy with rfl | rfl
    · exfalso; linarith
    · refine .inr (.inl ⟨rfl, rfl, ?_⟩)
      simp only [Vec.mk.injEq, and_true]
      linarith
  · exfalso; apply hp; rw [c6, c7]; unfold GeometrySpec.Parallel; norm_num
  · rw [c7, c8] at h1
    simp only at h1
    refine .inr (.inr ⟨rfl, ?_⟩)
    simp only [Vec.mk.injEq, and_true]
    linarith

theorem both_west (y : ℝ) (hy : (y = 15 / 1000) ∨ (y = 115 / 1000)) :
    Crosses (corner (smallRing ++ northRing) 7) (corner (smallRing ++ northRing) (7 + 1)) ⟨- (8 / 100), y⟩ ⟨12 / 100, y⟩ ⟨0, y⟩ := by
  obtain ⟨c0, c1, c2, c3, c4, c5, c6, c7, c8⟩ := both_corners
  rw [c7, c8]
  rcases hy with rfl | rfl
  · refine ⟨by unfold GeometrySpec.Parallel; norm_num, ⟨23 / 26, ?_⟩, ⟨4 / 10, ?_⟩⟩ <;> norm_num
  · refine ⟨by unfold GeometrySpec.Parallel; norm_num, ⟨3 / 26, ?_⟩, ⟨4 / 10, ?_⟩⟩ <;> norm_num

theorem both_east : Crosses (corner (smallRing ++ northRing) 1) (corner (smallRing ++ northRing) (1 + 1)) ⟨- (8 / 100), 15 / 1000⟩ ⟨12 / 100, 15 / 1000⟩ ⟨4 / 100, 15 / 1000⟩ := by
  obtain ⟨c0, c1, c2, c3, c4, c5, c6, c7, c8⟩ := both_corners
  rw [c1, c2]
  refine ⟨by unfold GeometrySpec.Parallel; norm_num, ⟨1 / 2, ?_⟩, ⟨6 / 10, ?_⟩⟩ <;> norm_num

theorem both_north : Crosses (corner (smallRing ++ northRing) 5) (corner (smallRing ++ northRing) (5 + 1)) ⟨- (8 / 100), 115 / 1000⟩ ⟨12 / 100, 115 / 1000⟩ ⟨4 / 100, 115 / 1000⟩ := by
  obtain ⟨c0, c1, c2, c3, c4, c5, c6, c7, c8⟩ := both_corners
  rw [c5, c6]
  refine ⟨by unfold GeometrySpec.Parallel; norm_num, ⟨1 / 2, ?_⟩, ⟨6 / 10, ?_⟩⟩ <;> norm_num

theorem both_front1 (f : Nat) (h : IsFront (smallRing ++ northRing) ⟨- (8 / 100), 15 / 1000⟩ ⟨12 / 100, 15 / 1000⟩ f) : f = 1 := by
  obtain ⟨hlt, q, hq, -, hmax⟩ := h
  rcases both_crosses hlt _ (.inl rfl) q hq with ⟨rfl, -⟩ | ⟨-, h, -⟩ | ⟨rfl, rfl⟩
  · rfl
  · norm_num at h
  · have := hmax 1 (by simp [smallRing]) _ both_east
    norm_num [square] at this

theorem both_front2 (f : Nat) (h : IsFront (smallRing ++ northRing) ⟨- (8 / 100), 115 / 1000⟩ ⟨12 / 100, 115 / 1000⟩ f) : f = 5 := by
  obtain ⟨hlt, q, hq, -, hmax⟩ := h
  rcases both_crosses hlt _ (.inr rfl) q hq with ⟨-, h, -⟩ | ⟨rfl, -⟩ | ⟨rfl, rfl⟩
  · norm_num at h
  · rfl
  · have := hmax 5 (by simp [smallRing, northRing]) _ both_north
    norm_num [square] at this

theorem both_back1 (k : Nat) (h : IsBack (smallRing ++ northRing) ⟨- (8 / 100), 15 / 1000⟩ ⟨12 / 100, 15 / 1000⟩ k) : k = 0 := by
  obtain ⟨c0, c1, c2, c3, c4, c5, c6, c7, c8⟩ := both_corners
  obtain ⟨j, hlt, q, hq, hmin, hk⟩ := h
  have := hmin 7 (by simp [smallRing, northRing]) _ (both_west _ (.inl rfl))
  rcases both_crosses hlt _ (.inl rfl) q hq with ⟨rfl, -, rfl⟩ | ⟨-, h, -⟩ | ⟨rfl, rfl⟩
  · norm_num [square] at this
  · norm_num at h
  · rw [c7, c8] at hk
    rcases hk with ⟨-, h⟩ | ⟨rfl, -⟩
    · norm_num [square] at h
    · rfl

theorem both_back2 (k : Nat) (h : IsBack (smallRing ++ northRing) ⟨- (8 / 100), 115 / 1000⟩ ⟨12 / 100, 115 / 1000⟩ k) : k = 7 := by
  obtain ⟨c0, c1, c2, c3, c4, c5, c6, c7, c8⟩ := both_corners
  obtain ⟨j, hlt, q, hq, hmin, hk⟩ := h
  have := hmin 7 (by simp [smallRing, northRing]) _ (both_west _ (.inr rfl))
  rcases both_crosses hlt _ (.inr rfl) q hq with ⟨-, h, -⟩ | ⟨rfl, -, rfl⟩ | ⟨rfl, rfl⟩
  · norm_num at h
  · norm_num [square] at this
  · rw [c7, c8] at hk
    rcases hk with ⟨rfl, -⟩ | ⟨-, h⟩
    · rfl
    · norm_num [square] at h

end SkillionProof

/-- C88: for two outlines everything is drawn twice, and a wall is drawn between them: the corners of both are handled as one ring. Here the wall in the west from the
north of the second house to the south of the first one. -/
theorem C88_violated_outlines (distance : Geo ℝ → Geo ℝ → ℝ) (offset : Terrain.Path → ℝ → List Terrain.Path) (look : Look ℝ) (bottom height : ℝ) (hh : 0 ≤ height) (p : Poly ℝ)
    (hp : Polygon.addAll (1 / 1000 : ℝ) 1000 (1 / 1000) { rectangle := .empty 1000 (1 / 1000) } [(smallRing, false), (northRing, false)] = .ok p) :
    Draws look.texture (skillionRoof (realLibrary (fun _ => 0) distance offset) bothWorld look "E" height bottom p) fun ts =>
      ∃ t, [t, t].Sublist ts ∧ t.1.position = ⟨0, bottom, 13 / 100⟩ ∧ t.2.1.position = ⟨0, bottom + height, 0⟩ ∧ t.2.2.position = ⟨0, bottom, 0⟩ := by
  obtain ⟨q, holes, hq, ho, -, -, -⟩ := C45_closed_partial (1 / 1000 : ℝ) 1000 (1 / 1000) [(smallRing, false), (northRing, false)] (by
    intro r hr; simp only [List.mem_cons, List.not_mem_nil, or_false] at hr; rcases hr with rfl | rfl <;> simp [smallRing, northRing])
  obtain rfl : p = q := by
    have := hp.symm.trans hq
    injection this
  have hopen : opened (1 / 1000 : ℝ) northRing = northRing := by unfold opened northRing; norm_num
  simp only [List.filter, Bool.not_false, List.map_cons, List.map_nil, smallRing_opened _ rfl, hopen] at ho
  obtain ⟨r1, rest, ho1, hrest, hpo⟩ := List.forall₂_cons_left_iff.1 ho
  obtain ⟨r2, rest2, ho2, hrest2, hpo2⟩ := List.forall₂_cons_left_iff.1 hrest
  obtain rfl := List.forall₂_nil_left_iff.1 hrest2
  subst hpo2
  have hl := C86_library (fun _ => 0) distance offset
  have he : slope (realLibrary (fun _ => 0) distance offset) bothWorld.epsilon "E" = ⟨1, 0⟩ := by
    rw [slope_eq hl _ (by norm_num [bothWorld, realWorld])]
    rw [← degrees_unique (east_degrees distance offset) (degrees_eq _ "E"), east]
  have hring : ringOf (bothWorld.triangulate p) = smallRing ++ northRing := ringOf_eq rfl
  have hio : InRange (bothWorld.triangulate p) := by
    show ∀ t ∈ [((0 : Int), (1 : Int), (2 : Int)), (2, 3, 0), (4, 5, 6), (6, 7, 4)], ∀ c ∈ [t.1, t.2.1, t.2.2], 0 ≤ c ∧ c < 8
    decide +kernel
  obtain ⟨l1, l2⟩ := small_line
  have n1 : lineStart northRing ⟨1, 0⟩ = ⟨- (8 / 100), 115 / 1000⟩ := by norm_num [lineStart, mean, northRing]
  have n2 : lineEnd northRing ⟨1, 0⟩ = ⟨12 / 100, 115 / 1000⟩ := by norm_num [lineEnd, mean, northRing]
  obtain ⟨c0, c1, c2, c3, c4, c5, c6, c7, c8⟩ := both_corners
  intro m done ts hd
  obtain ⟨m1, new1, f1, k1, a1, a2, a3, a4, a5⟩ := skillionRange_drawn hl bothWorld look ⟨1, 0⟩ height bottom p smallRing r1 ho1 hio (by norm_num [bothWorld, realWorld]) (by
      rw [hring, l1, l2]
      exact ⟨7, by simp [smallRing, northRing], _, both_west _ (.inl rfl), by norm_num [square]⟩) (by
      rw [hring, l1, l2]
      exact ⟨7, by simp [smallRing, northRing], _, both_west _ (.inl rfl), by norm_num [square, bothWorld, realWorld]⟩) (by
      rw [hring, l1, l2]
      intro f k hf hk
      rw [both_front1 f hf, both_back1 k hk, c0, c1, c2]
      refine ⟨by omega, by norm_num [side]⟩) m ts hd
  obtain ⟨m2, new2, f2, k2, b1, b2, b3, b4, b5⟩ := skillionRange_drawn hl bothWorld look ⟨1, 0⟩ height bottom p northRing r2 ho2 hio (by norm_num [bothWorld, realWorld]) (by
      rw [hring, n1, n2]
      exact ⟨7, by simp [smallRing, northRing], _, both_west _ (.inr rfl), by norm_num [square]⟩) (by
      rw [hring, n1, n2]
      exact ⟨7, by simp [smallRing, northRing], _, both_west _ (.inr rfl), by norm_num [square, bothWorld, realWorld]⟩) (by
      rw [hring, n1, n2]
      intro f k hf hk
      rw [both_front2 f hf, both_back2 k hk, c5, c6, c7]
      refine ⟨by omega, by norm_num [side]⟩) m1 _ a2
  rw [hring, l1, l2] at a3 a4
  rw [hring, n1, n2] at b3 b4
  rw [hring, both_front1 f1 a3, both_back1 k1 a4] at a5
  rw [hring, both_front2 f2 b3, both_back2 k2 b4] at b5
  obtain ⟨m3, g1, g2⟩ := b2.textured
  refine ⟨m3, new1 ++ new2, ?_, by rw [← List.append_assoc]; exact g2, ?_⟩
  · unfold skillionRoof
    rw [hpo, he]
    simp only [foldO, a1, b1, bind_okl, if_true]
    exact g1
  · obtain ⟨s1, -, rfl⟩ := a5
    obtain ⟨s2, -, rfl⟩ := b5
    have t1 : tilted bottom height (corner (smallRing ++ northRing) 1) (corner (smallRing ++ northRing) (1 + 1)) (corner (smallRing ++ northRing) 0) ⟨0, 0⟩ = bottom + height := by
      rw [c0, c1, c2]
      exact (C88_heights bottom height hh _ _ _ (by norm_num [side])).2.2.1
    have t2 : tilted bottom height (corner (smallRing ++ northRing) 5) (corner (smallRing ++ northRing) (5 + 1)) (corner (smallRing ++ northRing) 7) ⟨0, 0⟩ = bottom + height := by
      rw [c5, c6, c7]
      have h1 : side (⟨4 / 100, 10 / 100⟩ : Vec ℝ) ⟨4 / 100, 13 / 100⟩ ⟨0, 0⟩ / side (⟨4 / 100, 10 / 100⟩ : Vec ℝ) ⟨4 / 100, 13 / 100⟩ ⟨0, 13 / 100⟩ = 1 := by norm_num [side]
      unfold tilted
      rw [h1, mul_one, min_self, max_eq_right (by linarith)]
    refine ⟨facet look (above bottom (⟨0, 13 / 100⟩ : Vec ℝ)) (above (bottom + height) ⟨0, 0⟩) (above bottom ⟨0, 0⟩) ⟨0, 0⟩ ⟨look.scaled height, look.scaled height⟩
      ⟨look.scaled height, 0⟩, ?_, ?_, ?_, ?_⟩
    · refine List.Sublist.append (l₁ := [_]) (r₁ := [_]) ?_ ?_ <;> refine List.singleton_sublist.2 (List.mem_append_left _ (List.mem_flatMap.2 ⟨7, by simp [smallRing, northRing], ?_⟩))
      · simp only
        rw [if_neg (by omega), if_neg (by simp [smallRing, northRing]), if_neg (by simp [smallRing, northRing]), show 7 + 1 = 8 from rfl, c7, c8, t1]
        exact List.mem_cons_self ..
      · simp only
        rw [if_neg (by omega), if_neg (by simp [smallRing, northRing]), if_neg (by simp [smallRing, northRing]), show 7 + 1 = 8 from rfl, c8, t2, c7]
        exact List.mem_cons_self ..
    all_goals simp [facet, above]

end Verif.Props
