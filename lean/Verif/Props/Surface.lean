import Verif.Props.SurfaceSpec
import Verif.Props.Noise
import Verif.Props.Color
import Verif.Props.Shown
import Verif.Proof.Mercator

/-! # C99: the look of surfaces -/
namespace Verif.Props
open Verif.MeshBuilder (Mesh Vec2 Vec3 TriangleIo)
open Verif.Surface Verif.SurfaceSpec Verif.ShownSpec Verif.MeshSpec
open Verif.Color (Color)
open NoiseProof (InRange)

namespace SurfaceProof

theorem sqrt2 : 0 < Real.sqrt 2 ∧ Real.sqrt 2 * Real.sqrt 2 = 2 := ⟨by simp, Real.mul_self_sqrt (by norm_num)⟩

theorem packed_toInt (c : Color) : Packed c (toInt c) := by
  have h := (C32_pack_unpack c 0).1
  unfold Packed toInt
  rw [← h]
  have hb : (Color.pack c).toInt32.toInt = ((Color.pack c).toNat : Int).bmod (2 ^ 32) := by
    simp [UInt32.toInt32, Int32.toInt, BitVec.toInt_eq_toNat_bmod]; rfl
  rw [hb]
  have hl := (Color.pack c).toNat_lt
  rw [Int.bmod_def]
  refine ⟨by split <;> omega, by split <;> omega, ?_⟩
  split
  · exact ⟨0, by omega⟩
  · exact ⟨-1, by omega⟩

/-- The place as time of the gradient -/
theorem color_ok (look : Look) (hg : Complete look.gradient) (x y : ℝ) (hx : InRange (x * look.colorNoiseFreq)) (hy : InRange (y * look.colorNoiseFreq)) :
    ∃ n, colorAt look x y = .ok n ∧ OfGradient look.gradient n := by
  obtain ⟨n, h1, _⟩ := C79_bounded (Real.sqrt 2) sqrt2.1 sqrt2.2 x y look.colorNoiseFreq hx hy
  unfold colorAt noise
  rw [h1]
  simp only [Outcome.bind]
  rcases hl : look.gradient.getLast? with _ | last
  · have he : look.gradient = [] := List.getLast?_eq_none_iff.1 hl
    exact ⟨toInt ⟨0, 0, 0, 0⟩, by rw [he]; simp [Color.evaluate], _, packed_toInt _, Or.inl ⟨he, rfl⟩⟩
  · by_cases hlen : 1 < look.gradient.length
    swap
    · have he : look.gradient = [last] := by
        match hgl : look.gradient, hl, hlen with
        | [a], hl, _ => simpa using hl
        | a :: b :: t, _, hlen => simp at hlen
      have hp : look.gradient[0]? = some last := by rw [he]; rfl
      rw [ColorProof.evaluate_zero look.gradient _ last hp (by rw [he]; rfl)]
      exact ⟨_, rfl, _, packed_toInt _, Or.inr (Or.inl ⟨last, hp, rfl⟩)⟩
    obtain ⟨t, h2, h3⟩ := C79_gradient (Real.sqrt 2) sqrt2.1 sqrt2.2 x y look.colorNoiseFreq hx hy look.gradient last hl (hg last hl hlen)
    unfold Noise.colorTime at h2
    rw [h1] at h2
    cases h2
    rcases h3 with ⟨p, hp, he, _⟩ | ⟨i, A, B, c, hA, hB, _, _, he, hb⟩
    · rw [he]; exact ⟨_, rfl, _, packed_toInt _, Or.inr (Or.inl ⟨p, hp, rfl⟩)⟩
    · rw [he]; exact ⟨_, rfl, _, packed_toInt _, Or.inr (Or.inr ⟨i, A, B, hA, hB, hb⟩)⟩

theorem elevation_ok (site : Site) (o : Options) (mark : Option Int) (x y : ℝ) (hx : InRange (x * o.eleNoiseFreq)) (hy : InRange (y * o.eleNoiseFreq)) :
    ∃ e h, elevationAt site o mark x y = .ok e ∧ Ground site o x y h ∧ |e - (h + o.heightOffset)| ≤ 1 ∧
      ((∀ i, mark = some i → i = 1) → e = h + o.heightOffset) := by
  have hg : Ground site o x y (o.elevation.getD (site.elevation y x)) :=
    ⟨fun e he => by rw [he]; rfl, fun he => by rw [he]; rfl⟩
  obtain ⟨n, h1, h2⟩ := C79_bounded (Real.sqrt 2) sqrt2.1 sqrt2.2 x y o.eleNoiseFreq hx hy
  unfold elevationAt noise
  rcases mark with _ | i
  · exact ⟨_, _, rfl, hg, by rw [add_comm, sub_self, abs_zero]; norm_num, fun _ => add_comm _ _⟩
  · by_cases hi : i = 1
    · simp only [hi, ne_eq, not_true_eq_false, if_false]
      exact ⟨_, _, rfl, hg, by rw [add_comm, sub_self, abs_zero]; norm_num, fun _ => add_comm _ _⟩
    · simp only [ne_eq, hi, not_false_eq_true, if_true, h1, Outcome.bind]
      refine ⟨_, _, rfl, hg, ?_, fun h => absurd (h i rfl) hi⟩
      rw [show o.heightOffset + o.elevation.getD (site.elevation y x) + n - (o.elevation.getD (site.elevation y x) + o.heightOffset) = n by ring]
      exact h2

/-- All numbers for the noise are in the range of `int`. -/
def Small (o : Options) (look : Look) (p : Vec2 ℝ) : Prop :=
  InRange (p.x * o.eleNoiseFreq) ∧ InRange (p.y * o.eleNoiseFreq) ∧ InRange (p.x * look.colorNoiseFreq) ∧ InRange (p.y * look.colorNoiseFreq)

/-- What is written for a point, if it can be computed -/
noncomputable def attr (site : Site) (o : Options) (look : Look) (markers : Option (Nat → Int)) (i : Nat) (p : Vec2 ℝ) : ℝ × Int × Vec2 ℝ :=
  ((match elevationAt site o (markers.map fun f => f i) p.x p.y with | .ok e => e | _ => 0),
   (match colorAt look p.x p.y with | .ok c => c | _ => 0), mapUv look (Mercator.tileBox site.tile) p.x p.y)

theorem fillPoints_eq (site : Site) (o : Options) (look : Look) (markers : Option (Nat → Int)) (hg : Complete look.gradient) (ps : List (Vec2 ℝ))
    (hs : ∀ p ∈ ps, Small o look p) (m : Mesh ℝ) (i : Nat) :
    fillPoints site o look markers m i ps = .ok (MeshBuilder.fillPoints (attr site o look markers) m i ps) := by
  induction ps generalizing m i with
  | nil => rfl
  | cons p ps ih =>
    obtain ⟨h1, h2, h3, h4⟩ := hs p (by simp)
    obtain ⟨e, _, he, _⟩ := elevation_ok site o (markers.map fun f => f i) p.x p.y h1 h2
    obtain ⟨c, hc, _⟩ := color_ok look hg p.x p.y h3 h4
    unfold fillPoints fillPoint MeshBuilder.fillPoints
    rw [he, hc]
    simp only [Outcome.bind]
    rw [ih (fun q hq => hs q (by simp [hq]))]
    unfold MeshBuilder.fillPoint attr
    simp only [he, hc]

theorem fillMesh_eq (site : Site) (o : Options) (look : Look) (markers : Option (Nat → Int)) (hg : Complete look.gradient) (io : TriangleIo ℝ)
    (hs : ∀ p ∈ io.points, Small o look p) (m : Mesh ℝ) :
    fillMesh site o look markers m io = .ok (MeshBuilder.fillMesh m io (attr site o look markers) o.flipSide) := by
  unfold fillMesh
  rw [fillPoints_eq site o look markers hg io.points hs]
  rfl

theorem width_pos (q : QuadKey) : 0 < (Mercator.tileBox q).hi.lon - (Mercator.tileBox q).lo.lon := by
  have := Mercator.zpow_pos2 q.lod
  simp only [Mercator.tileBox, Mercator.tileXToLon]
  push_cast
  have h : ((q.x : ℝ) + 1) / 2 ^ q.lod * 360 - 180 - ((q.x : ℝ) / 2 ^ q.lod * 360 - 180) = 360 / 2 ^ q.lod := by ring
  rw [h]; positivity

theorem height_pos (q : QuadKey) : 0 < (Mercator.tileBox q).hi.lat - (Mercator.tileBox q).lo.lat := by
  rw [sub_pos]
  show Mercator.tileYToLat (q.y + 1) q.lod < Mercator.tileYToLat q.y q.lod
  rw [Mercator.tileYToLat_lt_iff (Mercator.tileYToLat_range _ _), Mercator.row_tileYToLat]
  push_cast; linarith

theorem attr_looks (site : Site) (o : Options) (look : Look) (markers : Option (Nat → Int)) (hg : Complete look.gradient) (i : Nat) (p : Vec2 ℝ)
    (hs : Small o look p) : Looks site o look (OnBorder markers i) p
      ⟨⟨p.x, (attr site o look markers i p).1, p.y⟩, (attr site o look markers i p).2.1, (attr site o look markers i p).2.2⟩ := by
  obtain ⟨h1, h2, h3, h4⟩ := hs
  obtain ⟨e, h, he, hgr, hn, hb⟩ := elevation_ok site o (markers.map fun f => f i) p.x p.y h1 h2
  obtain ⟨c, hc, hcol⟩ := color_ok look hg p.x p.y h3 h4
  have w := width_pos site.tile
  have k := height_pos site.tile
  refine ⟨rfl, rfl, ⟨h, hgr, ?_, ?_⟩, ?_, ?_, ?_, ?_⟩
  · simp only [attr, he]; exact hn
  · intro hm
    simp only [attr, he]
    apply hb
    intro j hj
    rcases markers with _ | f
    · cases hj
    · cases hj; exact hm f rfl
  · simp only [attr, hc]; exact hcol
  · intro ht; simp [attr, mapUv, ht]
  · intro ht
    simp only [attr, mapUv, ht, if_true, Bbox.width]
    field_simp
  · intro ht
    simp only [attr, mapUv, ht, if_true, Bbox.height]
    field_simp

/-- A corner is determined by its number. -/
theorem corner_unique {m : Mesh ℝ} {i : Nat} {a b : Corner ℝ} (ha : CornerAt m i a) (hb : CornerAt m i b) : a = b := by
  obtain ⟨⟨ax, ay, az⟩, ac, au, av⟩ := a
  obtain ⟨⟨bx, by', bz⟩, bc, bu, bv⟩ := b
  have e1 := ha.east.symm.trans hb.east
  have e2 := ha.north.symm.trans hb.north
  have e3 := ha.up.symm.trans hb.up
  have e4 := ha.color.symm.trans hb.color
  have e5 := ha.u.symm.trans hb.u
  have e6 := ha.v.symm.trans hb.v
  simp only [Option.some.injEq] at e1 e2 e3 e4 e5 e6
  subst e1 e2 e3 e4 e5 e6
  rfl

theorem corner_of (site : Site) (o : Options) (look : Look) (markers : Option (Nat → Int)) (io : TriangleIo ℝ) (m : Mesh ℝ) (n : Nat)
    (hm : WellFormed m n) (i : Nat) (p : Vec2 ℝ) (hp : io.points[i]? = some p) :
    CornerAt (MeshBuilder.fillMesh m io (attr site o look markers) o.flipSide) (n + i)
      ⟨⟨p.x, (attr site o look markers i p).1, p.y⟩, (attr site o look markers i p).2.1, (attr site o look markers i p).2.2⟩ := by
  obtain ⟨vs, hv, cs, hc, us, hu, hj⟩ := ShownProof.fillPoints_append (attr site o look markers) m 0 io.points
  obtain ⟨a, b, c, d, e, f⟩ := hj i p hp
  rw [Nat.zero_add] at c d e f
  exact ShownProof.CornerAt.new (m' := MeshBuilder.fillMesh m io (attr site o look markers) o.flipSide) (c := ⟨⟨p.x, (attr site o look markers i p).1, p.y⟩,
    (attr site o look markers i p).2.1, (attr site o look markers i p).2.2⟩) hm hv hc hu a b c d e f

end SurfaceProof
open SurfaceProof

/-- C99: a surface which is added to a mesh has all points of the triangle library as vertices, in their order after those which were there: at
their places, with the height of the ground plus the offset (on its border exactly, elsewhere at most 1 away), a color of the gradient, and the
part of the tile to the west and to the south as texture coordinates. -/
theorem C99_points_partial (site : Site) (o : Options) (look : Look) (markers : Option (Nat → Int)) (hg : Complete look.gradient) (io : TriangleIo ℝ)
    (hs : ∀ p ∈ io.points, Small o look p) (m : Mesh ℝ) (n : Nat) (hm : WellFormed m n) :
    ∃ m', fillMesh site o look markers m io = .ok m' ∧ m'.vertices.length = 3 * (n + io.points.length) ∧
      (∀ i c, CornerAt m i c → CornerAt m' i c) ∧
      ∀ i p, io.points[i]? = some p → ∃ c, CornerAt m' (n + i) c ∧ Looks site o look (OnBorder markers i) p c := by
  refine ⟨_, fillMesh_eq site o look markers hg io hs m, ?_, ?_, ?_⟩
  · have key : ∀ (ps : List (Vec2 ℝ)) (m : Mesh ℝ) (i : Nat),
        (MeshBuilder.fillPoints (attr site o look markers) m i ps).vertices.length = m.vertices.length + 3 * ps.length := by
      intro ps
      induction ps with
      | nil => intro m i; rfl
      | cons p ps ih =>
        intro m i
        simp only [MeshBuilder.fillPoints, ih, MeshBuilder.fillPoint, List.length_append, List.length_cons, List.length_nil]
        omega
    show (MeshBuilder.fillPoints (attr site o look markers) m 0 io.points).vertices.length = _
    rw [key, hm.vertices]; omega
  · intro i c hc
    obtain ⟨vs, hv, cs, hcs, us, hu, _⟩ := ShownProof.fillPoints_append (attr site o look markers) m 0 io.points
    exact ShownProof.CornerAt.append hc ⟨vs, hv⟩ ⟨cs, hcs⟩ ⟨us, hu⟩
  · intro i p hp
    exact ⟨_, corner_of site o look markers io m n hm i p hp, attr_looks site o look markers hg i p (hs p (List.mem_of_getElem? hp))⟩

/-- C99: inside of the tile, texture coordinates are between 0 and the scale. -/
theorem C99_texture (site : Site) (o : Options) (look : Look) (border : Prop) (p : Vec2 ℝ) (c : Corner ℝ) (h : Looks site o look border p c)
    (hs : 0 ≤ look.textureScale) (hx : (Mercator.tileBox site.tile).lo.lon ≤ p.x ∧ p.x ≤ (Mercator.tileBox site.tile).hi.lon)
    (hy : (Mercator.tileBox site.tile).lo.lat ≤ p.y ∧ p.y ≤ (Mercator.tileBox site.tile).hi.lat) :
    0 ≤ c.uv.x ∧ c.uv.x ≤ look.textureScale ∧ 0 ≤ c.uv.y ∧ c.uv.y ≤ look.textureScale := by
  rcases Bool.eq_false_or_eq_true look.textured with ht | ht
  · have u := h.u ht
    have v := h.v ht
    have w := width_pos site.tile
    have k := height_pos site.tile
    refine ⟨?_, ?_, ?_, ?_⟩
    · refine nonneg_of_mul_nonneg_left ?_ w; rw [u]; exact mul_nonneg (by linarith) hs
    · refine le_of_mul_le_mul_right ?_ w; rw [u, mul_comm look.textureScale]; exact mul_le_mul_of_nonneg_right (by linarith) hs
    · refine nonneg_of_mul_nonneg_left ?_ k; rw [v]; exact mul_nonneg (by linarith) hs
    · refine le_of_mul_le_mul_right ?_ k; rw [v, mul_comm look.textureScale]; exact mul_le_mul_of_nonneg_right (by linarith) hs
  · rw [h.plain ht]; exact ⟨le_refl _, hs, le_refl _, hs⟩

/-- Points of two tiles at the same place -/
theorem SurfaceProof.same_place (s1 s2 : Site) (o : Options) (look : Look) (k1 k2 : Option (Nat → Int)) (hg : Complete look.gradient)
    (io1 io2 : TriangleIo ℝ) (h1 : ∀ p ∈ io1.points, Small o look p) (h2 : ∀ p ∈ io2.points, Small o look p) (m1 m2 r1 r2 : Mesh ℝ) (n1 n2 : Nat)
    (hm1 : WellFormed m1 n1) (hm2 : WellFormed m2 n2) (hr1 : fillMesh s1 o look k1 m1 io1 = .ok r1) (hr2 : fillMesh s2 o look k2 m2 io2 = .ok r2)
    (i j : Nat) (p : Vec2 ℝ) (hi : io1.points[i]? = some p) (hj : io2.points[j]? = some p) (b1 : OnBorder k1 i) (b2 : OnBorder k2 j)
    (he : s1.elevation p.y p.x = s2.elevation p.y p.x) (a b : Corner ℝ) (ha : CornerAt r1 (n1 + i) a) (hb : CornerAt r2 (n2 + j) b) :
    a.position = b.position ∧ a.color = b.color ∧ a.uv = mapUv look (Mercator.tileBox s1.tile) p.x p.y ∧
      b.uv = mapUv look (Mercator.tileBox s2.tile) p.x p.y := by
  rw [fillMesh_eq s1 o look k1 hg io1 h1] at hr1
  rw [fillMesh_eq s2 o look k2 hg io2 h2] at hr2
  cases hr1
  cases hr2
  have ea := corner_unique ha (corner_of s1 o look k1 io1 m1 n1 hm1 i p hi)
  have eb := corner_unique hb (corner_of s2 o look k2 io2 m2 n2 hm2 j p hj)
  obtain ⟨g1, ⟨a1, a2⟩, _, q1⟩ := (attr_looks s1 o look k1 hg i p (h1 p (List.mem_of_getElem? hi))).height
  obtain ⟨g2, ⟨c1, c2⟩, _, q2⟩ := (attr_looks s2 o look k2 hg j p (h2 p (List.mem_of_getElem? hj))).height
  have hgr : g1 = g2 := by
    rcases h : o.elevation with _ | e
    · rw [a2 h, c2 h, he]
    · rw [a1 e h, c1 e h]
  have e1 := q1 b1
  have e2 := q2 b2
  simp only at e1 e2
  refine ⟨?_, ?_, ?_, ?_⟩
  · rw [ea, eb]; simp only; rw [e1, e2, hgr]
  · rw [ea, eb]; rfl
  · rw [ea]; rfl
  · rw [eb]; rfl

/-- C99: neighbours fit together. A point on the border between a tile and the next one to the east is drawn in both at the same place and
height and in the same color, and the texture goes on: its coordinate to the east starts again, one scale less. -/
theorem C99_east_partial (q : QuadKey) (g1 g2 : ℝ → ℝ → ℝ) (o : Options) (look : Look) (k1 k2 : Option (Nat → Int)) (hg : Complete look.gradient)
    (io1 io2 : TriangleIo ℝ) (h1 : ∀ p ∈ io1.points, Small o look p) (h2 : ∀ p ∈ io2.points, Small o look p) (m1 m2 r1 r2 : Mesh ℝ) (n1 n2 : Nat)
    (hm1 : WellFormed m1 n1) (hm2 : WellFormed m2 n2) (hr1 : fillMesh ⟨q, g1⟩ o look k1 m1 io1 = .ok r1)
    (hr2 : fillMesh ⟨⟨q.lod, q.x + 1, q.y⟩, g2⟩ o look k2 m2 io2 = .ok r2)
    (i j : Nat) (p : Vec2 ℝ) (hi : io1.points[i]? = some p) (hj : io2.points[j]? = some p) (b1 : OnBorder k1 i) (b2 : OnBorder k2 j)
    (he : g1 p.y p.x = g2 p.y p.x) (hp : p.x = (Mercator.tileBox q).hi.lon)
    (a b : Corner ℝ) (ha : CornerAt r1 (n1 + i) a) (hb : CornerAt r2 (n2 + j) b) :
    a.position = b.position ∧ a.color = b.color ∧ a.uv.y = b.uv.y ∧
      (look.textured = true → a.uv.x = look.textureScale ∧ b.uv.x = 0) ∧ (look.textured = false → a.uv.x = b.uv.x) := by
  obtain ⟨e1, e2, e3, e4⟩ := same_place ⟨q, g1⟩ ⟨⟨q.lod, q.x + 1, q.y⟩, g2⟩ o look k1 k2 hg io1 io2 h1 h2 m1 m2 r1 r2 n1 n2 hm1 hm2 hr1 hr2 i j p hi hj
    b1 b2 he a b ha hb
  have w := width_pos q
  refine ⟨e1, e2, ?_, ?_, ?_⟩
  · rw [e3, e4]; unfold mapUv; split <;> rfl
  · intro ht
    rw [e3, e4]
    simp only [mapUv, ht, if_true, Bbox.width, hp]
    refine ⟨by rw [div_self w.ne', one_mul], ?_⟩
    simp [Mercator.tileBox]
  · intro ht; rw [e3, e4]; simp [mapUv, ht]

/-- C99: the same for a tile and the next one to the south. -/
theorem C99_south_partial (q : QuadKey) (g1 g2 : ℝ → ℝ → ℝ) (o : Options) (look : Look) (k1 k2 : Option (Nat → Int)) (hg : Complete look.gradient)
    (io1 io2 : TriangleIo ℝ) (h1 : ∀ p ∈ io1.points, Small o look p) (h2 : ∀ p ∈ io2.points, Small o look p) (m1 m2 r1 r2 : Mesh ℝ) (n1 n2 : Nat)
    (hm1 : WellFormed m1 n1) (hm2 : WellFormed m2 n2) (hr1 : fillMesh ⟨q, g1⟩ o look k1 m1 io1 = .ok r1)
    (hr2 : fillMesh ⟨⟨q.lod, q.x, q.y + 1⟩, g2⟩ o look k2 m2 io2 = .ok r2)
    (i j : Nat) (p : Vec2 ℝ) (hi : io1.points[i]? = some p) (hj : io2.points[j]? = some p) (b1 : OnBorder k1 i) (b2 : OnBorder k2 j)
    (he : g1 p.y p.x = g2 p.y p.x) (hp : p.y = (Mercator.tileBox q).lo.lat)
    (a b : Corner ℝ) (ha : CornerAt r1 (n1 + i) a) (hb : CornerAt r2 (n2 + j) b) :
    a.position = b.position ∧ a.color = b.color ∧ a.uv.x = b.uv.x ∧
      (look.textured = true → a.uv.y = 0 ∧ b.uv.y = look.textureScale) ∧ (look.textured = false → a.uv.y = b.uv.y) := by
  obtain ⟨e1, e2, e3, e4⟩ := same_place ⟨q, g1⟩ ⟨⟨q.lod, q.x, q.y + 1⟩, g2⟩ o look k1 k2 hg io1 io2 h1 h2 m1 m2 r1 r2 n1 n2 hm1 hm2 hr1 hr2 i j p hi hj
    b1 b2 he a b ha hb
  have w := height_pos ⟨q.lod, q.x, q.y + 1⟩
  refine ⟨e1, e2, ?_, ?_, ?_⟩
  · rw [e3, e4]; unfold mapUv; split <;> rfl
  · intro ht
    rw [e3, e4]
    simp only [mapUv, ht, if_true, Bbox.height, hp]
    refine ⟨by simp, ?_⟩
    have : (Mercator.tileBox q).lo.lat = (Mercator.tileBox ⟨q.lod, q.x, q.y + 1⟩).hi.lat := rfl
    rw [this, div_self w.ne', one_mul]
  · intro ht; rw [e3, e4]; simp [mapUv, ht]

/-- C99: the color of a surface depends on the place only, not on tile, height, or what else is in the mesh, and without steps: there is one
continuous function of the place, with values between 0 and 1, which says where in the gradient the color is. -/
theorem C99_color_of_place_partial (look : Look) (hg : Complete look.gradient) : ∃ time : ℝ × ℝ → ℝ, Continuous time ∧
    (∀ x y, InRange (x * look.colorNoiseFreq) → InRange (y * look.colorNoiseFreq) → 0 ≤ time (x, y) ∧ time (x, y) ≤ 1) ∧
    ∀ (site : Site) (o : Options) (markers : Option (Nat → Int)) (io : TriangleIo ℝ) (m r : Mesh ℝ) (n : Nat), (∀ p ∈ io.points, Small o look p) →
      WellFormed m n → fillMesh site o look markers m io = .ok r → ∀ i p c, io.points[i]? = some p → CornerAt r (n + i) c →
      ∃ color, Color.evaluate look.gradient (time (p.x, p.y)) = .ok color ∧ Packed color c.color := by
  obtain ⟨f, hf, hv⟩ := C79_continuous (Real.sqrt 2) look.colorNoiseFreq
  refine ⟨fun p => (f p + 1) / 2, by fun_prop, ?_, ?_⟩
  · intro x y hx hy
    obtain ⟨k, h1, h2⟩ := C79_bounded (Real.sqrt 2) sqrt2.1 sqrt2.2 x y look.colorNoiseFreq hx hy
    rw [hv x y hx hy] at h1
    cases h1
    obtain ⟨h3, h4⟩ := abs_le.1 h2
    exact ⟨by linarith, by linarith⟩
  · intro site o markers io m r n hs hm hr i p c hp hc
    rw [fillMesh_eq site o look markers hg io hs] at hr
    cases hr
    rw [corner_unique hc (corner_of site o look markers io m n hm i p hp)]
    obtain ⟨_, _, h3, h4⟩ := hs p (List.mem_of_getElem? hp)
    obtain ⟨k, hk, _⟩ := color_ok look hg p.x p.y h3 h4
    simp only [attr, hk]
    unfold colorAt noise at hk
    rw [hv _ _ h3 h4] at hk
    simp only [Outcome.bind] at hk
    rcases he : Color.evaluate look.gradient ((f (p.x, p.y) + 1) / 2) with color | e | e
    · rw [he] at hk; cases hk; exact ⟨color, rfl, packed_toInt _⟩
    · rw [he] at hk; cases hk
    · rw [he] at hk; cases hk

theorem SurfaceProof.offset_nonneg (g : Geo ℝ) (h : ℝ) (hh : 0 ≤ h) : 0 ≤ Geodesy.getOffset g h := by
  unfold Geodesy.getOffset Geodesy.rad2Deg Geodesy.earthRadius
  have := Real.pi_pos
  positivity

/-- C99: a wall goes from one point to the other, at most 1 above or below the ground (exactly on it without noise), with the given height, in one
color of the gradient; its texture is as long as the part of the tile's width which the wall has. -/
theorem C99_wall_partial (site : Site) (o : Options) (look : Look) (hg : Complete look.gradient) (hk : 0 < look.textureScale) (p1 p2 : Vec2 ℝ)
    (h1 : InRange (p1.x * o.eleNoiseFreq) ∧ InRange (p1.y * o.eleNoiseFreq)) (h2 : InRange (p2.x * o.eleNoiseFreq) ∧ InRange (p2.y * o.eleNoiseFreq))
    (hx : InRange (p1.x * look.colorNoiseFreq))
    (hy : ∀ g h, Ground site o p1.x p1.y g → |h - g| ≤ 1 → InRange (h * look.colorNoiseFreq))
    (m : Mesh ℝ) (n : Nat) (hm : WellFormed m n) (ts : List (Triangle ℝ)) (hs : Shows m ts) :
    ∃ m' g1 g2 e1 e2 color sx sy, addPlane2 site o look m p1 p2 = .ok m' ∧
      Shows m' (ts ++ wall ⟨p1.x, e1, p1.y⟩ ⟨p2.x, e2, p2.y⟩ o.heightOffset color sx sy) ∧
      Ground site o p1.x p1.y g1 ∧ Ground site o p2.x p2.y g2 ∧ |e1 - g1| ≤ 1 ∧ |e2 - g2| ≤ 1 ∧
      (o.eleNoiseFreq < 1 / 100000 → e1 = g1 ∧ e2 = g2) ∧ OfGradient look.gradient color ∧
      sx * ((Mercator.tileBox site.tile).hi.lon - (Mercator.tileBox site.tile).lo.lon) =
        Real.sqrt ((p2.x - p1.x) ^ 2 + (p2.y - p1.y) ^ 2) * look.textureScale ∧ (0 ≤ o.heightOffset → 0 ≤ sy) := by
  have hgr : ∀ p : Vec2 ℝ, Ground site o p.x p.y (o.elevation.getD (site.elevation p.y p.x)) := fun p =>
    ⟨fun e he => by rw [he]; rfl, fun he => by rw [he]; rfl⟩
  obtain ⟨n1, a1, b1⟩ := C79_bounded (Real.sqrt 2) sqrt2.1 sqrt2.2 p1.x p1.y o.eleNoiseFreq h1.1 h1.2
  obtain ⟨n2, a2, b2⟩ := C79_bounded (Real.sqrt 2) sqrt2.1 sqrt2.2 p2.x p2.y o.eleNoiseFreq h2.1 h2.2
  obtain ⟨color, hc, hcol⟩ := color_ok look hg p1.x (o.elevation.getD (site.elevation p1.y p1.x) + n1) hx
    (hy _ _ (hgr p1) (by rwa [add_sub_cancel_left]))
  have w := width_pos site.tile
  refine ⟨_, _, _, o.elevation.getD (site.elevation p1.y p1.x) + n1, o.elevation.getD (site.elevation p2.y p2.x) + n2, color,
    Real.sqrt ((p2.x - p1.x) * (p2.x - p1.x) + (p2.y - p1.y) * (p2.y - p1.y)) / ((Mercator.tileBox site.tile).width / look.textureScale),
    Geodesy.getOffset ⟨o.elevation.getD (site.elevation p1.y p1.x) + n1, p1.x⟩ o.heightOffset /
      ((Mercator.tileBox site.tile).width / look.textureScale), ?_, C73_plane m n hm ts hs _ _ o.heightOffset color _ _, hgr p1, hgr p2, ?_, ?_, ?_, hcol,
    ?_, ?_⟩
  · unfold addPlane2 addPlane noise
    rw [a1, a2]
    simp only [Outcome.bind, hc]
  · rwa [add_sub_cancel_left]
  · rwa [add_sub_cancel_left]
  · intro hf
    rw [C79_off _ _ _ _ hf] at a1 a2
    cases a1; cases a2
    exact ⟨add_zero _, add_zero _⟩
  · simp only [Bbox.width, pow_two]
    have := hk.ne'
    field_simp
  · intro hh
    exact div_nonneg (offset_nonneg _ _ hh) (div_nonneg w.le hk.le)

/-- C99: a triangle is shown as it is given, in one color of the gradient. -/
theorem C99_triangle_partial (o : Options) (look : Look) (hg : Complete look.gradient) (hb : o.hasBackSide = false) (v0 v1 v2 : Vec3 ℝ)
    (uv0 uv1 uv2 : Vec2 ℝ) (hx : InRange (v0.x * look.colorNoiseFreq)) (hz : InRange (v0.z * look.colorNoiseFreq)) (m : Mesh ℝ) (n : Nat)
    (hm : WellFormed m n) (ts : List (Triangle ℝ)) (hs : Shows m ts) :
    ∃ m' color, addTriangle o look m v0 v1 v2 uv0 uv1 uv2 = .ok m' ∧ OfGradient look.gradient color ∧
      Shows m' (ts ++ [(⟨v0, color, uv0⟩, ⟨v1, color, uv1⟩, ⟨v2, color, uv2⟩)]) := by
  obtain ⟨color, hc, hcol⟩ := color_ok look hg v0.x v0.z hx hz
  refine ⟨_, color, ?_, hcol, C73_triangle m n hm ts hs v0 v1 v2 uv0 uv1 uv2 color⟩
  unfold addTriangle
  rw [hc, hb]
  rfl

namespace SurfaceProof

/-- From black to a lighter color. -/
noncomputable def sampleLook : Look := ⟨[(0, ⟨0, 0, 0, 0⟩), (1, ⟨200, 200, 200, 200⟩)], 1, true, 2⟩

theorem sample_complete : Complete sampleLook.gradient := by
  intro last h
  simp [sampleLook] at h
  rw [← h]
  simp

theorem inRange_of {v : ℝ} (h : |v| ≤ 1000) : InRange v := by
  obtain ⟨h1, h2⟩ := abs_le.1 h
  constructor <;> norm_num <;> linarith

theorem noise_zero : noise 0 0 1 = .ok 0 :=
  C79_lattice _ 1 (by norm_num) 0 0 0 0 (by simp) (by simp) (inRange_of (by simp)) (inRange_of (by simp))

theorem noise_half : noise 0 (1 / 2) 1 = .ok (1 / 4) := by
  unfold noise
  rw [NoiseProof.perlin_eq _ _ _ _ (by norm_num) (by norm_num) (by norm_num)]
  have h0 : ⌊(0 : ℝ) * 1⌋ = 0 := by norm_num
  have h1 : ⌊(1 / 2 : ℝ) * 1⌋ = 0 := by norm_num
  rw [h0, h1]
  have g0 : NoiseProof.grad (Real.sqrt 2) 0 0 = ⟨-1, 0⟩ := by
    have : NoiseProof.at' (NoiseProof.at' (Noise.mask 0) + Noise.mask 0) % 8 = 1 := by decide +kernel
    unfold NoiseProof.grad
    rw [this]; rfl
  have g1 : NoiseProof.grad (Real.sqrt 2) 0 (0 + 1) = ⟨1 / Real.sqrt 2, -1 / Real.sqrt 2⟩ := by
    have : NoiseProof.at' (NoiseProof.at' (Noise.mask 0) + Noise.mask (0 + 1)) % 8 = 6 := by decide +kernel
    unfold NoiseProof.grad
    rw [this]; rfl
  unfold NoiseProof.cell Noise.blend Noise.smooth Noise.dot
  simp only [g0, g1]
  have hs := sqrt2.1.ne'
  congr 1
  push_cast
  field_simp
  ring

theorem sample_color (t : ℝ) (h0 : 0 < t) (h1 : t ≤ 1) (a : Int) (ha : ⌊(200 : ℝ) * t⌋ = a) (h : 0 ≤ a ∧ a ≤ 200) :
    Color.evaluate sampleLook.gradient t = .ok (Color.add (Color.ofInts 0 0 0 0) (Color.ofInts a a a a)) := by
  have hi : Color.index t sampleLook.gradient = 1 := by simp [sampleLook, Color.index, h0]
  unfold Color.evaluate
  rw [hi]
  have z : Color.toInt (0 : ℝ) = .ok 0 := by simp [Color.toInt]
  have y : Color.toInt ((200 : ℝ) * t) = .ok a := by
    unfold Color.toInt
    have hp : (0 : ℝ) ≤ 200 * t := by positivity
    simp only [if_pos hp, ha]
    rw [if_pos (by omega)]
  simp [sampleLook, Color.interpolate, Color.scale, z, y, Outcome.bind]

end SurfaceProof

/-- C99 fails for the colors of walls, which are taken at the longitude and the *height* of their first point instead of its longitude and latitude
(MeshBuilder.cpp:210-211): the same wall on ground which is half a metre higher has another color. -/
theorem C99_violated_wall_color : ∃ (site : Site) (o : Options) (look : Look) (p1 p2 : Vec2 ℝ) (m1 m2 : Mesh ℝ), Complete look.gradient ∧
    addPlane2 site { o with elevation := some 0 } look {} p1 p2 = .ok m1 ∧
    addPlane2 site { o with elevation := some (1 / 2) } look {} p1 p2 = .ok m2 ∧ m1.colors[0]? = some 1684300900 ∧ m2.colors[0]? = some 2105376125 := by
  have c0 : colorAt sampleLook 0 0 = .ok 1684300900 := by
    unfold colorAt
    rw [show sampleLook.colorNoiseFreq = 1 from rfl, noise_zero]
    simp only [Outcome.bind]
    rw [sample_color ((0 + 1) / 2) (by norm_num) (by norm_num) 100 (by norm_num) (by omega)]
    simp only
    congr 1
  have c1 : colorAt sampleLook 0 (1 / 2) = .ok 2105376125 := by
    unfold colorAt
    rw [show sampleLook.colorNoiseFreq = 1 from rfl, noise_half]
    simp only [Outcome.bind]
    rw [sample_color ((1 / 4 + 1) / 2) (by norm_num) (by norm_num) 125 (by norm_num) (by omega)]
    simp only
    congr 1
  have key : ∀ e c, colorAt sampleLook 0 e = .ok c → ∃ m : Mesh ℝ,
      addPlane2 ⟨⟨1, 1, 0⟩, fun _ _ => 0⟩ ⟨0, some e, 3, false, false⟩ sampleLook {} ⟨0, 10⟩ ⟨5, 10⟩ = .ok m ∧ m.colors[0]? = some c := by
    intro e c hc
    have off : ∀ x y, noise x y 0 = .ok 0 := fun x y => C79_off _ _ _ _ (by norm_num)
    unfold addPlane2 addPlane
    simp only [off, Outcome.bind, Option.getD_some, add_zero, hc]
    exact ⟨_, rfl, rfl⟩
  obtain ⟨m1, a1, b1⟩ := key _ _ c0
  obtain ⟨m2, a2, b2⟩ := key _ _ c1
  exact ⟨⟨⟨1, 1, 0⟩, fun _ _ => 0⟩, ⟨0, none, 3, false, false⟩, sampleLook, ⟨0, 10⟩, ⟨5, 10⟩, m1, m2, sample_complete, a1, a2, b1, b2⟩

namespace SurfaceProof

/-- A triangle of the tile whose first side is on the border to the tile in the east, and one on the other side. -/
noncomputable def westIo : TriangleIo ℝ := ⟨[⟨0, 10⟩, ⟨0, 20⟩, ⟨-10, 10⟩], [(0, 1, 2)]⟩
noncomputable def eastIo : TriangleIo ℝ := ⟨[⟨0, 20⟩, ⟨0, 10⟩, ⟨10, 10⟩], [(0, 1, 2)]⟩
noncomputable def sampleOptions : Options := { eleNoiseFreq := 1, elevation := none, heightOffset := 3 }

theorem west_small : ∀ p ∈ westIo.points, Small sampleOptions sampleLook p := by
  intro p hp
  simp only [westIo, List.mem_cons, List.not_mem_nil, or_false] at hp
  rcases hp with rfl | rfl | rfl <;> refine ⟨?_, ?_, ?_, ?_⟩ <;> apply inRange_of <;> norm_num [sampleOptions, sampleLook]

theorem east_small : ∀ p ∈ eastIo.points, Small sampleOptions sampleLook p := by
  intro p hp
  simp only [eastIo, List.mem_cons, List.not_mem_nil, or_false] at hp
  rcases hp with rfl | rfl | rfl <;> refine ⟨?_, ?_, ?_, ?_⟩ <;> apply inRange_of <;> norm_num [sampleOptions, sampleLook]

theorem empty_wellFormed : WellFormed ({} : Mesh ℝ) 0 := ⟨rfl, rfl, rfl, by simp, by simp⟩

end SurfaceProof

/-- Two tiles, one on each side of the meridian of Greenwich, with two points on their border: they are numbers 0 and 1 of the first surface, and
1 and 0 of the second one. The third points are not on a border and get noise. -/
example : ∃ r1 r2 a b, fillMesh ⟨⟨1, 0, 0⟩, fun lat lon => lat + lon⟩ sampleOptions sampleLook (some fun i => if i < 2 then 1 else 0) {} westIo = .ok r1 ∧
    fillMesh ⟨⟨1, 1, 0⟩, fun lat lon => lat - lon⟩ sampleOptions sampleLook (some fun i => if i < 2 then 1 else 0) {} eastIo = .ok r2 ∧
    CornerAt r1 0 a ∧ CornerAt r2 1 b ∧ a.position = ⟨0, 13, 10⟩ ∧ b.position = ⟨0, 13, 10⟩ ∧ a.color = b.color ∧ a.uv.x = 2 ∧ b.uv.x = 0 := by
  obtain ⟨r1, e1, _, _, c1⟩ := C99_points_partial ⟨⟨1, 0, 0⟩, fun lat lon => lat + lon⟩ sampleOptions sampleLook (some fun i => if i < 2 then 1 else 0)
    sample_complete westIo west_small {} 0 empty_wellFormed
  obtain ⟨r2, e2, _, _, c2⟩ := C99_points_partial ⟨⟨1, 1, 0⟩, fun lat lon => lat - lon⟩ sampleOptions sampleLook (some fun i => if i < 2 then 1 else 0)
    sample_complete eastIo east_small {} 0 empty_wellFormed
  obtain ⟨a, ha, la⟩ := c1 0 ⟨0, 10⟩ rfl
  obtain ⟨b, hb, lb⟩ := c2 1 ⟨0, 10⟩ rfl
  have hk1 : OnBorder (some fun i : Nat => if i < 2 then (1 : Int) else 0) 0 := by intro f hf; cases hf; rfl
  have hk2 : OnBorder (some fun i : Nat => if i < 2 then (1 : Int) else 0) 1 := by intro f hf; cases hf; rfl
  have key := C99_east_partial ⟨1, 0, 0⟩ (fun lat lon => lat + lon) (fun lat lon => lat - lon) sampleOptions sampleLook _ _ sample_complete westIo eastIo
    west_small east_small {} {} r1 r2 0 0 empty_wellFormed empty_wellFormed e1 e2 0 1 ⟨0, 10⟩ rfl rfl hk1 hk2 (by simp)
    (by norm_num [Mercator.tileBox, Mercator.tileXToLon]) a b ha hb
  obtain ⟨g, ⟨_, hgr⟩, _, he⟩ := la.height
  have hpos : a.position = ⟨0, 13, 10⟩ := by
    have h1 := la.east
    have h2 := la.north
    have h3 := he hk1
    have h4 := hgr rfl
    obtain ⟨⟨x, y, z⟩, _, _⟩ := a
    simp only at h1 h2 h3 h4
    subst h4
    rw [h1, h2, h3]
    norm_num [sampleOptions]
  exact ⟨r1, r2, a, b, e1, e2, ha, hb, hpos, key.1 ▸ hpos, key.2.1, (key.2.2.2.1 rfl).1, (key.2.2.2.1 rfl).2⟩

/-- A wall on the ground. -/
example : ∃ m', addPlane2 ⟨⟨1, 1, 0⟩, fun _ _ => 50⟩ sampleOptions sampleLook {} ⟨0, 10⟩ ⟨5, 10⟩ = .ok m' := by
  obtain ⟨m', _, _, _, _, _, _, _, h, _⟩ := C99_wall_partial ⟨⟨1, 1, 0⟩, fun _ _ => 50⟩ sampleOptions sampleLook sample_complete (by norm_num [sampleLook])
    ⟨0, 10⟩ ⟨5, 10⟩ (by constructor <;> apply inRange_of <;> norm_num [sampleOptions]) (by constructor <;> apply inRange_of <;> norm_num [sampleOptions])
    (by apply inRange_of; norm_num [sampleLook]) (by
      intro g h hg hh
      have := hg.2 rfl
      simp only at this
      subst this
      obtain ⟨h1, h2⟩ := abs_le.1 hh
      apply inRange_of
      rw [abs_le]
      constructor <;> simp only [sampleLook] <;> linarith) {} 0 empty_wellFormed [] ⟨[], rfl, .nil⟩
  exact ⟨m', h⟩

/-- A point of the equator, which is the border of two tiles, without and with a marker. -/
example : ∃ r1 r2 a b, fillMesh ⟨⟨1, 1, 0⟩, fun _ _ => 7⟩ sampleOptions sampleLook none {} ⟨[⟨10, 0⟩], []⟩ = .ok r1 ∧
    fillMesh ⟨⟨1, 1, 1⟩, fun _ _ => 7⟩ sampleOptions sampleLook (some fun _ => 1) {} ⟨[⟨10, 0⟩], []⟩ = .ok r2 ∧
    CornerAt r1 0 a ∧ CornerAt r2 0 b ∧ a.position = b.position ∧ a.uv.x = b.uv.x ∧ a.uv.y = 0 ∧ b.uv.y = 2 := by
  have hs : ∀ p ∈ (⟨[⟨10, 0⟩], []⟩ : TriangleIo ℝ).points, Small sampleOptions sampleLook p := by
    intro p hp
    simp only [List.mem_cons, List.not_mem_nil, or_false] at hp
    subst hp
    refine ⟨?_, ?_, ?_, ?_⟩ <;> apply inRange_of <;> norm_num [sampleOptions, sampleLook]
  obtain ⟨r1, e1, _, _, c1⟩ := C99_points_partial ⟨⟨1, 1, 0⟩, fun _ _ => 7⟩ sampleOptions sampleLook none sample_complete _ hs {} 0 empty_wellFormed
  obtain ⟨r2, e2, _, _, c2⟩ := C99_points_partial ⟨⟨1, 1, 1⟩, fun _ _ => 7⟩ sampleOptions sampleLook (some fun _ => 1) sample_complete _ hs {} 0
    empty_wellFormed
  obtain ⟨a, ha, _⟩ := c1 0 ⟨10, 0⟩ rfl
  obtain ⟨b, hb, _⟩ := c2 0 ⟨10, 0⟩ rfl
  have key := C99_south_partial ⟨1, 1, 0⟩ (fun _ _ => 7) (fun _ _ => 7) sampleOptions sampleLook none (some fun _ => 1) sample_complete _ _ hs hs {} {} r1 r2
    0 0 empty_wellFormed empty_wellFormed e1 e2 0 0 ⟨10, 0⟩ rfl rfl (fun f hf => by cases hf) (fun f hf => by cases hf; rfl) rfl
    (by norm_num [Mercator.tileBox, Mercator.tileYToLat]) a b ha hb
  exact ⟨r1, r2, a, b, e1, e2, ha, hb, key.1, key.2.2.1, (key.2.2.2.1 rfl).1, (key.2.2.2.1 rfl).2⟩

end Verif.Props
