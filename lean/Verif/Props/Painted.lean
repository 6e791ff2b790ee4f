import Verif.Props.PaintedSpec
import Verif.Props.Shown

/-! # C73: meshes show what was added with its texture -/
namespace Verif.Props
open Verif.MeshBuilder Verif.MeshSpec Verif.ShownSpec

namespace ShownProof
variable {α : Type}

/-- Triangles between new vertices were appended to a mesh with `n` vertices. -/
structure Adds (m m' : Mesh α) (n : Nat) (new : List (Triangle α)) : Prop where
  vertices : ∃ v, m'.vertices = m.vertices ++ v
  colors : ∃ v, m'.colors = m.colors ++ v
  uvs : ∃ v, m'.uvs = m.uvs ++ v
  uvMap : m'.uvMap = m.uvMap
  triangles : ∃ ids : List (Nat × Nat × Nat), m'.triangles = m.triangles ++ ids.flatMap (fun i => [(i.1 : Int), (i.2.1 : Int), (i.2.2 : Int)]) ∧
    List.Forall₂ (fun i t => TriangleAt m' i t ∧ n ≤ i.1 ∧ n ≤ i.2.1 ∧ n ≤ i.2.2) ids new

theorem TriangleAt.append {m m' : Mesh α} {i : Nat × Nat × Nat} {t : Triangle α} (h : TriangleAt m i t) (hv : ∃ v, m'.vertices = m.vertices ++ v)
    (hc : ∃ v, m'.colors = m.colors ++ v) (hu : ∃ v, m'.uvs = m.uvs ++ v) : TriangleAt m' i t :=
  ⟨CornerAt.append h.1 hv hc hu, CornerAt.append h.2.1 hv hc hu, CornerAt.append h.2.2 hv hc hu⟩

theorem Adds.shows {m m' : Mesh α} {n : Nat} {ts new : List (Triangle α)} (h : Adds m m' n new) (hs : Shows m ts) : Shows m' (ts ++ new) := by
  obtain ⟨ids, ht, hf⟩ := h.triangles
  exact Shows.append hs h.vertices h.colors h.uvs ids ht (hf.imp fun _ _ h => h.1)

theorem covered_le {m : Mesh α} {rs : List Record} (h : Mapped m rs) : covered rs ≤ m.uvs.length := by
  rcases List.eq_nil_or_concat rs with rfl | ⟨init, r, rfl⟩
  · simp [covered]
  · rw [List.concat_eq_append, MeshProof.covered_append]
    exact h.bounded r (by simp)

theorem lt_covered {rs : List Record} (hs : (rs.map Record.stop).Pairwise (· ≤ ·)) {k : Nat} {t : Texture} (h : textureOf rs k = some t) :
    k < covered rs := by
  by_contra hk
  rw [textureOf, MeshProof.find_none_of_covered hs (by omega)] at h
  cases h

theorem Adds.paints {m m' : Mesh α} {n : Nat} {done : List (Triangle α × Texture)} {rest new : List (Triangle α)} (hw : WellFormed m n)
    (h : Adds m m' n new) (hp : Paints m done rest) : Paints m' done (rest ++ new) := by
  obtain ⟨rs, ids, ids', hm, ht, hd, hr⟩ := hp
  obtain ⟨more, ht', hn⟩ := h.triangles
  have hc : covered rs ≤ 2 * n := by have := covered_le hm; rw [hw.uvs] at this; exact this
  refine ⟨rs, ids, ids' ++ more, ⟨by rw [h.uvMap, hm.map], hm.sorted, ?_⟩, ?_, ?_, ?_⟩
  · obtain ⟨v, hv⟩ := h.uvs
    intro r hr
    have := hm.bounded r hr
    rw [hv, List.length_append]; omega
  · rw [ht', ht, ← List.append_assoc, List.flatMap_append (xs := ids ++ ids')]
  · exact hd.imp fun i t h' => ⟨TriangleAt.append h'.1 h.vertices h.colors h.uvs, h'.2⟩
  · exact List.rel_append (hr.imp fun i t h' => ⟨TriangleAt.append h'.1 h.vertices h.colors h.uvs, h'.2⟩)
      (hn.imp fun i t h' => ⟨h'.1, by omega, by omega, by omega⟩)

theorem addPlane_adds [Add α] [Zero α] {m : Mesh α} {n : Nat} (h : WellFormed m n) (p1 p2 : Vec3 α) (height : α) (color : Int) (sx sy : α) :
    Adds m (addPlane m p1 p2 height color sx sy) n (wall p1 p2 height color sx sy) := by
  have hv : (addPlane m p1 p2 height color sx sy).vertices = m.vertices ++ [p1.x, p1.z, p1.y, p2.x, p2.z, p2.y, p2.x, p2.z, p2.y + height,
      p1.x, p1.z, p1.y + height, p1.x, p1.z, p1.y, p2.x, p2.z, p2.y + height] := by
    simp [addPlane, addVertex]
  have hc : (addPlane m p1 p2 height color sx sy).colors = m.colors ++ [color, color, color, color, color, color] := by simp [addPlane, addVertex]
  have hu : (addPlane m p1 p2 height color sx sy).uvs = m.uvs ++ [0, 0, sx, 0, sx, sy, 0, sy, 0, 0, sx, sy] := by simp [addPlane, addVertex]
  refine ⟨⟨_, hv⟩, ⟨_, hc⟩, ⟨_, hu⟩, by simp [addPlane, addVertex], [(n + 0, n + 2, n + 1), (n + 3, n + 5, n + 4)], ?_, ?_⟩
  · simp [addPlane, addVertex, MeshProof.nextIndex_eq h]; omega
  · refine .cons ⟨⟨?_, ?_, ?_⟩, Nat.le_add_right .., Nat.le_add_right .., Nat.le_add_right ..⟩
      (.cons ⟨⟨?_, ?_, ?_⟩, Nat.le_add_right .., Nat.le_add_right .., Nat.le_add_right ..⟩ .nil) <;>
      exact CornerAt.new h hv hc hu rfl rfl rfl rfl rfl rfl

theorem addTriangle_adds {m : Mesh α} {n : Nat} (h : WellFormed m n) (v0 v1 v2 : Vec3 α) (a b c : Vec2 α) (color : Int) :
    Adds m (addTriangle m v0 v1 v2 a b c false color) n [(⟨v0, color, a⟩, ⟨v1, color, b⟩, ⟨v2, color, c⟩)] := by
  have hv : (addTriangle m v0 v1 v2 a b c false color).vertices = m.vertices ++ [v0.x, v0.z, v0.y, v1.x, v1.z, v1.y, v2.x, v2.z, v2.y] := by
    simp [addTriangle, addVertex]
  have hc : (addTriangle m v0 v1 v2 a b c false color).colors = m.colors ++ [color, color, color] := by simp [addTriangle, addVertex]
  have hu : (addTriangle m v0 v1 v2 a b c false color).uvs = m.uvs ++ [a.x, a.y, b.x, b.y, c.x, c.y] := by simp [addTriangle, addVertex]
  refine ⟨⟨_, hv⟩, ⟨_, hc⟩, ⟨_, hu⟩, by simp [addTriangle, addVertex], [(n + 0, n + 1, n + 2)], ?_, ?_⟩
  · simp [addTriangle, addVertex, MeshProof.nextIndex_eq h]; omega
  · refine .cons ⟨⟨?_, ?_, ?_⟩, Nat.le_add_right .., Nat.le_add_right .., Nat.le_add_right ..⟩ .nil <;>
      exact CornerAt.new h hv hc hu rfl rfl rfl rfl rfl rfl

theorem fillMesh_adds {m : Mesh α} {n : Nat} (h : WellFormed m n) (io : TriangleIo α)
    (attr : Nat → Vec2 α → α × Int × Vec2 α) (flipSide : Bool)
    (hio : ∀ t ∈ io.triangles, ∀ c ∈ [t.1, t.2.1, t.2.2], 0 ≤ c ∧ c < (io.points.length : Int)) :
    ∃ new, Adds m (fillMesh m io attr flipSide) n new ∧
      List.Forall₂ (fun c t => ∃ a b d, IsPoint io attr c.1 a ∧ IsPoint io attr c.2.1 b ∧ IsPoint io attr c.2.2 d ∧
        if flipSide then SameSide t (a, b, d) else OtherSide t (a, b, d)) io.triangles new := by
  obtain ⟨vs, hv, cs, hc, us, hu, hj⟩ := fillPoints_append attr m 0 io.points
  have hv' : (fillMesh m io attr flipSide).vertices = m.vertices ++ vs := hv
  have hc' : (fillMesh m io attr flipSide).colors = m.colors ++ cs := hc
  have hu' : (fillMesh m io attr flipSide).uvs = m.uvs ++ us := hu
  have corner : ∀ c : Int, 0 ≤ c ∧ c < (io.points.length : Int) →
      ∃ k, IsPoint io attr c k ∧ CornerAt (fillMesh m io attr flipSide) (n + c.toNat) k := by
    intro c ⟨h0, h1⟩
    have hl : c.toNat < io.points.length := by omega
    have hp : io.points[c.toNat]? = some io.points[c.toNat] := List.getElem?_eq_getElem hl
    have := hj c.toNat _ hp
    rw [Nat.zero_add] at this
    obtain ⟨e1, e2, e3, e4, e5, e6⟩ := this
    exact ⟨_, ⟨c.toNat, _, by omega, hp, rfl⟩, CornerAt.new h hv' hc' hu' e1 e2 e3 e4 e5 e6⟩
  have list : ∀ l : List (Int × Int × Int), (∀ t ∈ l, ∀ c ∈ [t.1, t.2.1, t.2.2], 0 ≤ c ∧ c < (io.points.length : Int)) →
      ∃ (indices : List (Nat × Nat × Nat)) (new : List (Triangle α)),
        l.flatMap (corners (n : Int) flipSide) = indices.flatMap (fun i => [(i.1 : Int), (i.2.1 : Int), (i.2.2 : Int)]) ∧
        List.Forall₂ (fun i t => TriangleAt (fillMesh m io attr flipSide) i t ∧ n ≤ i.1 ∧ n ≤ i.2.1 ∧ n ≤ i.2.2) indices new ∧
        List.Forall₂ (fun c t => ∃ a b d, IsPoint io attr c.1 a ∧ IsPoint io attr c.2.1 b ∧ IsPoint io attr c.2.2 d ∧
          if flipSide then SameSide t (a, b, d) else OtherSide t (a, b, d)) l new := by
    intro l hl
    induction l with
    | nil => exact ⟨[], [], rfl, .nil, .nil⟩
    | cons t l ih =>
      obtain ⟨indices, new, h1, h2, h3⟩ := ih fun t ht => hl t (List.mem_cons_of_mem _ ht)
      obtain ⟨c0, c1, c2⟩ := t
      have hr := hl _ (List.mem_cons_self ..)
      have r0 := hr c0 (by simp)
      have r1 := hr c1 (by simp)
      have r2 := hr c2 (by simp)
      obtain ⟨k0, p0, q0⟩ := corner c0 r0
      obtain ⟨k1, p1, q1⟩ := corner c1 r1
      obtain ⟨k2, p2, q2⟩ := corner c2 r2
      have n0 : (n : Int) + c0 = ((n + c0.toNat : Nat) : Int) := by omega
      have n1 : (n : Int) + c1 = ((n + c1.toNat : Nat) : Int) := by omega
      have n2 : (n : Int) + c2 = ((n + c2.toNat : Nat) : Int) := by omega
      cases flipSide with
      | true =>
        refine ⟨(n + c2.toNat, n + c0.toNat, n + c1.toNat) :: indices, (k2, k0, k1) :: new, ?_,
          .cons ⟨⟨q2, q0, q1⟩, Nat.le_add_right .., Nat.le_add_right .., Nat.le_add_right ..⟩ h2,
          .cons ⟨k0, k1, k2, p0, p1, p2, by simp [SameSide]⟩ h3⟩
        rw [List.flatMap_cons, List.flatMap_cons, h1]
        simp [corners, n0, n1, n2]
      | false =>
        refine ⟨(n + c1.toNat, n + c0.toNat, n + c2.toNat) :: indices, (k1, k0, k2) :: new, ?_,
          .cons ⟨⟨q1, q0, q2⟩, Nat.le_add_right .., Nat.le_add_right .., Nat.le_add_right ..⟩ h2,
          .cons ⟨k0, k1, k2, p0, p1, p2, by simp [OtherSide, SameSide]⟩ h3⟩
        rw [List.flatMap_cons, List.flatMap_cons, h1]
        simp [corners, n0, n1, n2]
  obtain ⟨indices, new, h1, h2, h3⟩ := list io.triangles hio
  obtain ⟨_, _, _, ht, hmap⟩ := MeshProof.fillPoints_lengths attr m 0 io.points
  refine ⟨new, ⟨⟨_, hv'⟩, ⟨_, hc'⟩, ⟨_, hu'⟩, hmap, indices, ?_, h2⟩, h3⟩
  rw [← h1]
  show (fillPoints attr m 0 io.points).triangles ++ _ = _
  rw [ht, MeshProof.nextIndex_eq h]

theorem corner_unique {m : Mesh α} {i : Nat} {c d : Corner α} (hc : CornerAt m i c) (hd : CornerAt m i d) : c = d := by
  obtain ⟨⟨x, y, z⟩, k, ⟨u, v⟩⟩ := c
  obtain ⟨⟨x', y', z'⟩, k', ⟨u', v'⟩⟩ := d
  have := hc.east.symm.trans hd.east
  have := hc.north.symm.trans hd.north
  have := hc.up.symm.trans hd.up
  have := hc.color.symm.trans hd.color
  have := hc.u.symm.trans hd.u
  have := hc.v.symm.trans hd.v
  simp_all

theorem indices_unique {i j : List (Nat × Nat × Nat)}
    (h : i.flatMap (fun i => [(i.1 : Int), (i.2.1 : Int), (i.2.2 : Int)]) = j.flatMap (fun i => [(i.1 : Int), (i.2.1 : Int), (i.2.2 : Int)])) : i = j := by
  induction i generalizing j with
  | nil =>
    cases j with
    | nil => rfl
    | cons b j => simp at h
  | cons a i ih =>
    cases j with
    | nil => simp at h
    | cons b j =>
      simp only [List.flatMap_cons, List.cons_append, List.nil_append, List.cons.injEq, Int.natCast_inj] at h
      obtain ⟨h1, h2, h3, h4⟩ := h
      rw [ih h4, Prod.ext_iff.2 ⟨h1, Prod.ext_iff.2 ⟨h2, h3⟩⟩]

theorem records_unique {i j : List Record} (h : i.flatMap Record.entries = j.flatMap Record.entries) : i = j := by
  induction i generalizing j with
  | nil =>
    cases j with
    | nil => rfl
    | cons b j => simp [Record.entries] at h
  | cons a i ih =>
    cases j with
    | nil => simp [Record.entries] at h
    | cons b j =>
      obtain ⟨n, t⟩ := a
      obtain ⟨n', t'⟩ := b
      cases t; cases t'
      simp only [Record.entries, List.flatMap_cons, List.cons_append, List.nil_append, List.cons.injEq, Int.natCast_inj] at h
      obtain ⟨h1, h2, h3, h4, h5, h6, h7, h8, h9⟩ := h
      subst h1 h2 h3 h4 h5 h6 h7 h8
      rw [ih h9]

end ShownProof

open ShownProof
variable {α : Type}

/-- C73: a mesh which shows triangles with textures shows them. -/
theorem C73_paints_shows (m : Mesh α) (done : List (Triangle α × Texture)) (rest : List (Triangle α)) (h : Paints m done rest) :
    Shows m (done.map Prod.fst ++ rest) := by
  obtain ⟨rs, ids, ids', hm, ht, hd, hr⟩ := h
  exact ⟨ids ++ ids', ht, List.rel_append (List.forall₂_map_right_iff.2 (hd.imp fun _ _ h => h.1)) (hr.imp fun _ _ h => h.1)⟩

/-- C73: a plane is shown in addition, all textures are still the same. -/
theorem C73_paints_plane [Add α] [Zero α] (m : Mesh α) (n : Nat) (hw : WellFormed m n) (done : List (Triangle α × Texture)) (rest : List (Triangle α))
    (h : Paints m done rest) (p1 p2 : Vec3 α) (height : α) (color : Int) (scaleX scaleY : α) :
    Paints (addPlane m p1 p2 height color scaleX scaleY) done (rest ++ wall p1 p2 height color scaleX scaleY) :=
  (addPlane_adds hw p1 p2 height color scaleX scaleY).paints hw h

/-- C73: a triangle is shown in addition, all textures are still the same. -/
theorem C73_paints_triangle (m : Mesh α) (n : Nat) (hw : WellFormed m n) (done : List (Triangle α × Texture)) (rest : List (Triangle α))
    (h : Paints m done rest) (v0 v1 v2 : Vec3 α) (a b c : Vec2 α) (color : Int) :
    Paints (addTriangle m v0 v1 v2 a b c false color) done (rest ++ [(⟨v0, color, a⟩, ⟨v1, color, b⟩, ⟨v2, color, c⟩)]) :=
  (addTriangle_adds hw v0 v1 v2 a b c color).paints hw h

/-- C73: the triangles of a polygon are shown in addition, all textures are still the same. -/
theorem C73_paints_polygon (m : Mesh α) (n : Nat) (hw : WellFormed m n) (done : List (Triangle α × Texture)) (rest : List (Triangle α))
    (h : Paints m done rest) (io : TriangleIo α) (attr : Nat → Vec2 α → α × Int × Vec2 α)
    (hio : ∀ t ∈ io.triangles, ∀ c ∈ [t.1, t.2.1, t.2.2], 0 ≤ c ∧ c < (io.points.length : Int)) :
    ∃ new, IsSurface io attr new ∧ Paints (fillMesh m io attr false) done (rest ++ new) := by
  obtain ⟨new, h1, h2⟩ := fillMesh_adds hw io attr false hio
  exact ⟨new, h2, h1.paints hw h⟩

/-- C73: writing a texture gives it to exactly the triangles which had none. -/
theorem C73_paints_texture (m m' : Mesh α) (done : List (Triangle α × Texture)) (rest : List (Triangle α))
    (h : Paints m done rest) (t : Texture) (ht : writeTexture m t = .ok m') : Paints m' (done ++ rest.map fun x => (x, t)) [] := by
  obtain ⟨rs, ids, ids', hm, he, hd, hr⟩ := h
  obtain ⟨m'', rs', e, hu, hv, htr, hc, hm', hcov, htex⟩ := C44_write m rs hm t
  rw [ht] at e
  cases e
  have at_ : ∀ {i t}, TriangleAt m i t → TriangleAt m' i t := fun h =>
    TriangleAt.append h ⟨[], by simp [hv]⟩ ⟨[], by simp [hc]⟩ ⟨[], by simp [hu]⟩
  have old : ∀ {s : Texture} {i : Nat}, TexturedBy rs s i → TexturedBy rs' s i := by
    intro s i ⟨h1, h2⟩
    exact ⟨by rw [htex, if_pos (lt_covered hm.sorted h1), h1], by rw [htex, if_pos (lt_covered hm.sorted h2), h2]⟩
  have new : ∀ {i : Nat} {c : Corner α}, CornerAt m i c → covered rs ≤ 2 * i → TexturedBy rs' t i := by
    intro i c hc hi
    have h1 := (List.getElem?_eq_some_iff.1 hc.u).1
    have h2 := (List.getElem?_eq_some_iff.1 hc.v).1
    exact ⟨by rw [htex, if_neg (by omega), if_pos h1], by rw [htex, if_neg (by omega), if_pos h2]⟩
  refine ⟨rs', ids ++ ids', [], hm', by rw [htr, he, List.append_nil], List.rel_append (hd.imp ?_) (List.forall₂_map_right_iff.2 (hr.imp ?_)), .nil⟩
  · intro i x ⟨h1, h2, h3, h4⟩
    exact ⟨at_ h1, old h2, old h3, old h4⟩
  · intro i x ⟨h1, h2, h3, h4⟩
    exact ⟨at_ h1, new h1.1 h2, new h1.2.1 h3, new h1.2.2 h4⟩

/-- C73: what a mesh shows with which textures is determined by the mesh. -/
theorem C73_paints_unique (m : Mesh α) (done done' : List (Triangle α × Texture)) (h : Paints m done []) (h' : Paints m done' []) : done = done' := by
  obtain ⟨rs, ids, idr, hm, ht, hd, hr⟩ := h
  obtain ⟨rs', ids', idr', hm', ht', hd', hr'⟩ := h'
  cases hr
  cases hr'
  have e : rs = rs' := records_unique (hm.map.symm.trans hm'.map)
  have e' : ids = ids' := by
    rw [List.append_nil] at ht ht'
    exact indices_unique (ht.symm.trans ht')
  subst e e'
  clear ht ht'
  induction hd generalizing done' with
  | nil => cases hd'; rfl
  | cons h _ ih =>
    cases hd' with
    | cons h' hs =>
      rw [ih _ hs]
      congr 1
      obtain ⟨⟨a1, a2, a3⟩, ⟨a4, _⟩, _⟩ := h
      obtain ⟨⟨b1, b2, b3⟩, ⟨b4, _⟩, _⟩ := h'
      exact Prod.ext (Prod.ext (corner_unique a1 b1) (Prod.ext (corner_unique a2 b2) (corner_unique a3 b3))) (Option.some.inj (a4.symm.trans b4))

/-- A wall with a texture and a triangle without one. -/
example (t : Texture) : ∃ m : Mesh Int, writeTexture (addPlane ({} : Mesh Int) ⟨0, 5, 0⟩ ⟨4, 5, 3⟩ 10 7 1 2) t = .ok m ∧
    Paints (addTriangle m ⟨0, 0, 0⟩ ⟨1, 0, 0⟩ ⟨0, 1, 0⟩ ⟨0, 0⟩ ⟨1, 0⟩ ⟨1, 1⟩ false 9) ((wall ⟨0, 5, 0⟩ ⟨4, 5, 3⟩ 10 7 1 2).map fun x => (x, t))
      [(⟨⟨0, 0, 0⟩, 9, ⟨0, 0⟩⟩, ⟨⟨1, 0, 0⟩, 9, ⟨1, 0⟩⟩, ⟨⟨0, 1, 0⟩, 9, ⟨1, 1⟩⟩)] := by
  have e : WellFormed ({} : Mesh Int) 0 := ⟨rfl, rfl, rfl, ⟨0, rfl⟩, by simp⟩
  have p : Paints ({} : Mesh Int) [] [] := ⟨[], [], [], ⟨rfl, by simp, by simp⟩, rfl, .nil, .nil⟩
  have hw := MeshProof.addPlane_wf e ⟨0, 5, 0⟩ ⟨4, 5, 3⟩ 10 7 1 2
  have hp := C73_paints_plane _ _ e _ _ p ⟨0, 5, 0⟩ ⟨4, 5, 3⟩ 10 7 1 2
  obtain ⟨rs, ids, ids', hm, -⟩ := hp
  obtain ⟨m, rs', h, h1, h2, h3, h4, -⟩ := C44_write _ rs hm t
  have hp' := C73_paints_texture _ m _ _ (C73_paints_plane _ _ e _ _ p ⟨0, 5, 0⟩ ⟨4, 5, 3⟩ 10 7 1 2) t h
  refine ⟨m, h, ?_⟩
  have hw' : WellFormed m _ := ⟨by rw [h2]; exact hw.vertices, by rw [h4]; exact hw.colors, by rw [h1]; exact hw.uvs, by rw [h3]; exact hw.triangles,
    by rw [h3]; exact hw.range⟩
  exact C73_paints_triangle m _ hw' _ _ hp' ..

end Verif.Props
