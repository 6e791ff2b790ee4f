import Verif.Props.MeshBuilder
import Verif.Props.ShownSpec

/-! # C73: meshes show what was added -/
namespace Verif.Props
open Verif.MeshBuilder Verif.MeshSpec Verif.ShownSpec

namespace ShownProof
variable {α : Type}

/-- Vertices keep their numbers when others are appended. -/
theorem CornerAt.append {m m' : Mesh α} {i : Nat} {c : Corner α} (h : CornerAt m i c) (hv : ∃ v, m'.vertices = m.vertices ++ v)
    (hc : ∃ v, m'.colors = m.colors ++ v) (hu : ∃ v, m'.uvs = m.uvs ++ v) : CornerAt m' i c := by
  obtain ⟨v, hv⟩ := hv
  obtain ⟨k, hc⟩ := hc
  obtain ⟨u, hu⟩ := hu
  have key : ∀ {β : Type} (l r : List β) (j : Nat) (b : β), l[j]? = some b → (l ++ r)[j]? = some b := by
    intro β l r j b hb
    rw [List.getElem?_append_left (List.getElem?_eq_some_iff.1 hb).1, hb]
  constructor
  · rw [hv]; exact key _ _ _ _ h.east
  · rw [hv]; exact key _ _ _ _ h.north
  · rw [hv]; exact key _ _ _ _ h.up
  · rw [hc]; exact key _ _ _ _ h.color
  · rw [hu]; exact key _ _ _ _ h.u
  · rw [hu]; exact key _ _ _ _ h.v

/-- A vertex which was appended to a well formed mesh. -/
theorem CornerAt.new {m : Mesh α} {n : Nat} (h : WellFormed m n) {m' : Mesh α} {vs us : List α} {cs : List Int} (hv : m'.vertices = m.vertices ++ vs)
    (hc : m'.colors = m.colors ++ cs) (hu : m'.uvs = m.uvs ++ us) {j : Nat} {c : Corner α} (e1 : vs[3 * j]? = some c.position.x)
    (e2 : vs[3 * j + 1]? = some c.position.z) (e3 : vs[3 * j + 2]? = some c.position.y) (e4 : cs[j]? = some c.color) (e5 : us[2 * j]? = some c.uv.x)
    (e6 : us[2 * j + 1]? = some c.uv.y) : CornerAt m' (n + j) c := by
  have key : ∀ {β : Type} (l r : List β) (a k : Nat) (b : β), l.length = a → r[k]? = some b → (l ++ r)[a + k]? = some b := by
    intro β l r a k b ha hb
    rw [List.getElem?_append_right (by omega), ← ha, Nat.add_sub_cancel_left, hb]
  constructor
  · rw [hv, Nat.mul_add]; exact key _ _ _ _ _ h.vertices e1
  · rw [hv, Nat.mul_add, Nat.add_assoc]; exact key _ _ _ _ _ h.vertices e2
  · rw [hv, Nat.mul_add, Nat.add_assoc]; exact key _ _ _ _ _ h.vertices e3
  · rw [hc]; exact key _ _ _ _ _ h.colors e4
  · rw [hu, Nat.mul_add]; exact key _ _ _ _ _ h.uvs e5
  · rw [hu, Nat.mul_add, Nat.add_assoc]; exact key _ _ _ _ _ h.uvs e6

/-- Triangles between old or new vertices are appended to those which are shown. -/
theorem Shows.append {m m' : Mesh α} {ts new : List (Triangle α)} (h : Shows m ts) (hv : ∃ v, m'.vertices = m.vertices ++ v)
    (hc : ∃ v, m'.colors = m.colors ++ v) (hu : ∃ v, m'.uvs = m.uvs ++ v) (indices : List (Nat × Nat × Nat))
    (ht : m'.triangles = m.triangles ++ indices.flatMap (fun i => [(i.1 : Int), (i.2.1 : Int), (i.2.2 : Int)]))
    (hn : List.Forall₂ (fun i t => CornerAt m' i.1 t.1 ∧ CornerAt m' i.2.1 t.2.1 ∧ CornerAt m' i.2.2 t.2.2) indices new) :
    Shows m' (ts ++ new) := by
  obtain ⟨old, ho, hf⟩ := h
  refine ⟨old ++ indices, by rw [ht, ho, List.flatMap_append], List.rel_append (hf.imp ?_) hn⟩
  intro i t ⟨a, b, c⟩
  exact ⟨CornerAt.append a hv hc hu, CornerAt.append b hv hc hu, CornerAt.append c hv hc hu⟩

theorem fillPoints_append (attr : Nat → Vec2 α → α × Int × Vec2 α) (m : Mesh α) (i : Nat) (ps : List (Vec2 α)) :
    (∃ vs, (fillPoints attr m i ps).vertices = m.vertices ++ vs ∧ ∃ cs, (fillPoints attr m i ps).colors = m.colors ++ cs ∧
      ∃ us, (fillPoints attr m i ps).uvs = m.uvs ++ us ∧ ∀ j p, ps[j]? = some p →
        vs[3 * j]? = some p.x ∧ vs[3 * j + 1]? = some p.y ∧ vs[3 * j + 2]? = some (attr (i + j) p).1 ∧ cs[j]? = some (attr (i + j) p).2.1 ∧
        us[2 * j]? = some (attr (i + j) p).2.2.x ∧ us[2 * j + 1]? = some (attr (i + j) p).2.2.y) := by
  induction ps generalizing m i with
  | nil => exact ⟨[], by simp [fillPoints], [], by simp [fillPoints], [], by simp [fillPoints], by simp⟩
  | cons p ps ih =>
    obtain ⟨vs, hv, cs, hc, us, hu, hj⟩ := ih (fillPoint attr m i p) (i + 1)
    refine ⟨[p.x, p.y, (attr i p).1] ++ vs, ?_, [(attr i p).2.1] ++ cs, ?_, [(attr i p).2.2.x, (attr i p).2.2.y] ++ us, ?_, ?_⟩
    · rw [fillPoints, hv]; simp [fillPoint]
    · rw [fillPoints, hc]; simp [fillPoint]
    · rw [fillPoints, hu]; simp [fillPoint]
    · intro j q hq
      cases j with
      | zero => simp only [List.getElem?_cons_zero, Option.some.injEq] at hq; subst hq; simp
      | succ j =>
        rw [List.getElem?_cons_succ] at hq
        have e : i + 1 + j = i + (j + 1) := by omega
        have := hj j q hq
        rw [e] at this
        have e1 : 3 * (j + 1) = 3 * j + 1 + 1 + 1 := by omega
        have e2 : 2 * (j + 1) = 2 * j + 1 + 1 := by omega
        simpa [e1, e2] using this

theorem moved_get [Add α] (o : Vec3 α) (vs : List α) (k : Nat) (x : α) (h : vs[k]? = some x) :
    (moved o vs)[k]? = some (if k % 3 = 0 then x + o.x else if k % 3 = 1 then x + o.z else x + o.y) := by
  unfold moved
  rw [List.getElem?_mapIdx, h]; rfl

end ShownProof

open MeshProof ShownProof
variable {α : Type}

/-- C73: a plane shows its wall from bottom to top, all that was shown before is still shown. -/
theorem C73_plane [Add α] [Zero α] (m : Mesh α) (n : Nat) (h : WellFormed m n) (ts : List (Triangle α)) (hs : Shows m ts) (p1 p2 : Vec3 α)
    (height : α) (color : Int) (scaleX scaleY : α) :
    Shows (addPlane m p1 p2 height color scaleX scaleY) (ts ++ wall p1 p2 height color scaleX scaleY) := by
  have hv : (addPlane m p1 p2 height color scaleX scaleY).vertices = m.vertices ++ [p1.x, p1.z, p1.y, p2.x, p2.z, p2.y, p2.x, p2.z, p2.y + height,
      p1.x, p1.z, p1.y + height, p1.x, p1.z, p1.y, p2.x, p2.z, p2.y + height] := by simp [addPlane, addVertex]
  have hc : (addPlane m p1 p2 height color scaleX scaleY).colors = m.colors ++ [color, color, color, color, color, color] := by
    simp [addPlane, addVertex]
  have hu : (addPlane m p1 p2 height color scaleX scaleY).uvs = m.uvs ++ [0, 0, scaleX, 0, scaleX, scaleY, 0, scaleY, 0, 0, scaleX, scaleY] := by
    simp [addPlane, addVertex]
  refine Shows.append hs ⟨_, hv⟩ ⟨_, hc⟩ ⟨_, hu⟩ [(n + 0, n + 2, n + 1), (n + 3, n + 5, n + 4)] ?_ ?_
  · simp [addPlane, addVertex, nextIndex_eq h]; omega
  · refine .cons ⟨?_, ?_, ?_⟩ (.cons ⟨?_, ?_, ?_⟩ .nil) <;> exact CornerAt.new h hv hc hu rfl rfl rfl rfl rfl rfl

/-- C73: a triangle is shown with its corners in the given order. -/
theorem C73_triangle (m : Mesh α) (n : Nat) (h : WellFormed m n) (ts : List (Triangle α)) (hs : Shows m ts) (v0 v1 v2 : Vec3 α)
    (a b c : Vec2 α) (color : Int) :
    Shows (addTriangle m v0 v1 v2 a b c false color) (ts ++ [(⟨v0, color, a⟩, ⟨v1, color, b⟩, ⟨v2, color, c⟩)]) := by
  have hv : (addTriangle m v0 v1 v2 a b c false color).vertices = m.vertices ++ [v0.x, v0.z, v0.y, v1.x, v1.z, v1.y, v2.x, v2.z, v2.y] := by
    simp [addTriangle, addVertex]
  have hc : (addTriangle m v0 v1 v2 a b c false color).colors = m.colors ++ [color, color, color] := by simp [addTriangle, addVertex]
  have hu : (addTriangle m v0 v1 v2 a b c false color).uvs = m.uvs ++ [a.x, a.y, b.x, b.y, c.x, c.y] := by simp [addTriangle, addVertex]
  refine Shows.append hs ⟨_, hv⟩ ⟨_, hc⟩ ⟨_, hu⟩ [(n + 0, n + 1, n + 2)] ?_ ?_
  · simp [addTriangle, addVertex, nextIndex_eq h]; omega
  · refine .cons ⟨?_, ?_, ?_⟩ .nil <;> exact CornerAt.new h hv hc hu rfl rfl rfl rfl rfl rfl

/-- C73: a polygon shows the triangles of the triangle library at their points, all seen from the other side, or all from the same side if the
side is flipped. -/
theorem C73_polygon (m : Mesh α) (n : Nat) (h : WellFormed m n) (ts : List (Triangle α)) (hs : Shows m ts) (io : TriangleIo α)
    (attr : Nat → Vec2 α → α × Int × Vec2 α) (flipSide : Bool)
    (hio : ∀ t ∈ io.triangles, ∀ c ∈ [t.1, t.2.1, t.2.2], 0 ≤ c ∧ c < (io.points.length : Int)) :
    ∃ new, Shows (fillMesh m io attr flipSide) (ts ++ new) ∧
      List.Forall₂ (fun c t => ∃ a b d, IsPoint io attr c.1 a ∧ IsPoint io attr c.2.1 b ∧ IsPoint io attr c.2.2 d ∧
        if flipSide then SameSide t (a, b, d) else OtherSide t (a, b, d)) io.triangles new := by
  obtain ⟨vs, hv, cs, hc, us, hu, hj⟩ := fillPoints_append attr m 0 io.points
  have hv' : (fillMesh m io attr flipSide).vertices = m.vertices ++ vs := hv
  have hc' : (fillMesh m io attr flipSide).colors = m.colors ++ cs := hc
  have hu' : (fillMesh m io attr flipSide).uvs = m.uvs ++ us := hu
  have corner : ∀ c : Int, 0 ≤ c ∧ c < (io.points.length : Int) →
      ∃ k, IsPoint io attr c k ∧ CornerAt (fillMesh m io attr flipSide) (n + c.toNat) k := by
    intro c ⟨h0, h1⟩
    have hl : c.toNat < io.points.length := by omega
    have hp : io.points[c.toNat]? = some io.points[c.toNat] := List.getElem?_eq_getElem hl
    have := hj c.toNat _ hp
    rw [Nat.zero_add] at this
    obtain ⟨e1, e2, e3, e4, e5, e6⟩ := this
    exact ⟨_, ⟨c.toNat, _, by omega, hp, rfl⟩, CornerAt.new h hv' hc' hu' e1 e2 e3 e4 e5 e6⟩
  have list : ∀ l : List (Int × Int × Int), (∀ t ∈ l, ∀ c ∈ [t.1, t.2.1, t.2.2], 0 ≤ c ∧ c < (io.points.length : Int)) →
      ∃ (indices : List (Nat × Nat × Nat)) (new : List (Triangle α)),
        l.flatMap (corners (n : Int) flipSide) = indices.flatMap (fun i => [(i.1 : Int), (i.2.1 : Int), (i.2.2 : Int)]) ∧
        List.Forall₂ (fun i t => CornerAt (fillMesh m io attr flipSide) i.1 t.1 ∧ CornerAt (fillMesh m io attr flipSide) i.2.1 t.2.1 ∧
          CornerAt (fillMesh m io attr flipSide) i.2.2 t.2.2) indices new ∧
        List.Forall₂ (fun c t => ∃ a b d, IsPoint io attr c.1 a ∧ IsPoint io attr c.2.1 b ∧ IsPoint io attr c.2.2 d ∧
          if flipSide then SameSide t (a, b, d) else OtherSide t (a, b, d)) l new := by
    intro l hl
    induction l with
    | nil => exact ⟨[], [], rfl, .nil, .nil⟩
    | cons t l ih =>
      obtain ⟨indices, new, h1, h2, h3⟩ := ih fun t ht => hl t (List.mem_cons_of_mem _ ht)
      obtain ⟨c0, c1, c2⟩ := t
      have hr := hl _ (List.mem_cons_self ..)
      have r0 := hr c0 (by simp)
      have r1 := hr c1 (by simp)
      have r2 := hr c2 (by simp)
      obtain ⟨k0, p0, q0⟩ := corner c0 r0
      obtain ⟨k1, p1, q1⟩ := corner c1 r1
      obtain ⟨k2, p2, q2⟩ := corner c2 r2
      have n0 : (n : Int) + c0 = ((n + c0.toNat : Nat) : Int) := by omega
      have n1 : (n : Int) + c1 = ((n + c1.toNat : Nat) : Int) := by omega
      have n2 : (n : Int) + c2 = ((n + c2.toNat : Nat) : Int) := by omega
      cases flipSide with
      | true =>
        refine ⟨(n + c2.toNat, n + c0.toNat, n + c1.toNat) :: indices, (k2, k0, k1) :: new, ?_, .cons ⟨q2, q0, q1⟩ h2,
          .cons ⟨k0, k1, k2, p0, p1, p2, by simp [SameSide]⟩ h3⟩
        rw [List.flatMap_cons, List.flatMap_cons, h1]
        simp [corners, n0, n1, n2]
      | false =>
        refine ⟨(n + c1.toNat, n + c0.toNat, n + c2.toNat) :: indices, (k1, k0, k2) :: new, ?_, .cons ⟨q1, q0, q2⟩ h2,
          .cons ⟨k0, k1, k2, p0, p1, p2, by simp [OtherSide, SameSide]⟩ h3⟩
        rw [List.flatMap_cons, List.flatMap_cons, h1]
        simp [corners, n0, n1, n2]
  obtain ⟨indices, new, h1, h2, h3⟩ := list io.triangles hio
  refine ⟨new, Shows.append hs ⟨_, hv'⟩ ⟨_, hc'⟩ ⟨_, hu'⟩ indices ?_ h2, h3⟩
  have ht := (fillPoints_lengths attr m 0 io.points).2.2.2.1
  rw [← h1]
  show (fillPoints attr m 0 io.points).triangles ++ _ = _
  rw [ht, nextIndex_eq h]

/-- C73: the copy of a mesh shows its triangles moved, after those which were shown before. -/
theorem C73_copy [Add α] (source destination : Mesh α) (k n : Nat) (hk : WellFormed source k) (hn : WellFormed destination n)
    (ts td : List (Triangle α)) (hs : Shows source ts) (hd : Shows destination td) (offset : Vec3 α) :
    ∃ m', copyMesh offset source destination = .ok m' ∧
      Shows m' (td ++ ts.map fun t => (t.1.move offset, t.2.1.move offset, t.2.2.move offset)) := by
  refine ⟨_, copyMesh_eq offset hk, ?_⟩
  obtain ⟨indices, hi, hf⟩ := hs
  refine Shows.append hd ⟨_, rfl⟩ ⟨_, rfl⟩ ⟨_, rfl⟩ (indices.map fun i => (n + i.1, n + i.2.1, n + i.2.2)) ?_ ?_
  · simp only [hi, nextIndex_eq hn, List.append_cancel_left_eq]
    rw [List.map_flatMap, List.flatMap_map]
    congr 1
    funext i
    simp [Int.add_comm]
  · rw [List.forall₂_map_left_iff, List.forall₂_map_right_iff]
    refine hf.imp ?_
    intro i t ⟨a, b, c⟩
    have move : ∀ {j : Nat} {c : Corner α}, CornerAt source j c → CornerAt (⟨destination.vertices ++ moved offset source.vertices,
        destination.triangles ++ source.triangles.map (· + nextIndex destination), destination.colors ++ source.colors,
        destination.uvs ++ source.uvs, destination.uvMap ++ shiftMap (destination.uvs.length : Int) source.uvMap⟩ : Mesh α) (n + j) (c.move offset) := by
      intro j c hc
      refine CornerAt.new hn rfl rfl rfl ?_ ?_ ?_ hc.color hc.u hc.v
      · rw [moved_get offset _ _ _ hc.east, if_pos (by omega)]; rfl
      · rw [moved_get offset _ _ _ hc.north, if_neg (by omega), if_pos (by omega)]; rfl
      · rw [moved_get offset _ _ _ hc.up, if_neg (by omega), if_neg (by omega)]; rfl
    exact ⟨move a, move b, move c⟩

/-- C73: writing the texture does not change what is shown. -/
theorem C73_texture (m m' : Mesh α) (ts : List (Triangle α)) (hs : Shows m ts) (t : Texture) (h : writeTexture m t = .ok m') : Shows m' ts := by
  have key : ∀ map, Shows { m with uvMap := map } ts := by
    intro map
    obtain ⟨i, h1, h2⟩ := hs
    exact ⟨i, h1, h2.imp fun i t ⟨a, b, c⟩ => ⟨⟨a.1, a.2, a.3, a.4, a.5, a.6⟩, ⟨b.1, b.2, b.3, b.4, b.5, b.6⟩, ⟨c.1, c.2, c.3, c.4, c.5, c.6⟩⟩⟩
  unfold writeTexture at h
  simp only at h
  split at h
  · cases h; exact key _
  · cases hc : compareBack m.uvMap.reverse [t.height, t.width, t.y, t.x, t.atlasHeight, t.atlasWidth, t.id] with
    | ok same =>
      rw [hc] at h
      simp only [Outcome.bind] at h
      split at h
      · split at h
        · cases h
        · cases h; exact key _
      · cases h; exact key _
    | throw e => rw [hc] at h; cases h
    | ub w => rw [hc] at h; cases h

/-- A wall and a triangle on an empty mesh. -/
example : Shows (addTriangle (addPlane ({} : Mesh Int) ⟨0, 5, 0⟩ ⟨4, 5, 3⟩ 10 7 1 2) ⟨0, 0, 0⟩ ⟨1, 0, 0⟩ ⟨0, 1, 0⟩ ⟨0, 0⟩ ⟨1, 0⟩ ⟨1, 1⟩ false 9)
    (wall ⟨0, 5, 0⟩ ⟨4, 5, 3⟩ 10 7 1 2 ++ [(⟨⟨0, 0, 0⟩, 9, ⟨0, 0⟩⟩, ⟨⟨1, 0, 0⟩, 9, ⟨1, 0⟩⟩, ⟨⟨0, 1, 0⟩, 9, ⟨1, 1⟩⟩)]) := by
  have e : WellFormed ({} : Mesh Int) 0 := ⟨rfl, rfl, rfl, ⟨0, rfl⟩, by simp⟩
  exact C73_triangle _ _ (addPlane_wf e ..) _ (by simpa using C73_plane _ _ e [] ⟨[], rfl, .nil⟩ ⟨0, 5, 0⟩ ⟨4, 5, 3⟩ 10 7 1 2) ..

end Verif.Props
