import Mathlib.Algebra.Group.Basic
import Verif.Props.MeshBuilderSpec

/-! # C43, C44 and C57: meshes -/
namespace Verif.Props
open Verif.MeshBuilder Verif.MeshSpec

namespace MeshProof
variable {α : Type}

theorem addVertex_lengths (m : Mesh α) (v : Vec3 α) (c t : Int) (uv : Vec2 α) :
    (addVertex m v c t uv).vertices.length = m.vertices.length + 3 ∧ (addVertex m v c t uv).colors.length = m.colors.length + 1 ∧
    (addVertex m v c t uv).uvs.length = m.uvs.length + 2 ∧ (addVertex m v c t uv).triangles = m.triangles ++ [t] ∧
    (addVertex m v c t uv).uvMap = m.uvMap := by
  simp [addVertex]

theorem nextIndex_eq {m : Mesh α} {n : Nat} (h : WellFormed m n) : nextIndex m = n := by
  unfold nextIndex; rw [h.vertices]; omega

theorem addPlane_wf [Add α] [Zero α] {m : Mesh α} {n : Nat} (h : WellFormed m n) (p1 p2 : Vec3 α) (ho : α) (color : Int) (sx sy : α) :
    WellFormed (addPlane m p1 p2 ho color sx sy) (n + 6) := by
  unfold addPlane
  simp only [nextIndex_eq h]
  constructor
  · simp only [addVertex_lengths, h.vertices]; omega
  · simp only [addVertex_lengths, h.colors]
  · simp only [addVertex_lengths, h.uvs]; omega
  · simp only [addVertex_lengths, List.length_append, List.length_cons, List.length_nil]
    have := h.triangles; omega
  · intro t ht
    simp only [addVertex_lengths, List.mem_append, List.mem_cons, List.not_mem_nil, or_false] at ht
    by_cases hm : t ∈ m.triangles
    · have := h.range t hm; omega
    · simp only [hm, false_or] at ht; omega

theorem addTriangle_wf {m : Mesh α} {n : Nat} (h : WellFormed m n) (v0 v1 v2 : Vec3 α) (a b c : Vec2 α) (back : Bool) (color : Int) :
    WellFormed (addTriangle m v0 v1 v2 a b c back color) (n + if back then 6 else 3) := by
  unfold addTriangle
  simp only [nextIndex_eq h]
  cases back with
  | false =>
    simp only [Bool.false_eq_true, if_false]
    constructor
    · simp only [addVertex_lengths, h.vertices]; omega
    · simp only [addVertex_lengths, h.colors]
    · simp only [addVertex_lengths, h.uvs]; omega
    · simp only [addVertex_lengths, List.length_append, List.length_cons, List.length_nil]
      have := h.triangles; omega
    · intro t ht
      simp only [addVertex_lengths, List.mem_append, List.mem_cons, List.not_mem_nil, or_false] at ht
      by_cases hm : t ∈ m.triangles
      · have := h.range t hm; omega
      · simp only [hm, false_or] at ht; omega
  | true =>
    simp only [if_true]
    constructor
    · simp only [addVertex_lengths, h.vertices]; omega
    · simp only [addVertex_lengths, h.colors]
    · simp only [addVertex_lengths, h.uvs]; omega
    · simp only [addVertex_lengths, List.length_append, List.length_cons, List.length_nil]
      have := h.triangles; omega
    · intro t ht
      simp only [addVertex_lengths, List.mem_append, List.mem_cons, List.not_mem_nil, or_false] at ht
      by_cases hm : t ∈ m.triangles
      · have := h.range t hm; omega
      · simp only [hm, false_or] at ht; omega

theorem fillPoints_lengths (attr : Nat → Vec2 α → α × Int × Vec2 α) (m : Mesh α) (i : Nat) (ps : List (Vec2 α)) :
    (fillPoints attr m i ps).vertices.length = m.vertices.length + 3 * ps.length ∧
    (fillPoints attr m i ps).colors.length = m.colors.length + ps.length ∧
    (fillPoints attr m i ps).uvs.length = m.uvs.length + 2 * ps.length ∧ (fillPoints attr m i ps).triangles = m.triangles ∧
    (fillPoints attr m i ps).uvMap = m.uvMap := by
  induction ps generalizing m i with
  | nil => simp [fillPoints]
  | cons p ps ih =>
    obtain ⟨h1, h2, h3, h4, h5⟩ := ih (fillPoint attr m i p) (i + 1)
    unfold fillPoints
    rw [h1, h2, h3, h4, h5]
    simp [fillPoint]
    omega

theorem corners_len (start : Int) (flip : Bool) (ts : List (Int × Int × Int)) : (ts.flatMap (corners start flip)).length = 3 * ts.length := by
  induction ts with
  | nil => rfl
  | cons t ts ih =>
    rw [List.flatMap_cons, List.length_append, ih]
    have : (corners start flip t).length = 3 := by obtain ⟨c0, c1, c2⟩ := t; unfold corners; simp only; split <;> rfl
    simp only [this, List.length_cons]; omega

theorem fillMesh_wf {m : Mesh α} {n : Nat} (h : WellFormed m n) (io : TriangleIo α) (attr : Nat → Vec2 α → α × Int × Vec2 α) (flip : Bool)
    (hio : ∀ t ∈ io.triangles, ∀ c ∈ [t.1, t.2.1, t.2.2], 0 ≤ c ∧ c < (io.points.length : Int)) :
    WellFormed (fillMesh m io attr flip) (n + io.points.length) := by
  obtain ⟨h1, h2, h3, h4, h5⟩ := fillPoints_lengths attr m 0 io.points
  unfold fillMesh
  simp only [nextIndex_eq h]
  constructor
  · simp only [h1, h.vertices]; omega
  · simp only [h2, h.colors]
  · simp only [h3, h.uvs]; omega
  · simp only [h4, List.length_append, corners_len]
    have := h.triangles; omega
  · intro t ht
    simp only [h4, List.mem_append, List.mem_flatMap] at ht
    rcases ht with ht | ⟨c, hc, ht⟩
    · have := h.range t ht; omega
    · obtain ⟨c0, c1, c2⟩ := c
      have := hio _ hc
      simp only [List.mem_cons, List.not_mem_nil, or_false] at this
      have e0 := this c0 (by simp)
      have e1 := this c1 (by simp)
      have e2 := this c2 (by simp)
      simp only [corners] at ht
      split at ht <;> simp only [List.mem_cons, List.not_mem_nil, or_false] at ht <;> omega

theorem moved_cons [Add α] (offset : Vec3 α) (x y z : α) (rest : List α) :
    moved offset (x :: y :: z :: rest) = (x + offset.x) :: (y + offset.z) :: (z + offset.y) :: moved offset rest := by
  unfold moved
  simp only [List.mapIdx_cons]
  have e : (fun i v => (fun i v => if i % 3 = 0 then v + offset.x else if i % 3 = 1 then v + offset.z else v + offset.y) (i + 1 + 1 + 1) v) =
      (fun (i : Nat) (v : α) => if i % 3 = 0 then v + offset.x else if i % 3 = 1 then v + offset.z else v + offset.y) := by
    funext i v
    have : (i + 1 + 1 + 1) % 3 = i % 3 := by omega
    simp only [this]
  simp only at e
  rw [e]
  simp

theorem shiftVertices_ok [Add α] (offset : Vec3 α) (n : Nat) (vs : List α) (h : vs.length = 3 * n) :
    shiftVertices offset vs = .ok (moved offset vs) := by
  induction n generalizing vs with
  | zero =>
    have : vs = [] := List.length_eq_zero_iff.1 (by omega)
    subst this; rfl
  | succ n ih =>
    match vs, h with
    | x :: y :: z :: rest, h =>
      simp only [List.length_cons] at h
      rw [moved_cons]
      unfold shiftVertices
      rw [ih rest (by omega)]
      rfl
    | [], h => simp at h
    | [_], h => simp only [List.length_cons, List.length_nil] at h; omega
    | [_, _], h => simp only [List.length_cons, List.length_nil] at h; omega

theorem moved_length [Add α] (offset : Vec3 α) (vs : List α) : (moved offset vs).length = vs.length := by
  simp [moved]

theorem copyMesh_eq [Add α] (offset : Vec3 α) {source destination : Mesh α} {k : Nat} (hs : WellFormed source k) :
    copyMesh offset source destination = .ok {
      vertices := destination.vertices ++ moved offset source.vertices
      triangles := destination.triangles ++ source.triangles.map (· + nextIndex destination)
      colors := destination.colors ++ source.colors
      uvs := destination.uvs ++ source.uvs
      uvMap := destination.uvMap ++ shiftMap (destination.uvs.length : Int) source.uvMap } := by
  unfold copyMesh
  rw [shiftVertices_ok offset k _ hs.vertices]
  rfl

theorem copyMesh_wf [Add α] (offset : Vec3 α) {source destination m' : Mesh α} {k n : Nat} (hs : WellFormed source k)
    (hd : WellFormed destination n) (h : copyMesh offset source destination = .ok m') : WellFormed m' (n + k) := by
  rw [copyMesh_eq offset hs] at h
  cases h
  constructor
  · simp only [List.length_append, moved_length, hs.vertices, hd.vertices]; omega
  · simp only [List.length_append, hs.colors, hd.colors]
  · simp only [List.length_append, hs.uvs, hd.uvs]; omega
  · simp only [List.length_append, List.length_map]
    have := hs.triangles; have := hd.triangles; omega
  · intro t ht
    simp only [List.mem_append, List.mem_map] at ht
    rw [nextIndex_eq hd] at ht
    rcases ht with ht | ⟨u, hu, rfl⟩
    · have := hd.range t ht; omega
    · have := hs.range u hu; omega

theorem setHeights_length (f : Nat → Vec2 α → α → α) (n i : Nat) (vs : List α) (h : vs.length = 3 * n) :
    (setHeights f i vs).length = 3 * n := by
  induction n generalizing vs i with
  | zero =>
    have : vs = [] := List.length_eq_zero_iff.1 (by omega)
    subst this; rfl
  | succ n ih =>
    match vs, h with
    | x :: y :: z :: rest, h =>
      simp only [List.length_cons] at h
      unfold setHeights
      simp only [List.length_cons, ih (i + 3) rest (by omega)]; omega
    | [], h => simp at h
    | [_], h => simp only [List.length_cons, List.length_nil] at h; omega
    | [_, _], h => simp only [List.length_cons, List.length_nil] at h; omega

/-! ## Texture map -/

theorem compareBack_seven (a b c d e f g a' b' c' d' e' f' g' : Int) (rest : List Int) :
    compareBack (a :: b :: c :: d :: e :: f :: g :: rest) [a', b', c', d', e', f', g'] =
      .ok (decide (a = a' ∧ b = b' ∧ c = c' ∧ d = d' ∧ e = e' ∧ f = f' ∧ g = g')) := by
  simp only [compareBack]
  repeat' split
  all_goals simp_all

theorem covered_append (rs : List Record) (r : Record) : covered (rs ++ [r]) = r.stop := by simp [covered]

theorem sorted_le_covered {rs : List Record} (hs : (rs.map Record.stop).Pairwise (· ≤ ·)) : ∀ r ∈ rs, r.stop ≤ covered rs := by
  intro r hr
  rcases List.eq_nil_or_concat rs with rfl | ⟨init, last, rfl⟩
  · simp at hr
  · rw [List.concat_eq_append] at hs hr ⊢
    rw [covered_append]
    rw [List.map_append, List.pairwise_append] at hs
    rcases List.mem_append.1 hr with h | h
    · exact hs.2.2 _ (List.mem_map.2 ⟨r, h, rfl⟩) _ (by simp)
    · rw [List.mem_singleton.1 h]; exact Nat.le_refl _

theorem find_none_of_covered {rs : List Record} (hs : (rs.map Record.stop).Pairwise (· ≤ ·)) {k : Nat} (h : covered rs ≤ k) :
    (rs.find? fun r => k < r.stop) = none := by
  rw [List.find?_eq_none]
  intro r hr
  have := sorted_le_covered hs r hr
  simp only [decide_eq_true_eq]; omega

theorem find_some_of_covered {rs : List Record} {k : Nat} (h : k < covered rs) : ∃ r, (rs.find? fun r => k < r.stop) = some r := by
  rcases List.eq_nil_or_concat rs with rfl | ⟨init, last, rfl⟩
  · simp [covered] at h
  · rw [List.concat_eq_append] at h ⊢
    rw [covered_append] at h
    cases hf : (init ++ [last]).find? fun r => decide (k < r.stop) with
    | some r => exact ⟨r, rfl⟩
    | none =>
      rw [List.find?_eq_none] at hf
      have := hf last (by simp)
      simp only [decide_eq_true_eq] at this; omega

theorem flatMap_length (rs : List Record) : (rs.flatMap Record.entries).length = 8 * rs.length := by
  induction rs with
  | nil => rfl
  | cons r rs ih => rw [List.flatMap_cons, List.length_append, ih]; simp only [Record.entries, List.length_cons, List.length_nil]; omega

theorem flatMap_isEmpty (rs : List Record) : (rs.flatMap Record.entries).isEmpty = rs.isEmpty := by
  cases rs <;> simp [Record.entries]

/-- A record of the whole rest of the coordinates. -/
def full (m : Mesh α) (t : Texture) : Record := ⟨m.uvs.length, t⟩

theorem sorted_snoc {rs : List Record} {r : Record} (hs : (rs.map Record.stop).Pairwise (· ≤ ·)) (h : ∀ x ∈ rs, x.stop ≤ r.stop) :
    ((rs ++ [r]).map Record.stop).Pairwise (· ≤ ·) := by
  rw [List.map_append, List.pairwise_append]
  refine ⟨hs, by simp, ?_⟩
  intro a ha b hb
  simp only [List.map_cons, List.map_nil, List.mem_singleton] at hb
  obtain ⟨x, hx, rfl⟩ := List.mem_map.1 ha
  rw [hb]; exact h x hx

theorem textureOf_snoc {rs : List Record} (hs : (rs.map Record.stop).Pairwise (· ≤ ·)) (r : Record) (k : Nat) :
    textureOf (rs ++ [r]) k = if k < covered rs then textureOf rs k else if k < r.stop then some r.texture else none := by
  unfold textureOf
  rw [List.find?_append]
  by_cases h : k < covered rs
  · obtain ⟨x, hx⟩ := find_some_of_covered h
    rw [if_pos h, hx]; rfl
  · rw [if_neg h, find_none_of_covered hs (by omega)]
    by_cases h2 : k < r.stop
    · simp [h2]
    · simp [h2]

theorem writeTexture_cases (m : Mesh α) (rs : List Record) (h : Mapped m rs) (t : Texture) :
    (∃ init r, rs = init ++ [r] ∧ r.texture = t ∧ ∃ m', writeTexture m t = .ok m' ∧ m' = { m with uvMap := (init ++ [full m t]).flatMap Record.entries }) ∨
    ∃ m', writeTexture m t = .ok m' ∧ m' = { m with uvMap := (rs ++ [full m t]).flatMap Record.entries } := by
  have happ : ∀ rs : List Record, m.uvMap = rs.flatMap Record.entries →
      m.uvMap ++ [(m.uvs.length : Int), t.id, t.atlasWidth, t.atlasHeight, t.x, t.y, t.width, t.height] =
      (rs ++ [full m t]).flatMap Record.entries := by
    intro rs h
    rw [List.flatMap_append, h]; rfl
  rcases List.eq_nil_or_concat rs with rfl | ⟨init, r, rfl⟩
  · right
    refine ⟨_, ?_, rfl⟩
    unfold writeTexture
    have : m.uvMap = [] := h.map
    simp only [this, List.isEmpty_nil, if_true, List.nil_append]
    rfl
  · rw [List.concat_eq_append] at h ⊢
    have hmap := h.map
    have hne : m.uvMap.isEmpty = false := by rw [hmap, flatMap_isEmpty]; simp
    have hrev : m.uvMap.reverse = r.texture.height :: r.texture.width :: r.texture.y :: r.texture.x :: r.texture.atlasHeight ::
        r.texture.atlasWidth :: r.texture.id :: (r.stop : Int) :: (init.flatMap Record.entries).reverse := by
      rw [hmap, List.flatMap_append, List.reverse_append]
      simp [Record.entries]
    have hlen : m.uvMap.length = 8 * init.length + 8 := by
      rw [hmap, flatMap_length, List.length_append, List.length_singleton]; omega
    by_cases heq : r.texture = t
    · left
      refine ⟨init, r, rfl, heq, _, ?_, rfl⟩
      unfold writeTexture
      simp only [hne, Bool.false_eq_true, if_false, hrev, compareBack_seven, Outcome.bind]
      rw [if_pos (by subst heq; simp), if_neg (by omega)]
      congr 2
      rw [hlen, hmap, List.flatMap_append, List.flatMap_append]
      have : 8 * init.length + 8 - 8 = (init.flatMap Record.entries).length := by rw [flatMap_length]; omega
      rw [this, List.set_append_right _ _ (Nat.le_refl _), Nat.sub_self]
      subst heq
      simp [Record.entries, full]
    · right
      refine ⟨_, ?_, rfl⟩
      unfold writeTexture
      simp only [hne, Bool.false_eq_true, if_false, hrev, compareBack_seven, Outcome.bind]
      rw [if_neg, happ _ hmap]
      simp only [decide_eq_true_eq]
      rintro ⟨h1, h2, h3, h4, h5, h6, h7⟩
      apply heq
      obtain ⟨s, ⟨i, aw, ah, x, y, w, hh⟩⟩ := r
      obtain ⟨i', aw', ah', x', y', w', hh'⟩ := t
      simp_all

theorem shiftMap_records (start : Nat) (rs : List Record) :
    shiftMap (start : Int) (rs.flatMap Record.entries) = (rs.map fun r => (⟨r.stop + start, r.texture⟩ : Record)).flatMap Record.entries := by
  induction rs with
  | nil => rfl
  | cons r rs ih =>
    rw [List.flatMap_cons, List.map_cons, List.flatMap_cons, ← ih]
    simp [Record.entries, shiftMap]

end MeshProof

open MeshProof
variable {α : Type}

/-- C43: every mesh which was built by any sequence of operations is well formed. -/
theorem C43_well_formed [Add α] [Zero α] (m : Mesh α) (h : Built m) : ∃ n, WellFormed m n := by
  induction h with
  | empty => exact ⟨0, rfl, rfl, rfl, ⟨0, rfl⟩, by simp⟩
  | clear _ _ => exact ⟨0, rfl, rfl, rfl, ⟨0, rfl⟩, by simp [clear]⟩
  | polygon attr flipSide _ hio ih => obtain ⟨n, hn⟩ := ih; exact ⟨_, fillMesh_wf hn _ attr flipSide hio⟩
  | plane p1 p2 ho color sx sy _ ih => obtain ⟨n, hn⟩ := ih; exact ⟨_, addPlane_wf hn p1 p2 ho color sx sy⟩
  | triangle v0 v1 v2 a b c back color _ ih => obtain ⟨n, hn⟩ := ih; exact ⟨_, addTriangle_wf hn v0 v1 v2 a b c back color⟩
  | @texture m m' t _ hw ih =>
    obtain ⟨n, hn⟩ := ih
    refine ⟨n, ?_⟩
    unfold writeTexture at hw
    have keep : ∀ (m m' : Mesh α) uvMap, WellFormed m n → .ok { m with uvMap := uvMap } = Outcome.ok m' → WellFormed m' n := by
      intro m m' u hm he
      cases he
      exact ⟨hm.vertices, hm.colors, hm.uvs, hm.triangles, hm.range⟩
    simp only at hw
    split at hw
    · exact keep _ _ _ hn hw
    · cases hc : compareBack m.uvMap.reverse [t.height, t.width, t.y, t.x, t.atlasHeight, t.atlasWidth, t.id] with
      | throw e => rw [hc] at hw; cases hw
      | ub w => rw [hc] at hw; cases hw
      | ok b =>
        rw [hc] at hw
        simp only [Outcome.bind] at hw
        split at hw
        · split at hw
          · cases hw
          · exact keep _ _ _ hn hw
        · exact keep _ _ _ hn hw
  | copy offset _ _ hc ih1 ih2 =>
    obtain ⟨k, hk⟩ := ih1
    obtain ⟨n, hn⟩ := ih2
    exact ⟨_, copyMesh_wf offset hk hn hc⟩
  | heights f _ ih =>
    obtain ⟨n, hn⟩ := ih
    exact ⟨n, by simp only; exact setHeights_length f n 0 _ hn.vertices, hn.colors, hn.uvs, hn.triangles, hn.range⟩

/-- C43: the vertices of a triangle are found at the indices of the triangle. -/
theorem C43_triangle (m : Mesh α) (n : Nat) (h : WellFormed m n) (v0 v1 v2 : Vec3 α) (a b c : Vec2 α) (color : Int) :
    let m' := addTriangle m v0 v1 v2 a b c false color
    ∃ i0 i1 i2 : Nat, m'.triangles = m.triangles ++ [(i0 : Int), i1, i2] ∧
      m'.vertices[3 * i0]? = some v0.x ∧ m'.vertices[3 * i0 + 1]? = some v0.z ∧ m'.vertices[3 * i0 + 2]? = some v0.y ∧
      m'.vertices[3 * i1]? = some v1.x ∧ m'.vertices[3 * i1 + 1]? = some v1.z ∧ m'.vertices[3 * i1 + 2]? = some v1.y ∧
      m'.vertices[3 * i2]? = some v2.x ∧ m'.vertices[3 * i2 + 1]? = some v2.z ∧ m'.vertices[3 * i2 + 2]? = some v2.y := by
  have hv : (addTriangle m v0 v1 v2 a b c false color).vertices = m.vertices ++ [v0.x, v0.z, v0.y, v1.x, v1.z, v1.y, v2.x, v2.z, v2.y] := by
    simp [addTriangle, addVertex]
  have ht : (addTriangle m v0 v1 v2 a b c false color).triangles = m.triangles ++ [(n : Int), ((n + 1 : Nat) : Int), ((n + 2 : Nat) : Int)] := by
    simp [addTriangle, addVertex, nextIndex_eq h]; omega
  refine ⟨n, n + 1, n + 2, ht, ?_⟩
  rw [hv]
  have e : ∀ j, (m.vertices ++ [v0.x, v0.z, v0.y, v1.x, v1.z, v1.y, v2.x, v2.z, v2.y])[3 * n + j]? =
      [v0.x, v0.z, v0.y, v1.x, v1.z, v1.y, v2.x, v2.z, v2.y][j]? := by
    intro j
    rw [List.getElem?_append_right (by rw [h.vertices]; omega), h.vertices, Nat.add_sub_cancel_left]
  exact ⟨e 0, e 1, e 2, e 3, e 4, e 5, e 6, e 7, e 8⟩

/-- The back side of a triangle (an option which no caller sets) does not use the indices of its vertices: its triangle has the corners v2, v2
and v1, so the back stays invisible. -/
theorem C43_violated_back (v0 v1 v2 : Vec3 α) (a b c : Vec2 α) (color : Int) :
    let m := addTriangle ({} : Mesh α) v0 v1 v2 a b c true color
    m.triangles = [0, 1, 2, 2, 3, 4] ∧ m.vertices =
      [v0.x, v0.z, v0.y, v1.x, v1.z, v1.y, v2.x, v2.z, v2.y, v2.x, v2.z, v2.y, v1.x, v1.z, v1.y, v0.x, v0.z, v0.y] := by
  constructor
  · simp [addTriangle, addVertex, nextIndex]
  · rfl

/-- C44: writing a texture to a mesh with a proper map gives a proper map which covers all coordinates: the coordinates which were
covered before keep their texture, all others get the new one. -/
theorem C44_write (m : Mesh α) (rs : List Record) (h : Mapped m rs) (t : Texture) :
    ∃ m' rs', writeTexture m t = .ok m' ∧ m'.uvs = m.uvs ∧ m'.vertices = m.vertices ∧ m'.triangles = m.triangles ∧ m'.colors = m.colors ∧
      Mapped m' rs' ∧ covered rs' = m.uvs.length ∧
      ∀ k, textureOf rs' k = if k < covered rs then textureOf rs k else if k < m.uvs.length then some t else none := by
  rcases writeTexture_cases m rs h t with ⟨init, r, rfl, rfl, m', hw, rfl⟩ | ⟨m', hw, rfl⟩
  · have hs : (init.map Record.stop).Pairwise (· ≤ ·) := by
      have := h.sorted
      rw [List.map_append, List.pairwise_append] at this
      exact this.1
    refine ⟨_, init ++ [full m r.texture], hw, rfl, rfl, rfl, rfl, ⟨rfl, ?_, ?_⟩, covered_append _ _, ?_⟩
    · apply sorted_snoc hs
      intro x hx
      exact h.bounded x (List.mem_append_left _ hx)
    · intro x hx
      rcases List.mem_append.1 hx with hx | hx
      · exact h.bounded x (List.mem_append_left _ hx)
      · rw [List.mem_singleton.1 hx]; exact Nat.le_refl _
    · intro k
      rw [textureOf_snoc hs, textureOf_snoc hs, covered_append]
      have hle : r.stop ≤ m.uvs.length := h.bounded r (by simp)
      have hcov : covered init ≤ r.stop := by
        rcases List.eq_nil_or_concat init with rfl | ⟨i, l, rfl⟩
        · simp [covered]
        · rw [List.concat_eq_append, covered_append]
          have := h.sorted
          rw [List.map_append, List.pairwise_append] at this
          exact this.2.2 _ (List.mem_map.2 ⟨l, by simp, rfl⟩) _ (by simp)
      change (if k < covered init then _ else if k < m.uvs.length then some r.texture else none) = _
      by_cases h1 : k < covered init
      · rw [if_pos h1, if_pos (by omega), if_pos h1]
      · rw [if_neg h1]
        by_cases h2 : k < r.stop
        · rw [if_pos h2, if_pos (by omega), if_neg h1, if_pos h2]
        · rw [if_neg h2]
  · refine ⟨_, rs ++ [full m t], hw, rfl, rfl, rfl, rfl, ⟨rfl, sorted_snoc h.sorted fun x hx => h.bounded x hx, ?_⟩, covered_append _ _, ?_⟩
    · intro x hx
      rcases List.mem_append.1 hx with hx | hx
      · exact h.bounded x hx
      · rw [List.mem_singleton.1 hx]; exact Nat.le_refl _
    · intro k
      exact textureOf_snoc h.sorted _ k

/-- C44: copying a mesh keeps the map proper, the textures of the destination, and gives the copied coordinates the textures they have in
the source. -/
theorem C44_copy [Add α] (offset : Vec3 α) (source destination : Mesh α) (k : Nat) (hk : WellFormed source k) (rs rd : List Record)
    (hs : Mapped source rs) (hd : Mapped destination rd) :
    ∃ m' r', copyMesh offset source destination = .ok m' ∧ m'.uvs = destination.uvs ++ source.uvs ∧ Mapped m' r' ∧
      (∀ k, k < covered rd → textureOf r' k = textureOf rd k) ∧
      ∀ k, textureOf r' (destination.uvs.length + k) = textureOf rs k := by
  refine ⟨_, rd ++ rs.map fun r => ⟨r.stop + destination.uvs.length, r.texture⟩, copyMesh_eq offset hk, rfl, ⟨?_, ?_, ?_⟩, ?_, ?_⟩
  · simp only
    rw [hs.map, hd.map, List.flatMap_append, shiftMap_records]
  · rw [List.map_append, List.pairwise_append]
    refine ⟨hd.sorted, ?_, ?_⟩
    · rw [List.map_map]
      have := hs.sorted
      rw [List.pairwise_map] at this ⊢
      exact this.imp fun h => Nat.add_le_add_right h _
    · intro a ha b hb
      obtain ⟨x, hx, rfl⟩ := List.mem_map.1 ha
      rw [List.map_map] at hb
      obtain ⟨y, hy, rfl⟩ := List.mem_map.1 hb
      have := hd.bounded x hx
      simp only [Function.comp_apply]; omega
  · intro r hr
    rw [List.length_append]
    rcases List.mem_append.1 hr with hr | hr
    · have := hd.bounded r hr; omega
    · obtain ⟨y, hy, rfl⟩ := List.mem_map.1 hr
      have := hs.bounded y hy
      simp only; omega
  · intro k hk
    unfold textureOf
    obtain ⟨x, hx⟩ := find_some_of_covered hk
    rw [List.find?_append, hx]; rfl
  · intro k
    unfold textureOf
    have hnone : (rd.find? fun r => decide (destination.uvs.length + k < r.stop)) = none := by
      rw [List.find?_eq_none]
      intro r hr
      have := hd.bounded r hr
      simp only [decide_eq_true_eq]; omega
    rw [List.find?_append, hnone, Option.none_or, List.find?_map]
    have : ((fun r : Record => decide (destination.uvs.length + k < r.stop)) ∘ fun r : Record => (⟨r.stop + destination.uvs.length, r.texture⟩ : Record)) =
        fun r => decide (k < r.stop) := by
      funext r
      simp only [Function.comp_apply, decide_eq_decide]; omega
    rw [this, Option.map_map]
    rfl

/-- C44: the texture map of a mesh which was built by any sequence of operations is proper. -/
theorem C44_map [Add α] [Zero α] (m : Mesh α) (h : Built m) : ∃ rs, Mapped m rs := by
  have grow : ∀ (m m' : Mesh α) rs, Mapped m rs → m'.uvMap = m.uvMap → m.uvs.length ≤ m'.uvs.length → Mapped m' rs := by
    intro m m' rs hm h1 h2
    exact ⟨h1.trans hm.map, hm.sorted, fun r hr => Nat.le_trans (hm.bounded r hr) h2⟩
  induction h with
  | empty => exact ⟨[], rfl, by simp, by simp⟩
  | clear _ _ => exact ⟨[], rfl, by simp, by simp⟩
  | @polygon m io attr flipSide _ hio ih =>
    obtain ⟨rs, hrs⟩ := ih
    obtain ⟨h1, h2, h3, h4, h5⟩ := fillPoints_lengths attr m 0 io.points
    refine ⟨rs, grow _ _ _ hrs ?_ ?_⟩
    · unfold fillMesh; exact h5
    · unfold fillMesh; simp only; rw [h3]; omega
  | plane p1 p2 ho color sx sy _ ih =>
    obtain ⟨rs, hrs⟩ := ih
    refine ⟨rs, grow _ _ _ hrs ?_ ?_⟩
    · simp only [addPlane, addVertex_lengths]
    · simp only [addPlane, addVertex_lengths]; omega
  | triangle v0 v1 v2 a b c back color _ ih =>
    obtain ⟨rs, hrs⟩ := ih
    refine ⟨rs, grow _ _ _ hrs ?_ ?_⟩
    · unfold addTriangle; cases back <;> simp only [Bool.false_eq_true, if_false, if_true, addVertex_lengths]
    · unfold addTriangle; cases back <;> simp only [Bool.false_eq_true, if_false, if_true, addVertex_lengths] <;> omega
  | texture t _ hw ih =>
    obtain ⟨rs, hrs⟩ := ih
    obtain ⟨m', rs', e, -, -, -, -, h', -⟩ := C44_write _ rs hrs t
    rw [hw] at e
    cases e
    exact ⟨rs', h'⟩
  | copy offset hb _ hc ih1 ih2 =>
    obtain ⟨rs, hrs⟩ := ih1
    obtain ⟨rd, hrd⟩ := ih2
    obtain ⟨k, hk⟩ := C43_well_formed _ hb
    obtain ⟨m', r', e, -, h', -⟩ := C44_copy offset _ _ k hk rs rd hrs hrd
    rw [hc] at e
    cases e
    exact ⟨r', h'⟩
  | heights f _ ih =>
    obtain ⟨rs, hrs⟩ := ih
    exact ⟨rs, hrs.map, hrs.sorted, hrs.bounded⟩

/-- C43: no operation on built meshes reads outside of the arrays. -/
theorem C43_defined [Add α] [Zero α] (m source : Mesh α) (h : Built m) (hs : Built source) (t : Texture) (offset : Vec3 α) :
    (∃ m', writeTexture m t = .ok m') ∧ ∃ m', copyMesh offset source m = .ok m' := by
  obtain ⟨rs, hrs⟩ := C44_map m h
  obtain ⟨k, hk⟩ := C43_well_formed source hs
  obtain ⟨m', -, hw, -⟩ := C44_write m rs hrs t
  exact ⟨⟨m', hw⟩, _, copyMesh_eq offset hk⟩

/-- A mesh with both a triangle, a plane and a polygon in it. -/
example : ∃ m : Mesh Int, Built m ∧ m.triangles.length = 12 := by
  refine ⟨_, .polygon (io := ⟨[⟨0, 0⟩, ⟨1, 0⟩, ⟨0, 1⟩], [(0, 1, 2)]⟩) (fun _ _ => (0, 0, ⟨0, 0⟩)) true
    (.plane ⟨0, 0, 0⟩ ⟨1, 0, 0⟩ 3 7 1 1 (.triangle ⟨0, 0, 0⟩ ⟨1, 0, 0⟩ ⟨0, 0, 1⟩ ⟨0, 0⟩ ⟨1, 0⟩ ⟨0, 1⟩ false 7 .empty)) ?_, ?_⟩
  · decide
  · rfl

/-! ## Forest -/

namespace MeshProof
variable [AddCommGroup α]

theorem vecAt_ok {β : Type} (v : List β) (i : Nat) (h : i < v.length) : vecAt v (i : Int) = .ok v[i] := by
  unfold vecAt
  rw [if_neg (by omega)]
  simp [List.getElem?_eq_getElem h]

theorem centroid_ok (third : α → α) (m : Mesh α) (n i : Nat) (h : WellFormed m n) (hi : i + 2 < m.triangles.length) :
    ∃ c, centroid third m i = .ok c ∧ IsCentroid third m i c := by
  have vert : ∀ j, j < m.triangles.length → ∃ (t : Nat), m.triangles[j]? = some (t : Int) ∧ vecAt m.triangles (j : Int) = .ok (t : Int) ∧
      ∃ x y, m.vertices[3 * t]? = some x ∧ m.vertices[3 * t + 1]? = some y ∧ vecAt m.vertices ((t : Int) * 3) = .ok x ∧
        vecAt m.vertices ((t : Int) * 3 + 1) = .ok y := by
    intro j hj
    have hr := h.range m.triangles[j] (List.getElem_mem hj)
    obtain ⟨t, ht⟩ : ∃ t : Nat, m.triangles[j] = (t : Int) := ⟨m.triangles[j].toNat, by omega⟩
    have hv := h.vertices
    have e1 : (t : Int) * 3 = ((3 * t : Nat) : Int) := by push_cast; omega
    have e2 : (t : Int) * 3 + 1 = ((3 * t + 1 : Nat) : Int) := by push_cast; omega
    refine ⟨t, by rw [List.getElem?_eq_getElem hj, ht], by rw [vecAt_ok _ _ hj, ht], m.vertices[3 * t]'(by omega), m.vertices[3 * t + 1]'(by omega),
      List.getElem?_eq_getElem _, List.getElem?_eq_getElem _, ?_, ?_⟩
    · rw [e1, vecAt_ok _ _ (by omega)]
    · rw [e2, vecAt_ok _ _ (by omega)]
  obtain ⟨t0, a0, b0, x0, y0, c0, d0, e0, f0⟩ := vert i (by omega)
  obtain ⟨t1, a1, b1, x1, y1, c1, d1, e1, f1⟩ := vert (i + 1) (by omega)
  obtain ⟨t2, a2, b2, x2, y2, c2, d2, e2, f2⟩ := vert (i + 2) (by omega)
  refine ⟨⟨third (x0 + x1 + x2), third (y0 + y1 + y2)⟩, ?_, t0, t1, t2, x0, x1, x2, y0, y1, y2, a0, a1, a2, c0, c1, c2, d0, d1, d2, rfl, rfl⟩
  unfold centroid
  simp only [b0, b1, b2, Outcome.bind, e0, e1, e2, f0, f1, f2, zero_add]

theorem visited_mem (size step : Nat) (hstep : 0 < step) (fuel start : Nat) (hf : size ≤ start + fuel) :
    (∀ i, i ∈ visited start size step fuel ↔ start ≤ i ∧ i < size ∧ step ∣ i - start) ∧ (visited start size step fuel).Pairwise (· < ·) := by
  induction fuel generalizing start with
  | zero =>
    refine ⟨fun i => ?_, List.Pairwise.nil⟩
    simp only [visited, List.not_mem_nil, false_iff]
    omega
  | succ fuel ih =>
    unfold visited
    by_cases h : start < size
    · rw [if_pos h]
      obtain ⟨h1, h2⟩ := ih (start + step) (by omega)
      constructor
      · intro i
        rw [List.mem_cons, h1]
        constructor
        · rintro (rfl | ⟨a, b, c⟩)
          · exact ⟨Nat.le_refl _, h, by simp⟩
          · refine ⟨by omega, b, ?_⟩
            have : i - start = (i - (start + step)) + step := by omega
            rw [this]; exact Nat.dvd_add c (Nat.dvd_refl _)
        · rintro ⟨a, b, ⟨c, hc⟩⟩
          cases c with
          | zero => left; omega
          | succ c =>
            right
            have e : step * (c + 1) = step * c + step := Nat.mul_succ _ _
            exact ⟨by omega, b, ⟨c, by omega⟩⟩
      · refine List.Pairwise.cons ?_ h2
        intro i hi
        have := (h1 i).1 hi
        omega
    · rw [if_neg h]
      refine ⟨fun i => ?_, List.Pairwise.nil⟩
      simp only [List.not_mem_nil, false_iff]
      omega

/-- What the forest mesh and the delivered meshes contain. -/
structure ForestInv (tree : Mesh α) (k : Nat) (off : Nat → Vec3 α) (chunkSize : Nat) (f : Forest α) (done : List Nat) : Prop where
  ex : ∃ (chunks : List (List Nat)) (cur : List Nat), chunks.flatten ++ cur = done ∧ (∀ c ∈ chunks, c.length = chunkSize) ∧
    cur.length = f.treesProcessed ∧ f.treesProcessed < chunkSize ∧ IsForest tree k off f.forestMesh cur ∧
    List.Forall₂ (IsForest tree k off) f.delivered chunks

theorem copy_forest {tree f : Mesh α} {k : Nat} (hk : WellFormed tree k) (off : Nat → Vec3 α) (cur : List Nat) (i : Nat)
    (h : IsForest tree k off f cur) : ∃ f', copyMesh (off i) tree f = .ok f' ∧ IsForest tree k off f' (cur ++ [i]) := by
  refine ⟨_, copyMesh_eq (off i) hk, ?_, ?_⟩
  · simp only [List.flatMap_append, h.1, List.flatMap_cons, List.flatMap_nil, List.append_nil]
  · have := copyMesh_wf (off i) hk h.2 (copyMesh_eq (off i) hk)
    have e : k * (cur ++ [i]).length = k * cur.length + k := by rw [List.length_append, List.length_singleton, Nat.mul_add, Nat.mul_one]
    rw [e]; exact this

theorem plant_inv (third : α → α) (ele : α → α → α) (center : Vec2 α) (m tree : Mesh α) (n k : Nat) (hm : WellFormed m n) (hk : WellFormed tree k)
    (chunkSize : Nat) (hc : 0 < chunkSize) (off : Nat → Vec3 α) (is done : List Nat) (f : Forest α)
    (his : ∀ i ∈ is, ∃ c, centroid third m i = .ok c ∧ off i = ⟨c.x - center.x, ele c.y c.x, c.y - center.y⟩)
    (h : ForestInv tree k off chunkSize f done) :
    ∃ f', foldO (plant third ele center m tree chunkSize) f is = .ok f' ∧ ForestInv tree k off chunkSize f' (done ++ is) := by
  induction is generalizing f done with
  | nil => exact ⟨f, rfl, by simpa using h⟩
  | cons i is ih =>
    obtain ⟨c, hcen, hoff⟩ := his i (by simp)
    obtain ⟨chunks, cur, e1, e2, e3, e4, e5, e6⟩ := h.ex
    obtain ⟨f', g1, g2⟩ := copy_forest hk off cur i e5
    have hstep : ∃ f2, plant third ele center m tree chunkSize f i = .ok f2 ∧ ForestInv tree k off chunkSize f2 (done ++ [i]) := by
      unfold plant
      simp only [hcen, Outcome.bind]
      rw [← hoff, g1]
      simp only
      by_cases hfull : f.treesProcessed + 1 = chunkSize
      · rw [if_pos hfull]
        refine ⟨_, rfl, ⟨chunks ++ [cur ++ [i]], [], ?_, ?_, rfl, hc, ?_, ?_⟩⟩
        · rw [List.flatten_append, List.append_nil, ← e1]; simp
        · intro c hc
          rcases List.mem_append.1 hc with hc | hc
          · exact e2 c hc
          · rw [List.mem_singleton.1 hc, List.length_append, List.length_singleton]; omega
        · exact ⟨rfl, rfl, rfl, rfl, ⟨0, rfl⟩, by simp [clear]⟩
        · exact List.rel_append e6 (List.Forall₂.cons g2 List.Forall₂.nil)
      · rw [if_neg hfull]
        refine ⟨_, rfl, ⟨chunks, cur ++ [i], ?_, e2, ?_, ?_, g2, e6⟩⟩
        · rw [← List.append_assoc, e1]
        · rw [List.length_append, List.length_singleton, e3]
        · simp only; omega
    obtain ⟨f2, p1, p2⟩ := hstep
    obtain ⟨f3, q1, q2⟩ := ih (done ++ [i]) f2 (fun j hj => his j (by simp [hj])) p2
    refine ⟨f3, ?_, by simpa using q2⟩
    unfold foldO
    rw [p1]; exact q1

end MeshProof

/-- C57: for a well formed region mesh and tree, one tree is placed at each n-th triangle of the region (from `startTriangle` on), at its
centroid and on the ground; the trees are delivered in order in meshes of the configured number of trees, only the last one may have less,
and none is lost or delivered twice. -/
theorem C57_forest [AddCommGroup α] (third : α → α) (ele : α → α → α) (center : Vec2 α) (m tree : Mesh α) (n k : Nat) (hm : WellFormed m n)
    (hk : WellFormed tree k) (startTriangle frequency chunk : Nat) (hs : 3 ∣ startTriangle) :
    ∃ (delivered : List (Mesh α)) (chunks : List (List Nat)) (off : Nat → Vec3 α),
      addForest third ele center m tree startTriangle frequency chunk = .ok delivered ∧
      (∀ i, i ∈ chunks.flatten ↔ startTriangle ≤ i ∧ i < m.triangles.length ∧ 3 * max frequency 1 ∣ i - startTriangle) ∧
      chunks.flatten.Pairwise (· < ·) ∧ (∀ c ∈ chunks, c ≠ [] ∧ c.length ≤ max chunk 1) ∧ (∀ c ∈ chunks.dropLast, c.length = max chunk 1) ∧
      List.Forall₂ (IsForest tree k off) delivered chunks ∧
      ∀ i ∈ chunks.flatten, ∃ c, IsCentroid third m i c ∧ off i = ⟨c.x - center.x, ele c.y c.x, c.y - center.y⟩ := by
  obtain ⟨v1, v2⟩ := visited_mem m.triangles.length (3 * max frequency 1) (by omega) m.triangles.length startTriangle (by omega)
  set is := visited startTriangle m.triangles.length (3 * max frequency 1) m.triangles.length with his
  have hcen : ∀ i ∈ is, ∃ c, centroid third m i = .ok c ∧ IsCentroid third m i c := by
    intro i hi
    obtain ⟨a, b, c⟩ := (v1 i).1 hi
    apply centroid_ok third m n i hm
    have h3 : 3 ∣ i - startTriangle := Nat.dvd_trans (Nat.dvd_mul_right 3 _) c
    have := hm.triangles
    omega
  let off : Nat → Vec3 α := fun i => match centroid third m i with
    | .ok c => ⟨c.x - center.x, ele c.y c.x, c.y - center.y⟩
    | _ => ⟨0, 0, 0⟩
  have hoff : ∀ i ∈ is, ∃ c, centroid third m i = .ok c ∧ off i = ⟨c.x - center.x, ele c.y c.x, c.y - center.y⟩ := by
    intro i hi
    obtain ⟨c, hc, -⟩ := hcen i hi
    exact ⟨c, hc, by simp only [off, hc]⟩
  have hoff2 : ∀ i ∈ is, ∃ c, IsCentroid third m i c ∧ off i = ⟨c.x - center.x, ele c.y c.x, c.y - center.y⟩ := by
    intro i hi
    obtain ⟨c, hc, h2⟩ := hcen i hi
    exact ⟨c, h2, by simp only [off, hc]⟩
  have init : ForestInv tree k off (max chunk 1) ({} : Forest α) [] :=
    ⟨[], [], rfl, by simp, rfl, by simp only; omega, ⟨rfl, rfl, rfl, rfl, ⟨0, rfl⟩, by simp⟩, List.Forall₂.nil⟩
  obtain ⟨f, hf, hinv⟩ := plant_inv third ele center m tree n k hm hk (max chunk 1) (by omega) off is [] {} hoff init
  obtain ⟨chunks, cur, e1, e2, e3, e4, e5, e6⟩ := hinv.ex
  rw [List.nil_append] at e1
  have hadd : addForest third ele center m tree startTriangle frequency chunk =
      .ok (if f.treesProcessed > 0 then f.delivered ++ [f.forestMesh] else f.delivered) := by
    unfold addForest
    simp only
    rw [← his, hf]; rfl
  by_cases hp : f.treesProcessed > 0
  · rw [if_pos hp] at hadd
    have hfl : (chunks ++ [cur]).flatten = is := by rw [← e1]; simp
    refine ⟨_, chunks ++ [cur], off, hadd, ?_, ?_, ?_, ?_, List.rel_append e6 (List.Forall₂.cons e5 List.Forall₂.nil), ?_⟩
    · rw [hfl]; exact v1
    · rw [hfl]; exact v2
    · intro c hc
      rcases List.mem_append.1 hc with hc | hc
      · have := e2 c hc
        refine ⟨?_, by omega⟩
        rintro rfl; simp only [List.length_nil] at this; omega
      · rw [List.mem_singleton.1 hc]
        refine ⟨?_, by omega⟩
        rintro rfl; simp only [List.length_nil] at e3; omega
    · rw [List.dropLast_concat]; exact e2
    · rw [hfl]; exact hoff2
  · rw [if_neg hp] at hadd
    have hcur : cur = [] := List.length_eq_zero_iff.1 (by omega)
    have hfl : chunks.flatten = is := by rw [← e1, hcur, List.append_nil]
    refine ⟨_, chunks, off, hadd, ?_, ?_, ?_, ?_, e6, ?_⟩
    · rw [hfl]; exact v1
    · rw [hfl]; exact v2
    · intro c hc
      have := e2 c hc
      refine ⟨?_, by omega⟩
      rintro rfl; simp only [List.length_nil] at this; omega
    · intro c hc; exact e2 c (List.dropLast_subset _ hc)
    · rw [hfl]; exact hoff2

/-- Three triangles, every triangle gets a tree, two trees in a chunk: two meshes are delivered. -/
example : (let m : Mesh Int := ⟨[0, 0, 0, 3, 0, 0, 0, 3, 0], [0, 1, 2, 0, 1, 2, 0, 1, 2], [0, 0, 0], [0, 0, 0, 0, 0, 0], []⟩
    (addForest (· / 3) (fun _ _ => 5) ⟨0, 0⟩ m m 0 1 2).bind fun l => .ok (l.map fun m => m.colors.length)) = .ok [6, 3] := by decide +kernel

end Verif.Props
