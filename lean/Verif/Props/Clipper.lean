import Verif.Props.ClipperSpec
import Verif.Props.Bbox
import Mathlib.Tactic.Linarith

/-! # C27: clipping -/
namespace Verif.Props
open Verif.Clipper Verif.ClipperSpec Verif.BboxSpec

theorem withTags_id (t : List Tag) (e : Clipper.El) : (withTags t e).id = e.id := by cases e <;> rfl
theorem withTags_tags (t : List Tag) (e : Clipper.El) : (withTags t e).tags = t := by cases e <;> rfl
theorem withId_id (i : UInt64) (e : Clipper.El) : (e.withId i).id = i := by cases e <;> rfl
theorem withId_tags (i : UInt64) (e : Clipper.El) : (e.withId i).tags = e.tags := by cases e <;> rfl

/-- C27: what remains of an element has the id of the element, whatever the clipping library returns. -/
theorem C27_same_id (eng : Engine) (b : Bbox ℝ) (e e' : Clipper.El) (h : clip eng b e = some e') : e'.id = e.id := by
  have hc : ∀ closed make i t cs, (∀ i t cs, (make i t cs : Clipper.El).id = i) →
      clipElement eng b closed make i t cs = some e' → e'.id = i := by
    intro closed make i t cs hm h
    unfold clipElement at h
    split at h
    · cases h; exact hm ..
    · cases h
    · split at h
      · cases h
      · cases h; exact hm ..
      · cases h; rfl
  cases e with
  | node i t c =>
    unfold clip at h
    split at h
    · cases h; rfl
    · cases h
  | way i t cs => unfold clip at h; exact hc _ _ _ _ _ (fun _ _ _ => rfl) h
  | area i t cs => unfold clip at h; exact hc _ _ _ _ _ (fun _ _ _ => rfl) h
  | relation i t ms =>
    unfold clip collapse at h
    split at h
    · cases h
    · cases h; rw [withTags_id, withId_id]; rfl
    · cases h; rfl

/-- C27: every piece of a clipped node, way or area is of its kind and has its tags. -/
theorem C27_leaves_keep_tags (eng : Engine) (b : Bbox ℝ) (e e' : Clipper.El) (hr : ∀ i t ms, e ≠ .relation i t ms)
    (h : clip eng b e = some e') : ∀ l ∈ leaves e', l.tags = e.tags ∧ SameKind l e := by
  have hmap : ∀ (f : Path → Clipper.El) (cs : List Path), (∀ c, leaves (f c) = [f c]) →
      ∀ l ∈ leavesAll (cs.map f), ∃ c, l = f c := by
    intro f cs hf
    induction cs with
    | nil => intro l hl; simp [leavesAll] at hl
    | cons c cs ih =>
      intro l hl
      simp only [List.map_cons, leavesAll, hf, List.mem_append, List.mem_singleton] at hl
      rcases hl with rfl | hl
      · exact ⟨c, rfl⟩
      · exact ih l hl
  cases e with
  | node i t c =>
    unfold clip at h
    split at h
    · cases h; intro l hl; simp only [leaves, List.mem_singleton] at hl; subst hl; exact ⟨rfl, trivial⟩
    · cases h
  | way i t cs =>
    unfold clip clipElement at h
    split at h
    · cases h; intro l hl; simp only [leaves, List.mem_singleton] at hl; subst hl; exact ⟨rfl, trivial⟩
    · cases h
    · split at h
      · cases h
      · cases h; intro l hl; simp only [leaves, List.mem_singleton] at hl; subst hl; exact ⟨rfl, trivial⟩
      · cases h
        intro l hl
        simp only [leaves] at hl
        obtain ⟨c, rfl⟩ := hmap _ _ (fun _ => rfl) l hl
        exact ⟨rfl, trivial⟩
  | area i t cs =>
    unfold clip clipElement at h
    split at h
    · cases h; intro l hl; simp only [leaves, List.mem_singleton] at hl; subst hl; exact ⟨rfl, trivial⟩
    · cases h
    · split at h
      · cases h
      · cases h; intro l hl; simp only [leaves, List.mem_singleton] at hl; subst hl; exact ⟨rfl, trivial⟩
      · cases h
        intro l hl
        simp only [leaves] at hl
        obtain ⟨c, rfl⟩ := hmap _ _ (fun _ => rfl) l hl
        exact ⟨rfl, trivial⟩
  | relation i t ms => exact absurd rfl (hr i t ms)

/-- C27: what remains of a relation has its tags. -/
theorem C27_relation_keeps_tags (eng : Engine) (b : Bbox ℝ) (i : UInt64) (t : List Tag) (ms : List Clipper.El) (e' : Clipper.El)
    (h : clip eng b (.relation i t ms) = some e') : e'.tags = t := by
  unfold clip collapse at h
  split at h
  · cases h
  · cases h; rw [withTags_tags]
  · cases h; rfl

theorem check_inside {b : Bbox ℝ} {closed : Bool} {cs : List (Geo ℝ)} (h : ∀ c ∈ cs, Inside b c) :
    checkElement b closed cs = .allInside := by
  have : cs.all (fun c => b.containsPoint c) = true := by
    rw [List.all_eq_true]; intro c hc; exact ((C14_contains b b c c []).1).2 (h c hc)
  simp [checkElement, this]

mutual
theorem clip_inside (eng : Engine) (b : Bbox ℝ) (e : Clipper.El) (hp : Proper e) (hi : ∀ p ∈ points e, Inside b p) :
    clip eng b e = some e := by
  match e with
  | .node i t c =>
    have : b.containsPoint c = true := ((C14_contains b b c c []).1).2 (hi c (by simp [points, leaves, coords]))
    simp [clip, this]
  | .way i t cs =>
    simp only [clip, clipElement, check_inside (b := b) (closed := false) (cs := cs) (fun c hc => hi c (by simp [points, leaves, coords, hc]))]
  | .area i t cs =>
    simp only [clip, clipElement, check_inside (b := b) (closed := true) (cs := cs) (fun c hc => hi c (by simp [points, leaves, coords, hc]))]
  | .relation i t ms =>
    obtain ⟨h1, h2⟩ := hp
    have h3 : ∀ p ∈ (leavesAll ms).flatMap coords, Inside b p := hi
    rw [clip, clipMembers_inside eng b ms h2 h3]
    match ms, h1 with
    | a :: c :: ms, _ => rfl

theorem clipMembers_inside (eng : Engine) (b : Bbox ℝ) (ms : List Clipper.El) (hp : ProperAll ms)
    (hi : ∀ p ∈ (leavesAll ms).flatMap coords, Inside b p) : clipMembers eng b ms = ms := by
  match ms with
  | [] => rw [clipMembers]
  | m :: ms =>
    obtain ⟨h1, h2⟩ := hp
    rw [clipMembers, clip_inside eng b m h1 (fun p hpp => hi p (by simp only [leavesAll, List.flatMap_append, List.mem_append]; exact .inl hpp)),
      clipMembers_inside eng b ms h2 (fun p hpp => hi p (by simp only [leavesAll, List.flatMap_append, List.mem_append]; exact .inr hpp))]
end

/-- C27 (partial): an element completely inside the tile is unchanged. Missing: relations with fewer than two members, which are
replaced by their member or dropped, see `C27_violated_single_member`. -/
theorem C27_inside_unchanged_partial (eng : Engine) (b : Bbox ℝ) (e : Clipper.El) (hp : Proper e) (hi : ∀ p ∈ points e, Inside b p) :
    clip eng b e = some e := clip_inside eng b e hp hi

mutual
theorem clip_apart (eng : Engine) (b : Bbox ℝ) (hb : b.isValid = true) (e : Clipper.El) (h : ∀ l ∈ leaves e, Apart b l) :
    clip eng b e = none := by
  have hc : ∀ {c : Geo ℝ}, ¬ Inside b c → b.containsPoint c = false := by
    intro c h
    rw [← Bool.not_eq_true]
    exact fun hh => h (((C14_contains b b c c []).1).1 hh)
  match e with
  | .node i t c =>
    have : Apart b (.node i t c) := h _ (by simp [leaves])
    simp [clip, hc this]
  | .way i t cs =>
    obtain ⟨h1, h2⟩ : Apart b (.way i t cs) := h _ (by simp [leaves])
    have hall : cs.all (fun c => !b.containsPoint c) = true := by
      rw [List.all_eq_true]; intro c hcm; rw [hc (h2 c hcm)]; rfl
    have hnot : cs.all (fun c => b.containsPoint c) = false := by
      obtain ⟨c, cs, rfl⟩ := List.exists_cons_of_ne_nil h1
      simp [hc (h2 c (by simp))]
    simp [clip, clipElement, checkElement, hall, hnot]
  | .area i t cs =>
    obtain ⟨h1, h2, b', h3, h4⟩ : Apart b (.area i t cs) := h _ (by simp [leaves])
    obtain ⟨⟨-, s2⟩, s3⟩ := C14_expand_is_smallest_cover cs h2 h1
    have hin : b.intersects (Bbox.expandAll Bbox.empty cs) = false := by
      rw [← Bool.not_eq_true, (C14_intersects b _).2 hb s3]
      rintro ⟨p, p1, p2⟩
      exact h4 p p1 (s2 b' h3 p p2)
    have hnot : cs.all (fun c => b.containsPoint c) = false := by
      obtain ⟨c, cs, rfl⟩ := List.exists_cons_of_ne_nil h1
      have : ¬ Inside b c := fun hi => h4 c ⟨hi.1.le, hi.2.1.le, hi.2.2.1.le, hi.2.2.2.le⟩ (h3 c (by simp))
      simp [hc this]
    simp [clip, clipElement, checkElement, hin, hnot]
  | .relation i t ms =>
    rw [clip, clipMembers_apart eng b hb ms (by simpa [leaves] using h)]
    rfl

theorem clipMembers_apart (eng : Engine) (b : Bbox ℝ) (hb : b.isValid = true) (ms : List Clipper.El)
    (h : ∀ l ∈ leavesAll ms, Apart b l) : clipMembers eng b ms = [] := by
  match ms with
  | [] => rw [clipMembers]
  | m :: ms =>
    rw [clipMembers, clip_apart eng b hb m (fun l hl => h l (by simp [leavesAll, hl])),
      clipMembers_apart eng b hb ms (fun l hl => h l (by simp [leavesAll, hl]))]
end

/-- C27: nothing remains of an element all of whose nodes, ways and areas keep away from the tile. -/
theorem C27_apart_dropped (eng : Engine) (b : Bbox ℝ) (hb : b.isValid = true) (e : Clipper.El) (h : ∀ l ∈ leaves e, Apart b l) :
    clip eng b e = none := clip_apart eng b hb e h

/-- The contract of the library, independent of this code: given a rectangle by its corners, in order, it returns points of the rectangle
only. -/
def EngineInside (eng : Engine) : Prop := ∀ x0 y0 x1 y1 : ℤ, x0 ≤ x1 → y0 ≤ y1 → ∀ closed cs,
  ∀ contour ∈ eng [(x0, y0), (x1, y0), (x1, y1), (x0, y1)] closed cs, ∀ p ∈ contour, x0 ≤ p.1 ∧ p.1 ≤ x1 ∧ y0 ≤ p.2 ∧ p.2 ≤ y1

theorem trunc_mono {x y : ℝ} (h : x ≤ y) : trunc x ≤ trunc y := by
  unfold trunc
  split
  · rw [if_pos (by linarith)]; exact Int.floor_le_floor h
  · rename_i hx
    split
    · rename_i hy
      have h1 : ⌈x⌉ ≤ 0 := Int.ceil_le.2 (by push_cast; linarith)
      exact h1.trans (Int.floor_nonneg.2 hy)
    · exact Int.ceil_le_ceil h

/-- What the contract means for the rectangle of a tile. -/
theorem EngineInside.tile {eng : Engine} (he : EngineInside eng) (b : Bbox ℝ) (hb : b.isValid = true) (closed : Bool) (cs contour : Path)
    (hc : contour ∈ eng (rectOf b) closed cs) (p : ℤ × ℤ) (hp : p ∈ contour) :
    trunc (b.lo.lon * scale) ≤ p.1 ∧ p.1 ≤ trunc (b.hi.lon * scale) ∧ trunc (b.lo.lat * scale) ≤ p.2 ∧ p.2 ≤ trunc (b.hi.lat * scale) := by
  simp only [Bbox.isValid, Bool.and_eq_true, decide_eq_true_eq] at hb
  have hs : (0 : ℝ) ≤ scale := by unfold scale; norm_num
  exact he _ _ _ _ (trunc_mono (mul_le_mul_of_nonneg_right hb.2 hs)) (trunc_mono (mul_le_mul_of_nonneg_right hb.1 hs)) closed cs contour hc p hp

theorem trunc_bounds (x : ℝ) : x - 1 < trunc x ∧ (trunc x : ℝ) < x + 1 := by
  unfold trunc
  split
  · exact ⟨Int.sub_one_lt_floor x, (Int.floor_le x).trans_lt (by linarith)⟩
  · exact ⟨(show x - 1 < x by linarith).trans_le (Int.le_ceil x), Int.ceil_lt_add_one x⟩

/-- The box with a margin on each side. -/
def grow (d : ℝ) (b : Bbox ℝ) : Bbox ℝ := ⟨⟨b.lo.lat - d, b.lo.lon - d⟩, ⟨b.hi.lat + d, b.hi.lon + d⟩⟩

theorem in_grow {b : Bbox ℝ} {p : ℤ × ℤ} (h : trunc (b.lo.lon * scale) ≤ p.1 ∧ p.1 ≤ trunc (b.hi.lon * scale) ∧
    trunc (b.lo.lat * scale) ≤ p.2 ∧ p.2 ≤ trunc (b.hi.lat * scale)) : In (grow (1 / scale) b) (ofInt p) := by
  obtain ⟨h1, h2, h3, h4⟩ := h
  have hs : (0 : ℝ) < scale := by unfold scale; norm_num
  have e1 := (trunc_bounds (b.lo.lon * scale)).1
  have e2 := (trunc_bounds (b.hi.lon * scale)).2
  have e3 := (trunc_bounds (b.lo.lat * scale)).1
  have e4 := (trunc_bounds (b.hi.lat * scale)).2
  have f1 : ((trunc (b.lo.lon * scale) : ℤ) : ℝ) ≤ p.1 := by exact_mod_cast h1
  have f2 : (p.1 : ℝ) ≤ trunc (b.hi.lon * scale) := by exact_mod_cast h2
  have f3 : ((trunc (b.lo.lat * scale) : ℤ) : ℝ) ≤ p.2 := by exact_mod_cast h3
  have f4 : (p.2 : ℝ) ≤ trunc (b.hi.lat * scale) := by exact_mod_cast h4
  refine ⟨?_, ?_, ?_, ?_⟩ <;> simp only [grow, ofInt]
  · rw [le_div_iff₀ hs, sub_mul, one_div, inv_mul_cancel₀ hs.ne']; linarith
  · rw [div_le_iff₀ hs, add_mul, one_div, inv_mul_cancel₀ hs.ne']; linarith
  · rw [le_div_iff₀ hs, sub_mul, one_div, inv_mul_cancel₀ hs.ne']; linarith
  · rw [div_le_iff₀ hs, add_mul, one_div, inv_mul_cancel₀ hs.ne']; linarith

theorem leaves_withId (i : UInt64) (t : List Tag) (e : Clipper.El) : points (withTags t (e.withId i)) = points e := by
  cases e <;> rfl

theorem pieces_in {eng : Engine} (he : EngineInside eng) (b : Bbox ℝ) (hb : b.isValid = true) (closed : Bool) (make : UInt64 → List Tag → List (Geo ℝ) → Clipper.El)
    (hm : ∀ i t cs, leaves (make i t cs) = [make i t cs] ∧ coords (make i t cs) = cs) (i : UInt64) (t : List Tag) (cs : List (Geo ℝ))
    (e' : Clipper.El) (h : clipElement eng b closed make i t cs = some e') : ∀ p ∈ points e', In (grow (1 / scale) b) p := by
  have hs : (0 : ℝ) < 1 / scale := by unfold scale; norm_num
  have hpt : ∀ i t cs, points (make i t cs) = cs := by intro i t cs; simp [points, (hm i t cs).1, (hm i t cs).2]
  unfold clipElement at h
  split at h
  · rename_i hck
    cases h
    intro p hp
    rw [hpt] at hp
    have hall : cs.all (fun c => b.containsPoint c) = true := by
      by_contra hc
      unfold checkElement at hck
      simp only [if_neg hc] at hck
      split_ifs at hck
    have hin := ((C14_contains b b p p []).1).1 (List.all_eq_true.1 hall p hp)
    obtain ⟨a1, a2, a3, a4⟩ := hin
    exact ⟨by simp only [grow]; linarith, by simp only [grow]; linarith, by simp only [grow]; linarith, by simp only [grow]; linarith⟩
  · cases h
  · split at h
    · cases h
    · rename_i contour heq
      cases h
      intro p hp
      rw [hpt] at hp
      obtain ⟨x, hx, rfl⟩ := List.mem_map.1 hp
      exact in_grow (he.tile b hb closed _ contour (by rw [heq]; simp) x hx)
    · cases h
      intro p hp
      have : ∀ contours : List Path, (∀ c ∈ contours, c ∈ eng (rectOf b) closed (cs.map toInt)) →
          p ∈ (leavesAll (contours.map fun c => make 0 t (c.map ofInt))).flatMap coords → In (grow (1 / scale) b) p := by
        intro contours
        induction contours with
        | nil => intro _ hp; simp [leavesAll] at hp
        | cons c contours ih =>
          intro hc hp
          simp only [List.map_cons, leavesAll, List.flatMap_append, List.mem_append] at hp
          rcases hp with hp | hp
          · have hp : p ∈ points (make 0 t (c.map ofInt)) := hp
            rw [hpt] at hp
            obtain ⟨x, hx, rfl⟩ := List.mem_map.1 hp
            exact in_grow (he.tile b hb closed _ c (hc c (by simp)) x hx)
          · exact ih (fun c hcc => hc c (by simp [hcc])) hp
      exact this _ (fun c hc => hc) hp

mutual
theorem clip_points {eng : Engine} (he : EngineInside eng) (b : Bbox ℝ) (hb : b.isValid = true) (e e' : Clipper.El) (h : clip eng b e = some e') :
    ∀ p ∈ points e', In (grow (1 / scale) b) p := by
  match e with
  | .node i t c =>
    have hs : (0 : ℝ) < 1 / scale := by unfold scale; norm_num
    unfold clip at h
    split at h
    · rename_i hc
      cases h
      intro p hp
      simp only [points, leaves, coords, List.flatMap_cons, List.flatMap_nil, List.append_nil, List.mem_singleton] at hp
      subst hp
      obtain ⟨a1, a2, a3, a4⟩ := ((C14_contains b b p p []).1).1 hc
      exact ⟨by simp only [grow]; linarith, by simp only [grow]; linarith, by simp only [grow]; linarith, by simp only [grow]; linarith⟩
    · cases h
  | .way i t cs => rw [clip] at h; exact pieces_in he b hb _ _ (fun _ _ _ => ⟨rfl, rfl⟩) i t cs e' h
  | .area i t cs => rw [clip] at h; exact pieces_in he b hb _ _ (fun _ _ _ => ⟨rfl, rfl⟩) i t cs e' h
  | .relation i t ms =>
    have hm := clipMembers_points he b hb ms
    rw [clip] at h
    unfold collapse at h
    split at h
    · cases h
    · rename_i m heq
      cases h
      rw [heq] at hm
      intro p hp
      rw [leaves_withId] at hp
      exact hm p (by simpa [leavesAll, points] using hp)
    · cases h
      intro p hp
      exact hm p (by simpa [points, leaves] using hp)

theorem clipMembers_points {eng : Engine} (he : EngineInside eng) (b : Bbox ℝ) (hb : b.isValid = true) (ms : List Clipper.El) :
    ∀ p ∈ (leavesAll (clipMembers eng b ms)).flatMap coords, In (grow (1 / scale) b) p := by
  match ms with
  | [] => intro p hp; simp [clipMembers, leavesAll] at hp
  | m :: ms =>
    rw [clipMembers]
    cases hm : clip eng b m with
    | none => exact clipMembers_points he b hb ms
    | some m' =>
      intro p hp
      simp only [leavesAll, List.flatMap_append, List.mem_append] at hp
      rcases hp with hp | hp
      · exact clip_points he b hb m m' hm p hp
      · exact clipMembers_points he b hb ms p hp
end

/-- C27: if the library returns points of the clip rectangle only, all coordinates of the remaining element lie in the tile up to
the resolution of 1e-7 degrees. -/
theorem C27_points_in_tile (eng : Engine) (he : EngineInside eng) (b : Bbox ℝ) (hb : b.isValid = true) (e e' : Clipper.El) (h : clip eng b e = some e') :
    ∀ p ∈ points e', In (grow (1 / scale) b) p := clip_points he b hb e e' h

/-- The hypothesis holds for the library which always returns the whole rectangle. -/
example : EngineInside fun rect _ _ => [rect] := by
  intro x0 y0 x1 y1 hx hy closed cs contour hc p hp
  simp only [List.mem_singleton] at hc
  subst hc
  simp only [List.mem_cons, List.not_mem_nil, or_false] at hp
  rcases hp with rfl | rfl | rfl | rfl <;> simp [hx, hy]

/-- A tile for the examples. -/
noncomputable def unitBox : Bbox ℝ := ⟨⟨0, 0⟩, ⟨1, 1⟩⟩

theorem inside_unit (x y : ℝ) (h1 : 0 < x) (h2 : x < 1) (h3 : 0 < y) (h4 : y < 1) : Inside unitBox ⟨x, y⟩ :=
  ⟨h1, h2, h3, h4⟩

/-- C27 is violated: a relation inside the tile with a single way becomes a way with the tags of the relation; the tags of the way
are lost. -/
theorem C27_violated_single_member (eng : Engine) :
    clip eng unitBox (.relation 5 [⟨1, 1⟩] [.way 7 [⟨2, 2⟩] [⟨0.25, 0.25⟩, ⟨0.5, 0.5⟩]]) =
      some (.way 5 [⟨1, 1⟩] [⟨0.25, 0.25⟩, ⟨0.5, 0.5⟩]) := by
  have : clip eng unitBox (.way 7 [⟨2, 2⟩] [⟨0.25, 0.25⟩, ⟨0.5, 0.5⟩]) = some (.way 7 [⟨2, 2⟩] [⟨0.25, 0.25⟩, ⟨0.5, 0.5⟩]) := by
    apply clip_inside
    · trivial
    · intro p hp
      simp only [points, leaves, coords, List.flatMap_cons, List.flatMap_nil, List.append_nil, List.mem_cons, List.not_mem_nil, or_false] at hp
      rcases hp with rfl | rfl <;> apply inside_unit <;> norm_num
  simp only [clip, clipMembers] at this ⊢
  rw [this]
  rfl

/-- C27 is violated: a way which crosses the tile but has no vertex inside it is dropped, whatever the library would return. Its
middle point lies inside the tile. -/
theorem C27_violated_crossing_way (eng : Engine) :
    clip eng unitBox (.way 7 [] [⟨-1, -1⟩, ⟨2, 2⟩]) = none ∧ Inside unitBox ⟨(-1 + 2) / 2, (-1 + 2) / 2⟩ := by
  refine ⟨?_, by apply inside_unit <;> norm_num⟩
  apply clip_apart
  · simp [unitBox, Bbox.isValid]
  · intro l hl
    simp only [leaves, List.mem_singleton] at hl
    subst hl
    refine ⟨by simp, ?_⟩
    intro c hc
    simp only [List.mem_cons, List.not_mem_nil, or_false] at hc
    rcases hc with rfl | rfl
    · rintro ⟨h, -⟩; simp only [unitBox] at h; norm_num at h
    · rintro ⟨-, h, -⟩; simp only [unitBox] at h; norm_num at h

/-- A clipped way in two pieces: the hypotheses of the theorems are met by a real clipping. -/
example : let eng : Engine := fun _ _ _ => [[(0, 0), (1, 1)], [(2, 2), (3, 3)]]
    clip eng unitBox (.way 7 [⟨2, 2⟩] [⟨0.5, 0.5⟩, ⟨2, 2⟩]) =
      some (.relation 7 [] [.way 0 [⟨2, 2⟩] [ofInt (0, 0), ofInt (1, 1)], .way 0 [⟨2, 2⟩] [ofInt (2, 2), ofInt (3, 3)]]) := by
  intro eng
  have h1 : unitBox.containsPoint ⟨0.5, 0.5⟩ = true := ((C14_contains unitBox unitBox _ ⟨0, 0⟩ []).1).2 (by apply inside_unit <;> norm_num)
  have h2 : unitBox.containsPoint ⟨2, 2⟩ = false := by
    rw [← Bool.not_eq_true, (C14_contains unitBox unitBox _ ⟨0, 0⟩ []).1]
    rintro ⟨-, h, -⟩; simp only [unitBox] at h; norm_num at h
  simp [clip, clipElement, checkElement, h1, h2, eng]

end Verif.Props
