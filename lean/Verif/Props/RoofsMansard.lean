import Verif.Props.RoofsRound

/-! # C87: mansard roofs -/
namespace Verif.Props
open Verif.MeshBuilder Verif.MeshSpec Verif.ShownSpec Verif.PolygonSpec Verif.Building Verif.BuildingSpec Verif.RoofsSpec Verif.Roofs
open Verif.Polygon (Vec Poly Rect)
open Verif.SolidsSpec (Closed)
open BuildingProof RoofsProof

namespace RoofsProof
set_option linter.unusedSectionVars false
variable {K : Type} [Field K] [LinearOrder K]

/-- The polygon of one ring. -/
structure Single (env : Env K) (p : Poly K) (ring : List (Vec K)) : Prop where
  points : p.points = ring.flatMap fun v => [v.x, v.y]
  outers : p.outers = [(0, 2 * ring.length)]
  inners : p.inners = []
  rectangle : p.rectangle = (Rect.empty env.huge env.tiny).expandAll ring

theorem Single.length {env : Env K} {p : Poly K} {ring : List (Vec K)} (h : Single env p ring) : p.points.length = 2 * ring.length := by
  rw [h.points, PolygonProof.pairs_length]

theorem Single.at {env : Env K} {p : Poly K} {ring : List (Vec K)} (h : Single env p ring) {j : Nat} (hj : j < ring.length) :
    pointAt p ((2 * j : Nat) : Int) = .ok (ring.getD j ⟨0, 0⟩) := by
  rw [getD_eq _ _ hj]
  refine pointAt_eq (lo := 0) (fun i v hv => ?_) hj (by push_cast; ring)
  rw [h.points, Nat.zero_add]
  exact PolygonProof.pairs_get Vec.x Vec.y ring i v hv

theorem addContour_single (env : Env K) (contour : List (Vec K)) (hne : contour ≠ []) :
    ∃ p, Polygon.addContour env.epsilon env.huge env.tiny (newPolygon env) contour false = .ok p ∧ Single env p (opened env.epsilon contour) := by
  obtain ⟨first, hf⟩ : ∃ first, contour.head? = some first := by cases contour with | nil => exact absurd rfl hne | cons a l => exact ⟨a, rfl⟩
  obtain ⟨last, hl⟩ : ∃ last, contour.getLast? = some last := ⟨contour.getLast hne, List.getLast?_eq_some_getLast hne⟩
  obtain ⟨n1, n2⟩ := PolygonProof.near_opened env.epsilon contour first last hf hl
  unfold Polygon.addContour
  rw [hf, hl]
  simp only [Bool.false_eq_true, if_false, n1, PolygonProof.addPoints_eq]
  refine ⟨_, rfl, ?_, ?_, rfl, rfl⟩
  · simp [newPolygon]
  · simp only [newPolygon, List.nil_append, List.length_nil]
    rw [← n2]
    simp [Nat.mul_comm]

/-- Numbers with step two. -/
theorem visited_half (lo n fuel : Nat) (hf : n ≤ 2 * fuel) : visited lo (lo + n) 2 fuel = (List.range ((n + 1) / 2)).map fun j => lo + 2 * j := by
  induction fuel generalizing lo n with
  | zero =>
    obtain rfl : n = 0 := by omega
    rfl
  | succ fuel ih =>
    by_cases hn : n = 0
    · subst hn; rw [visited, if_neg (by omega)]; rfl
    · rw [visited, if_pos (by omega)]
      by_cases h1 : n = 1
      · subst h1
        have : visited (lo + 2) (lo + 1) 2 fuel = [] := by
          cases fuel with
          | zero => rfl
          | succ f => rw [visited, if_neg (by omega)]
        rw [this]; rfl
      · have e : lo + n = (lo + 2) + (n - 2) := by omega
        rw [e, ih (lo + 2) (n - 2) (by omega), show (n + 1) / 2 = (n - 2 + 1) / 2 + 1 by omega, List.range_succ_eq_map, List.map_cons, List.map_map]
        congr 1
        apply List.map_congr_left
        intro j _
        simp only [Function.comp]; omega

variable [IsStrictOrderedRing K]

omit [IsStrictOrderedRing K] in
theorem side_mem (ring : List (Vec K)) {k : Nat} (hk : k < ring.length) :
    (ring.getD k ⟨0, 0⟩, ring.getD ((k + 1) % ring.length) ⟨0, 0⟩) ∈ ringEdges ring := by
  rw [ringEdges_eq ⟨0, 0⟩, List.mem_map]
  refine ⟨(k + 1) % ring.length, by simpa using Nat.mod_lt _ (by omega), ?_⟩
  have : (if (k + 1) % ring.length = 0 then ring.length - 1 else (k + 1) % ring.length - 1) = k := by
    by_cases h : k + 1 = ring.length
    · rw [h, Nat.mod_self, if_pos rfl]; omega
    · rw [Nat.mod_eq_of_lt (by omega), if_neg (by omega)]; omega
  rw [this]

omit [IsStrictOrderedRing K] in
theorem mem_side (ring : List (Vec K)) {e : Vec K × Vec K} (he : e ∈ ringEdges ring) :
    ∃ k < ring.length, e = (ring.getD k ⟨0, 0⟩, ring.getD ((k + 1) % ring.length) ⟨0, 0⟩) := by
  rw [ringEdges_eq ⟨0, 0⟩, List.mem_map] at he
  obtain ⟨j, hj, rfl⟩ := he
  have hj : j < ring.length := by simpa using hj
  by_cases h : j = 0
  · subst h
    refine ⟨ring.length - 1, by omega, ?_⟩
    rw [show ring.length - 1 + 1 = ring.length by omega, Nat.mod_self]
    simp
  · refine ⟨j - 1, by omega, ?_⟩
    rw [show j - 1 + 1 = j by omega, Nat.mod_eq_of_lt hj, if_neg h]

theorem mansardPath_eq {lib : Library K} (hl : Standard lib) (env : Env K) (p : Poly K) (ring : List (Vec K)) (h : Single env p ring) (hne : ring ≠ [])
    (hb : Bounded env.huge ring) : ∃ side, Shortest ring side ∧ mansardPath lib env.huge p = .ok (side, scaled lib ring) := by
  have hpos : 0 < ring.length := List.length_pos_iff.2 hne
  set len : Nat → K := fun k => distance2d lib (ring.getD k ⟨0, 0⟩) (ring.getD ((k + 1) % ring.length) ⟨0, 0⟩) with hlen
  unfold mansardPath
  simp only
  have hv := visited_eq 0 ring.length (p.points.length) (by rw [h.length]; omega)
  simp only [Nat.zero_add, Nat.mul_zero] at hv
  rw [h.length] at hv ⊢
  rw [hv, foldO_map]
  obtain ⟨s, hs, h1, h2, h3⟩ := foldO_range (fun (s : K × Terrain.Path) (j : Nat) =>
      (pointAt p ((2 * j : Nat) : Int)).bind fun v1 => (pointAt p ((if 2 * j = 2 * ring.length - 2 then 0 else 2 * j + 2 : Nat) : Int)).bind fun v2 =>
      Outcome.ok (min s.1 (distance2d lib v1 v2), s.2 ++ [(lib.toInt (v1.x * 10 ^ 7), lib.toInt (v1.y * 10 ^ 7))]))
    (fun j s => s.2 = scaled lib (ring.take j) ∧ (∀ k < j, s.1 ≤ len k) ∧ (s.1 = env.huge ∨ ∃ k < j, s.1 = len k)) ring.length (by
      rintro j hj s ⟨h1, h2, h3⟩
      have hm := Nat.mod_lt (j + 1) hpos
      have e : (if 2 * j = 2 * ring.length - 2 then 0 else 2 * j + 2) = 2 * ((j + 1) % ring.length) := by
        rw [← next_mod hj]; split <;> split <;> omega
      rw [e, h.at hj, h.at hm]
      refine ⟨_, rfl, ?_, ?_, ?_⟩
      · simp only
        rw [h1, List.take_succ_eq_append_getElem hj, getD_eq _ _ hj]
        simp only [scaled, List.map_append, List.map_cons, List.map_nil]
      · intro k hk
        simp only
        by_cases hkj : k = j
        · subst hkj; exact min_le_right _ _
        · exact le_trans (min_le_left _ _) (h2 k (by omega))
      · simp only
        rcases min_choice s.1 (distance2d lib (ring.getD j ⟨0, 0⟩) (ring.getD ((j + 1) % ring.length) ⟨0, 0⟩)) with hc | hc
        · rw [hc]
          rcases h3 with h3 | ⟨k, hk, h3⟩
          · exact .inl h3
          · exact .inr ⟨k, by omega, h3⟩
        · rw [hc]; exact .inr ⟨j, by omega, rfl⟩) (s := (env.huge, [])) ⟨rfl, by simp, .inl rfl⟩
  rw [List.take_length] at h1
  have hlt : ∀ k < ring.length, len k < env.huge := by
    intro k hk
    have := hb.2 _ (side_mem ring hk)
    obtain ⟨a, b⟩ := hl.sqrt _ (square_nonneg (ring.getD k ⟨0, 0⟩) (ring.getD ((k + 1) % ring.length) ⟨0, 0⟩))
    rw [hlen]; simp only [distance_eq]
    simp only at this
    nlinarith [hb.1]
  refine ⟨s.1, ?_, by rw [← h1]; exact hs⟩
  rcases h3 with h3 | ⟨k, hk, h3⟩
  · exact absurd (h2 0 hpos) (by rw [h3]; exact not_le.2 (hlt 0 hpos))
  · obtain ⟨a, b⟩ := hl.sqrt _ (square_nonneg (ring.getD k ⟨0, 0⟩) (ring.getD ((k + 1) % ring.length) ⟨0, 0⟩))
    refine ⟨by rw [h3]; exact a, ⟨_, side_mem ring hk, by rw [h3]; exact b⟩, ?_⟩
    intro e he
    obtain ⟨k', hk', rfl⟩ := mem_side ring he
    have := h2 k' hk'
    rw [h3] at this ⊢
    have := distance_le hl this
    rw [← b] at this
    exact this

/-- Only the first half of the corners is searched. -/
theorem findFirstIndex_eq {lib : Library K} (hl : Standard lib) (env : Env K) (p : Poly K) (ring : List (Vec K)) (h : Single env p ring) (hne : ring ≠ [])
    (first : Int × Int) (hhuge : 0 < env.huge) (hb : ∀ v ∈ ring, square (fromInt first) v < env.huge * env.huge) :
    ∃ shift d, shift < (ring.length + 1) / 2 ∧ findFirstIndex lib env.huge first p = .ok (2 * shift, d) ∧
      ∀ k < (ring.length + 1) / 2, square (fromInt first) (ring.getD shift ⟨0, 0⟩) ≤ square (fromInt first) (ring.getD k ⟨0, 0⟩) := by
  have hpos : 0 < ring.length := List.length_pos_iff.2 hne
  unfold findFirstIndex
  have hv := visited_half 0 ring.length (2 * ring.length) (by omega)
  simp only [Nat.zero_add] at hv
  rw [h.length, show 2 * ring.length / 2 = ring.length by omega, hv, foldO_map]
  obtain ⟨s, hs, hP⟩ := foldO_range (fun (s : Nat × K) (j : Nat) => (pointAt p ((2 * j : Nat) : Int)).bind fun v =>
      Outcome.ok (if distance2d lib (fromInt first) v < s.2 then (2 * j, distance2d lib (fromInt first) v) else s))
    (fun j s => (j = 0 ∧ s = (0, env.huge)) ∨ ∃ i < j, s.1 = 2 * i ∧ s.2 = distance2d lib (fromInt first) (ring.getD i ⟨0, 0⟩) ∧
      ∀ k < j, s.2 ≤ distance2d lib (fromInt first) (ring.getD k ⟨0, 0⟩)) ((ring.length + 1) / 2) (by
      intro j hj s hP
      have hj' : j < ring.length := by omega
      rw [h.at hj']
      refine ⟨_, rfl, .inr ?_⟩
      rcases hP with ⟨rfl, rfl⟩ | ⟨i, hi, h1, h2, h3⟩
      · have hlt : distance2d lib (fromInt first) (ring.getD 0 ⟨0, 0⟩) < env.huge := by
          have := hb (ring.getD 0 ⟨0, 0⟩) (by rw [getD_eq _ _ hpos]; exact List.getElem_mem _)
          obtain ⟨a, b⟩ := hl.sqrt _ (square_nonneg (fromInt first) (ring.getD 0 ⟨0, 0⟩))
          rw [distance_eq]
          nlinarith
        rw [if_pos hlt]
        refine ⟨0, by omega, rfl, rfl, ?_⟩
        intro k hk
        obtain rfl : k = 0 := by omega
        exact le_refl _
      · split
        · rename_i hlt
          refine ⟨j, by omega, rfl, rfl, ?_⟩
          intro k hk
          by_cases hkj : k = j
          · subst hkj; exact le_refl _
          · exact le_trans hlt.le (h3 k (by omega))
        · rename_i hlt
          refine ⟨i, by omega, h1, h2, ?_⟩
          intro k hk
          by_cases hkj : k = j
          · subst hkj; exact not_lt.1 hlt
          · exact h3 k (by omega)) (s := (0, env.huge)) (.inl ⟨rfl, rfl⟩)
  rcases hP with ⟨h0, -⟩ | ⟨i, hi, h1, h2, h3⟩
  · omega
  · refine ⟨i, s.2, hi, ?_, ?_⟩
    · rw [← h1]; exact hs
    · intro k hk
      have := h3 k hk
      rw [h2] at this
      exact distance_le hl this

theorem shortest_unique {ring : List (Vec K)} {x y : K} (hx : Shortest ring x) (hy : Shortest ring y) : x = y := by
  obtain ⟨x0, ⟨e, he, hxe⟩, hxm⟩ := hx
  obtain ⟨y0, ⟨e', he', hye⟩, hym⟩ := hy
  have h1 := hxm e' he'
  have h2 := hym e he
  nlinarith

omit [IsStrictOrderedRing K] in
theorem following_eq {β : Type} (d : β) (ring : List β) :
    ring.zip (following ring) = (List.range ring.length).map fun j => (ring.getD j d, ring.getD ((j + 1) % ring.length) d) := by
  apply List.ext_getElem
  · simp [following]; omega
  · intro j h1 h2
    have hj : j < ring.length := by simpa using h2
    simp only [List.getElem_zip, List.getElem_map, List.getElem_range, following]
    rw [getD_eq _ _ hj, ← next_mod hj]
    congr 1
    by_cases hl : j = ring.length - 1
    · rw [if_pos hl, getD_eq _ _ (by omega), List.getElem_append_right (by simp; omega)]
      simp only [List.length_tail, hl, Nat.sub_self, List.getElem_take]
    · rw [if_neg hl, getD_eq _ _ (by omega), List.getElem_append_left (by simp; omega), List.getElem_tail]

omit [IsStrictOrderedRing K] in
theorem slopes_eq (look : Look K) (bottom height : K) (ring top : List (Vec K)) (shift : Nat) (hlen : top.length = ring.length) :
    slopes look bottom height ((ring.rotate shift).zip top) = (List.range ring.length).flatMap fun j =>
      let a := above bottom (ring.getD ((shift + j) % ring.length) ⟨0, 0⟩)
      let b := above bottom (ring.getD ((shift + j + 1) % ring.length) ⟨0, 0⟩)
      let u := above (bottom + height) (top.getD j ⟨0, 0⟩)
      let v := above (bottom + height) (top.getD ((j + 1) % ring.length) ⟨0, 0⟩)
      let scale := look.scaled height
      [facet look v a u ⟨scale, scale⟩ ⟨0, 0⟩ ⟨0, scale⟩, facet look a v b ⟨0, 0⟩ ⟨scale, scale⟩ ⟨scale, 0⟩] := by
  have hl : ((ring.rotate shift).zip top).length = ring.length := by simp [hlen]
  have hg : ∀ j < ring.length, ((ring.rotate shift).zip top).getD j (⟨0, 0⟩, ⟨0, 0⟩) =
      (ring.getD ((shift + j) % ring.length) ⟨0, 0⟩, top.getD j ⟨0, 0⟩) := by
    intro j hj
    have hm : (shift + j) % ring.length < ring.length := Nat.mod_lt _ (by omega)
    have ht : j < top.length := by omega
    have hz : j < ((ring.rotate shift).zip top).length := by omega
    rw [getD_eq _ _ hz, getD_eq _ _ hm, getD_eq _ _ ht, List.getElem_zip, List.getElem_rotate]
    congr 2
    rw [Nat.add_comm]
  unfold slopes
  rw [following_eq ((⟨0, 0⟩, ⟨0, 0⟩) : Vec K × Vec K), List.flatMap_map, hl]
  apply List.flatMap_congr
  intro j hj
  have hj : j < ring.length := by simpa using hj
  have hm := Nat.mod_lt (j + 1) (show 0 < ring.length by omega)
  simp only
  rw [hg j hj, hg _ hm, show (shift + (j + 1) % ring.length) % ring.length = (shift + j + 1) % ring.length by rw [Nat.add_mod_mod, Nat.add_assoc]]

/-- The faces of a mansard roof for a result of the clipping library. -/
theorem mansardShape_drawn (env : Env K) (look : Look K) (height bottom : K) (p : Poly K) (ring : List (Vec K)) (h : Single env p ring)
    (hlib : ∀ p, InRange (env.triangulate p)) (shape : Terrain.Path) (hlen : shape.length = ring.length) (hne : ring ≠ []) (shift : Nat)
    (hopen : opened env.epsilon (unscaled (K := K) (if Terrain.area2 shape ≥ 0 then shape else shape.reverse)) = unscaled (if Terrain.area2 shape ≥ 0 then shape else shape.reverse))
    (m : Mesh K) {t : Texture} {done : List (Triangle K × Texture)} (ts : List (Triangle K)) (hd : Drawn t done m ts) :
    ∃ m' new, mansardShape env look height bottom p shape (2 * shift) m = .ok m' ∧ Drawn t done m' (ts ++ new) ∧
      MansardFaces env.triangulate look bottom height ring (unscaled (if Terrain.area2 shape ≥ 0 then shape else shape.reverse)) shift new := by
  have hpos : 0 < ring.length := List.length_pos_iff.2 hne
  set path := (if Terrain.area2 shape ≥ 0 then shape else shape.reverse) with hpath
  have hplen : path.length = ring.length := by rw [hpath]; split <;> simp [hlen]
  have htlen : (unscaled (K := K) path).length = ring.length := by simp [unscaled, hplen]
  have htne : unscaled (K := K) path ≠ [] := by intro hc; rw [hc] at htlen; simp at htlen; omega
  obtain ⟨top, htop, hsingle⟩ := addContour_single env (unscaled path) htne
  rw [hopen] at hsingle
  unfold mansardShape
  simp only
  rw [← hpath, show path.map fromInt = unscaled (K := K) path from rfl, htop, bind_okl]
  obtain ⟨n, hn⟩ := C43_well_formed m hd.1
  obtain ⟨flat, f1, f2⟩ := ShownProof.fillMesh_adds hn (env.triangulate top) (fun _ q => (bottom + height, look.pointColor q, look.pointUv q)) false (hlib top)
  have g1 := hd.add hn f1 (.polygon _ _ hd.1 (hlib top))
  have hv := visited_eq 0 ring.length (p.points.length) (by rw [h.length]; omega)
  simp only [Nat.zero_add, Nat.mul_zero] at hv
  rw [show p.points.length = 2 * ring.length from h.length] at hv ⊢
  rw [hv, foldO_map]
  obtain ⟨m', h1, g2⟩ := Drawn.fold (t := t) (done := done) (fun m (j : Nat) => mansardSide look height bottom p top (2 * shift) m (2 * j)) (fun j =>
      let a := above bottom (ring.getD ((shift + j) % ring.length) ⟨0, 0⟩)
      let b := above bottom (ring.getD ((shift + j + 1) % ring.length) ⟨0, 0⟩)
      let u := above (bottom + height) ((unscaled (K := K) path).getD j ⟨0, 0⟩)
      let v := above (bottom + height) ((unscaled (K := K) path).getD ((j + 1) % ring.length) ⟨0, 0⟩)
      let scale := look.scaled height
      [facet look v a u ⟨scale, scale⟩ ⟨0, 0⟩ ⟨0, scale⟩, facet look a v b ⟨0, 0⟩ ⟨scale, scale⟩ ⟨scale, 0⟩]) (List.range ring.length) (by
      intro j hj m ts hd
      have hj : j < ring.length := by simpa using hj
      have m1 := Nat.mod_lt (shift + j) hpos
      have m2 := Nat.mod_lt (shift + j + 1) hpos
      have m3 := Nat.mod_lt (j + 1) hpos
      have e1 : (2 * shift + 2 * j) % (2 * ring.length) = 2 * ((shift + j) % ring.length) := by rw [← Nat.mul_add, Nat.mul_mod_mul_left]
      have e2 : (2 * shift + 2 * j + 2) % (2 * ring.length) = 2 * ((shift + j + 1) % ring.length) := by
        rw [show 2 * shift + 2 * j + 2 = 2 * (shift + j + 1) by ring, Nat.mul_mod_mul_left]
      have e3 : (2 * j + 2) % (2 * ring.length) = 2 * ((j + 1) % ring.length) := by rw [show 2 * j + 2 = 2 * (j + 1) by ring, Nat.mul_mod_mul_left]
      have two := Drawn.facet look (Drawn.facet look hd ((above (bottom + height) ((unscaled (K := K) path).getD ((j + 1) % ring.length) ⟨0, 0⟩),
        above bottom (ring.getD ((shift + j) % ring.length) ⟨0, 0⟩), above (bottom + height) ((unscaled (K := K) path).getD j ⟨0, 0⟩)),
        ⟨look.scaled height, look.scaled height⟩, ⟨0, 0⟩, ⟨0, look.scaled height⟩))
        ((above bottom (ring.getD ((shift + j) % ring.length) ⟨0, 0⟩), above (bottom + height) ((unscaled (K := K) path).getD ((j + 1) % ring.length) ⟨0, 0⟩),
          above bottom (ring.getD ((shift + j + 1) % ring.length) ⟨0, 0⟩)), ⟨0, 0⟩, ⟨look.scaled height, look.scaled height⟩, ⟨look.scaled height, 0⟩)
      rw [List.append_assoc] at two
      refine ⟨_, ?_, two⟩
      unfold mansardSide
      simp only [h.length]
      rw [e1, e2, e3]
      unfold pointAbove
      rw [h.at m1, h.at m2, hsingle.at (by omega), hsingle.at (by omega)]
      rfl) g1
  refine ⟨m', flat ++ (List.range ring.length).flatMap _, h1, by rw [← List.append_assoc]; exact g2, top, flat, ⟨hsingle.points, hsingle.outers, hsingle.inners⟩, f2, ?_⟩
  rw [slopes_eq look bottom height ring (unscaled path) shift htlen]

theorem mansardRoof_draws {lib : Library K} (hl : Standard lib) (env : Env K) (look : Look K) (direction : String) (height bottom : K) (p : Poly K)
    (ring : List (Vec K)) (h : Single env p ring) (hne : ring ≠ []) (hb : Bounded env.huge ring) (hlib : ∀ p, InRange (env.triangulate p)) (first : Int × Int)
    (rest : Terrain.Path) (hoff : Moved lib ring [first :: rest]) (hlen : (first :: rest).length = ring.length)
    (hreach : ∀ v ∈ ring, square (fromInt first) v < env.huge * env.huge)
    (hopen : opened env.epsilon (unscaled (K := K) (if Terrain.area2 (first :: rest) ≥ 0 then first :: rest else (first :: rest).reverse)) =
      unscaled (if Terrain.area2 (first :: rest) ≥ 0 then first :: rest else (first :: rest).reverse)) :
    Draws look.texture (mansardRoof lib env look direction height bottom p) fun ts => ∃ shift < (ring.length + 1) / 2,
      (∀ k < (ring.length + 1) / 2, square (fromInt first) (ring.getD shift ⟨0, 0⟩) ≤ square (fromInt first) (ring.getD k ⟨0, 0⟩)) ∧
      MansardFaces env.triangulate look bottom height ring (unscaled (if Terrain.area2 (first :: rest) ≥ 0 then first :: rest else (first :: rest).reverse)) shift ts := by
  intro m done ts hd
  obtain ⟨side, hside, hpath⟩ := mansardPath_eq hl env p ring h hne hb
  obtain ⟨side', hside', hoff⟩ := hoff
  obtain rfl : side = side' := shortest_unique hside hside'
  obtain ⟨shift, d, hlt, hfirst, hnear⟩ := findFirstIndex_eq hl env p ring h hne first hb.1 hreach
  obtain ⟨m', new, h1, h2, h3⟩ := mansardShape_drawn env look height bottom p ring h hlib (first :: rest) hlen hne shift hopen m ts hd
  refine ⟨m', new, ?_, h2, shift, hlt, hnear, h3⟩
  unfold mansardRoof
  rw [hpath, bind_okl]
  simp only
  rw [← hoff]
  simp only
  rw [if_pos (by rw [hlen]; simp [scaled]), hfirst, bind_okl]
  exact h1

theorem mansardRoof_flat {lib : Library K} (hl : Standard lib) (env : Env K) (look : Look K) (direction : String) (height bottom : K) (p : Poly K)
    (ring : List (Vec K)) (h : Single env p ring) (hne : ring ≠ []) (hb : Bounded env.huge ring) (hlib : InRange (env.triangulate p)) (paths : List Terrain.Path)
    (hoff : Moved lib ring paths) (hlen : ∀ shape, paths = [shape] → shape.length ≠ ring.length) :
    Draws look.texture (mansardRoof lib env look direction height bottom p) (FlatFaces look bottom false (env.triangulate p)) := by
  intro m done ts hd
  obtain ⟨side, hside, hpath⟩ := mansardPath_eq hl env p ring h hne hb
  obtain ⟨side', hside', hoff⟩ := hoff
  obtain rfl : side = side' := shortest_unique hside hside'
  obtain ⟨m', new, h1, h2, h3⟩ := flatRoof_draws env.triangulate false _ look bottom p hlib m done ts hd
  refine ⟨m', new, ?_, h2, h3⟩
  rw [← h1]
  unfold mansardRoof
  rw [hpath, bind_okl]
  simp only
  rw [← hoff]
  rcases paths with _ | ⟨shape, _ | ⟨q, qs⟩⟩
  · rfl
  · simp only
    rw [if_neg]
    have := hlen shape rfl
    simpa [scaled] using this
  · rfl

theorem polygonOf_single (env : Env K) (part : BuildingSpec.Part K) (contour : List (Vec K)) (hr : part.rings = [(contour, false)]) (hne : contour ≠ []) (p : Poly K)
    (hp : polygonOf env part = .ok p) : Single env p (opened env.epsilon contour) := by
  obtain ⟨q, hq, hs⟩ := addContour_single env contour hne
  unfold polygonOf at hp
  rw [hr] at hp
  simp only [Polygon.addAll] at hp
  rw [show ({ rectangle := .empty env.huge env.tiny } : Poly K) = newPolygon env from rfl, hq] at hp
  injection hp with hp
  rw [← hp]; exact hs

theorem opened_ne {epsilon : K} {contour : List (Vec K)} (h : opened epsilon contour ≠ []) : contour ≠ [] := by
  rintro rfl
  exact h rfl

/-! ### Sums over edges -/

open ClosedProof (total total_append lift border_sum)
open SolidsProof (esum)

theorem total_add {V : Type} (f g : V → V → Int) (l : List (V × V)) : total (fun x y => f x y + g x y) l = total f l + total g l := by
  unfold total
  induction l with
  | nil => rfl
  | cons e l ih => simp only [List.map_cons, List.sum_cons, ih]; ring

theorem total_neg {V : Type} (f : V → V → Int) (l : List (V × V)) : total (fun x y => - f x y) l = - total f l := by
  unfold total
  induction l with
  | nil => rfl
  | cons e l ih => simp only [List.map_cons, List.sum_cons, ih]; ring

theorem total_roof (f : Vec3 K → Vec3 K → Int) (hf : ∀ a b, f a b = - f b a) (bottom : K) (rings : List (List (Vec K))) :
    total f (roofEdges bottom rings) = - total (fun x y => f (lift bottom x) (lift bottom y)) (rings.flatMap ringEdges) := by
  unfold roofEdges
  rw [← total_neg]
  unfold total
  rw [List.map_map]
  congr 1
  apply List.map_congr_left
  intro e _
  exact hf _ _

theorem ringEdges_map {V W : Type} (g : V → W) (ring : List V) : ringEdges (ring.map g) = (ringEdges ring).map fun e => (g e.1, g e.2) := by
  unfold ringEdges
  rw [List.getLast?_map]
  cases hr : ring.getLast? with
  | none => rfl
  | some last =>
    simp only [Option.map_some]
    rw [← List.map_dropLast, ← List.map_cons, List.zip_map]
    rfl

theorem total_rotate {V : Type} (f : V → V → Int) (ring : List V) (n : Nat) : total f (ringEdges (ring.rotate n)) = total f (ringEdges ring) := by
  have one : ∀ r : List V, total f (ringEdges (r.rotate 1)) = total f (ringEdges r) := by
    intro r
    cases r with
    | nil => rfl
    | cons a l =>
      rw [← ClosedProof.zip_edges f (a :: l)]
      simp only [List.rotate_cons_succ, List.rotate_zero, List.tail_cons, List.take_succ_cons, List.take_zero]
      unfold ringEdges
      rw [List.getLast?_append]
      simp
  induction n with
  | zero => rw [List.rotate_zero]
  | succ n ih => rw [← List.rotate_rotate, one, ih]

theorem slopes_sum (look : Look K) (bottom height : K) (ring top : List (Vec K)) (shift : Nat) (hlen : top.length = ring.length) (f : Vec3 K → Vec3 K → Int)
    (hs : ∀ a b, f a b = - f b a) :
    esum f ((slopes look bottom height ((ring.rotate shift).zip top)).map place) =
      total (fun x y => f (lift (bottom + height) x) (lift (bottom + height) y)) (ringEdges top) - total (fun x y => f (lift bottom x) (lift bottom y)) (ringEdges ring) := by
  set pairs := (ring.rotate shift).zip top with hpairs
  have e1 : pairs.map Prod.fst = ring.rotate shift := List.map_fst_zip (by simp [hlen])
  have e2 : pairs.map Prod.snd = top := List.map_snd_zip (by simp [hlen])
  have key : esum f ((slopes look bottom height pairs).map place) = total (fun p q =>
      (f (lift (bottom + height) p.2) (lift (bottom + height) q.2) + - f (lift bottom p.1) (lift bottom q.1)) +
        (f (lift bottom p.1) (lift (bottom + height) p.2) - f (lift bottom q.1) (lift (bottom + height) q.2))) (pairs.zip (following pairs)) := by
    unfold slopes total
    rw [List.map_flatMap, SolidsProof.esum_flatMap]
    congr 1
    apply List.map_congr_left
    rintro ⟨⟨a, u⟩, b, v⟩ -
    simp only [List.map_cons, List.map_nil, place, facet, SolidsProof.esum_cons, SolidsProof.esum_nil]
    rw [show ∀ (z : K) (w : Vec K), above z w = lift z w from fun _ _ => rfl, show ∀ (z : K) (w : Vec K), above z w = lift z w from fun _ _ => rfl]
    have h1 := hs (lift (bottom + height) v) (lift bottom a)
    have h2 := hs (lift (bottom + height) v) (lift bottom b)
    have h3 := hs (lift bottom b) (lift bottom a)
    simp only [above, lift] at *
    linarith
  rw [key, show following pairs = pairs.tail ++ pairs.take 1 from rfl, ClosedProof.zip_edges, total_add, total_add]
  have c0 : total (fun p q : Vec K × Vec K => f (lift bottom p.1) (lift (bottom + height) p.2) - f (lift bottom q.1) (lift (bottom + height) q.2)) (ringEdges pairs) = 0 :=
    ClosedProof.total_cycle (fun p : Vec K × Vec K => f (lift bottom p.1) (lift (bottom + height) p.2)) pairs
  have c1 : total (fun p q : Vec K × Vec K => f (lift (bottom + height) p.2) (lift (bottom + height) q.2)) (ringEdges pairs) =
      total (fun x y => f (lift (bottom + height) x) (lift (bottom + height) y)) (ringEdges top) := by
    rw [← e2, ringEdges_map, ClosedProof.total_map]
  have c2 : total (fun p q : Vec K × Vec K => - f (lift bottom p.1) (lift bottom q.1)) (ringEdges pairs) =
      - total (fun x y => f (lift bottom x) (lift bottom y)) (ringEdges ring) := by
    rw [← total_rotate _ ring shift, ← e1, ringEdges_map, ClosedProof.total_map]
    rw [← total_neg]
  rw [c0, c1, c2]; ring

end RoofsProof

open RoofsProof
variable {K : Type} [Field K] [LinearOrder K] [IsStrictOrderedRing K]

/-- C87: a part with a mansard roof and one outline, for which the clipping library returns one outline with the same number of corners, is drawn with a
smaller flat part at the height of the roof and sides from each corner of the outline to a corner of the smaller one, if the first corner of the smaller one is next to a
corner `s` in the first half of the outline. Partial: square roots are exact, the result of the clipping library is a parameter. -/
theorem C87_mansard_partial (lib : Library K) (hl : Standard lib) (env : Env K) (part : BuildingSpec.Part K) (id : UInt64) (m : Mesh K)
    (done : List (Triangle K × Texture)) (hm : Built m) (hs : Paints m done []) (start : Geo K) (hd : Drawable (complete lib env) part start)
    (hroof : part.style.roofType = "mansard") (hfacade : part.style.facadeType = "flat") (contour ring : List (Vec K)) (hring : part.rings = [(contour, false)])
    (hopened : opened env.epsilon contour = ring) (hb : Bounded env.huge ring) (hlib : ∀ p, InRange (env.triangulate p)) (first : Int × Int) (rest : Terrain.Path)
    (hoff : Moved lib ring [first :: rest]) (hlen : (first :: rest).length = ring.length) (harea : 0 ≤ Terrain.area2 (first :: rest))
    (hreach : ∀ v ∈ ring, square (fromInt first) v < env.huge * env.huge)
    (hopen : opened env.epsilon (unscaled (K := K) (first :: rest)) = unscaled (first :: rest))
    (s : Nat) (hhalf : s < (ring.length + 1) / 2) (hnear : ∀ k < ring.length, k ≠ s → square (fromInt first) (ring.getD s ⟨0, 0⟩) < square (fromInt first) (ring.getD k ⟨0, 0⟩)) :
    DrawnWith (complete lib env) part id m done start fun _ outlines holes top roof => outlines = [ring] ∧ holes = [] ∧
      MansardFaces env.triangulate (part.style.roofLook id) top part.style.roofHeight ring (unscaled (first :: rest)) s roof := by
  refine part_with_roof _ part id m done hm hs start hd (mansardRoof lib env) _ (by simp [roofOf, hroof, complete, otherRoof]) ?_ hfacade
  intro p holes hp ho hi hk
  have hne : ring ≠ [] := by rw [← hopened]; exact hd.rings (contour, false) (by rw [hring]; exact List.mem_singleton.2 rfl)
  have hsingle := polygonOf_single _ part contour hring (opened_ne (epsilon := env.epsilon) (by rw [hopened]; exact hne)) p hp
  have e : (complete lib env).epsilon = env.epsilon := rfl
  rw [e, hopened] at hsingle
  have hsingle : Single env p ring := ⟨hsingle.points, hsingle.outers, hsingle.inners, hsingle.rectangle⟩
  rw [hring] at hk ⊢
  simp only [List.filter, Bool.not_false, List.map_cons, List.map_nil, e, hopened] at hk ⊢
  obtain rfl : holes = [] := by simpa using hk
  intro m done ts h
  obtain ⟨m', new, h1, h2, shift, hlt, hmin, h3⟩ := mansardRoof_draws hl env (part.style.roofLook id) part.style.roofDirection part.style.roofHeight
    (env.elevation start + (if part.style.height = 0 then 10 else part.style.height)) p ring hsingle hne hb hlib first
    rest hoff hlen hreach (by rw [if_pos harea]; exact hopen) m done ts h
  rw [if_pos harea] at h3
  obtain rfl : shift = s := by
    by_contra hc
    exact absurd (hmin s hhalf) (not_le.2 (hnear shift (by omega) hc))
  exact ⟨m', new, h1, h2, trivial, rfl, h3⟩

/-- C87: if the library returns no outline, several ones or one with another number of corners, then the roof is flat. -/
theorem C87_flat_partial (lib : Library K) (hl : Standard lib) (env : Env K) (part : BuildingSpec.Part K) (id : UInt64) (m : Mesh K)
    (done : List (Triangle K × Texture)) (hm : Built m) (hs : Paints m done []) (start : Geo K) (hd : Drawable (complete lib env) part start)
    (hroof : part.style.roofType = "mansard") (hfacade : part.style.facadeType = "flat") (contour ring : List (Vec K)) (hring : part.rings = [(contour, false)])
    (hopened : opened env.epsilon contour = ring) (hb : Bounded env.huge ring) (paths : List Terrain.Path) (hoff : Moved lib ring paths)
    (hlen : ∀ shape, paths = [shape] → shape.length ≠ ring.length) :
    DrawnWith (complete lib env) part id m done start fun io _ _ top roof => FlatFaces (part.style.roofLook id) top false io roof := by
  refine part_with_roof _ part id m done hm hs start hd (mansardRoof lib env) _ (by simp [roofOf, hroof, complete, otherRoof]) ?_ hfacade
  intro p holes hp ho hi hk
  have hne : ring ≠ [] := by rw [← hopened]; exact hd.rings (contour, false) (by rw [hring]; exact List.mem_singleton.2 rfl)
  have hsingle := polygonOf_single _ part contour hring (opened_ne (epsilon := env.epsilon) (by rw [hopened]; exact hne)) p hp
  have e : (complete lib env).epsilon = env.epsilon := rfl
  rw [e, hopened] at hsingle
  have hsingle : Single env p ring := ⟨hsingle.points, hsingle.outers, hsingle.inners, hsingle.rectangle⟩
  exact mansardRoof_flat hl env (part.style.roofLook id) part.style.roofDirection part.style.roofHeight _ p ring hsingle hne hb (hd.library p hp) paths hoff hlen

/-- C87: there are no gaps in a mansard roof: its border are the edges of the outline at the top of the walls, if the triangle library fills the smaller outline. -/
theorem C87_border (triangulate : Poly K → TriangleIo K) (look : Look K) (bottom height : K) (ring top : List (Vec K)) (shift : Nat) (ts : List (Triangle K))
    (h : MansardFaces triangulate look bottom height ring top shift ts) (hlen : top.length = ring.length)
    (hfill : ∀ p, OnlyRing p top → Fills (triangulate p) [top]) :
    HasBorder (ts.map place) (roofEdges bottom [ring]) := by
  obtain ⟨p, flat, h1, h3, rfl⟩ := h
  obtain ⟨plan, hplan, hborder⟩ := hfill p h1
  apply border_of_esum
  intro f hf
  rw [List.map_append, SolidsProof.esum_append, slopes_sum look bottom height ring top shift hlen f hf, ClosedProof.flat_sum _ _ _ _ plan hplan flat h3 f hf,
    ClosedProof.border_sum plan _ hborder _ (fun a b => hf _ _)]
  rw [total_roof f hf]
  simp only [List.flatMap_cons, List.flatMap_nil, List.append_nil, Bool.false_eq_true, if_false]
  ring

/-- C76: a part above the ground with any roof whose border are the edges of the rings is drawn as a closed surface. -/
theorem C76_roof_partial (env : Env K) (part : BuildingSpec.Part K) (id : UInt64) (m : Mesh K) (done : List (Triangle K × Texture)) (start : Geo K)
    (R : TriangleIo K → List (List (Vec K)) → List (List (Vec K)) → K → List (Triangle K) → Prop) (h : DrawnWith env part id m done start R)
    (hc : Closed (done.map fun x => place x.1)) (habove : part.style.minHeight > 0)
    (hfill : ∀ p outlines holes, polygonOf env part = .ok p → List.Forall₂ (Stored p) outlines p.outers → List.Forall₂ (Stored p) holes p.inners →
      Fills (env.triangulate p) (outlines ++ holes))
    (hR : ∀ io outlines holes top roof, Fills io (outlines ++ holes) → R io outlines holes top roof → HasBorder (roof.map place) (roofEdges top (outlines ++ holes))) :
    ∃ (m' : Mesh K) (faces : List (Triangle K × Texture)), drawPart env id m part = .ok m' ∧ Built m' ∧ Paints m' (done ++ faces) [] ∧
      Closed ((done ++ faces).map fun x => place x.1) := by
  obtain ⟨p, holes, m', roof, floor, hp, ho, hi, hk, hd, hb, hsh, hr, hfl⟩ := h
  rw [if_pos habove] at hfl
  refine ⟨m', _, hd, hb, by simpa only [List.append_assoc] using hsh, ?_⟩
  have hroof := hR _ _ _ _ _ (hfill p _ holes hp ho hi) hr
  obtain ⟨plan, hplan, hborder⟩ := hfill p _ holes hp ho hi
  apply SolidsProof.closed_of_esum
  intro f hf
  rw [List.map_append, SolidsProof.esum_append, SolidsProof.esum_of_closed _ hc f hf, Int.zero_add]
  simp only [List.map_append, List.map_map, Function.comp_def, SolidsProof.esum_append]
  have w := ClosedProof.rings_sum (part.style.facadeLook id) (env.elevation start + part.style.minHeight)
    (env.elevation start + (if part.style.height = 0 then 10 else part.style.height))
    ((part.rings.filter fun r => !r.2).map (fun r => opened env.epsilon r.1) ++ holes) f hf
  rw [ClosedProof.border_sum _ _ hroof f hf, ClosedProof.flat_sum _ _ _ _ plan hplan floor hfl f hf, ClosedProof.border_sum plan _ hborder _ (fun a b => hf _ _), w]
  rw [total_roof f hf]; simp

/-! ## Examples -/

namespace RoofsProof

/-- The triangle library returns two triangles for four corners. -/
noncomputable def quads (p : Poly ℝ) : TriangleIo ℝ :=
  match p.points with
  | [x0, y0, x1, y1, x2, y2, x3, y3] => ⟨[⟨x0, y0⟩, ⟨x1, y1⟩, ⟨x2, y2⟩, ⟨x3, y3⟩], [(0, 1, 2), (2, 3, 0)]⟩
  | _ => ⟨[], []⟩

theorem quads_range (p : Poly ℝ) : InRange (quads p) := by
  unfold quads
  split
  · show ∀ t ∈ [((0 : Int), (1 : Int), (2 : Int)), (2, 3, 0)], ∀ c ∈ [t.1, t.2.1, t.2.2], 0 ≤ c ∧ c < 4
    decide +kernel
  · intro t ht; cases ht

theorem quads_fill (p : Poly ℝ) (a b c d : Vec ℝ) (h : OnlyRing p [a, b, c, d]) : Fills (quads p) [[a, b, c, d]] := by
  have e : quads p = ⟨[⟨a.x, a.y⟩, ⟨b.x, b.y⟩, ⟨c.x, c.y⟩, ⟨d.x, d.y⟩], [(0, 1, 2), (2, 3, 0)]⟩ := by
    unfold quads
    rw [h.1]
    rfl
  rw [e]
  refine ⟨[(a, b, c), (c, d, a)], .cons ⟨0, 1, 2, rfl, rfl, rfl, rfl⟩ (.cons ⟨2, 3, 0, rfl, rfl, rfl, rfl⟩ .nil), ?_⟩
  apply border_of_esum
  intro f hf
  have := hf a c
  simp [SolidsProof.esum_cons, SolidsProof.esum_nil, ClosedProof.total, ringEdges]
  linarith [hf c a]

/-- The world of the house, with these triangles. -/
noncomputable def quadWorld (roof direction : String) : Env ℝ := { realWorld roof direction with triangulate := quads }

/-- The outline of the house moved inside by 30 centimeters. -/
def inset : Terrain.Path := [(3000000, 3000000), (37000000, 3000000), (37000000, 27000000), (3000000, 27000000)]

/-- The same, beginning with another corner. -/
def insetTurned : Terrain.Path := [(37000000, 27000000), (3000000, 27000000), (3000000, 3000000), (37000000, 3000000)]

theorem realRing_edges : ringEdges realRing = [(⟨0, 3⟩, ⟨0, 0⟩), (⟨0, 0⟩, ⟨4, 0⟩), (⟨4, 0⟩, ⟨4, 3⟩), (⟨4, 3⟩, ⟨0, 3⟩)] := rfl

theorem realRing_shortest : Shortest realRing 3 := by
  unfold Shortest
  rw [realRing_edges]
  refine ⟨by norm_num, ⟨_, List.mem_cons_self .., by norm_num [square]⟩, ?_⟩
  simp only [List.mem_cons, List.not_mem_nil, or_false]
  rintro e (rfl | rfl | rfl | rfl) <;> norm_num [square]

theorem realRing_bounded : Bounded 1000 realRing := by
  unfold Bounded
  rw [realRing_edges]
  refine ⟨by norm_num, ?_⟩
  simp only [List.mem_cons, List.not_mem_nil, or_false]
  rintro e (rfl | rfl | rfl | rfl) <;> norm_num [square]

theorem quadHouse_drawable (lib : Library ℝ) (roof direction : String) :
    Drawable (complete lib (quadWorld roof direction)) ⟨realHouse roof direction, [(realRing, false)]⟩ ⟨0, 0⟩ :=
  ⟨(realHouse_drawable lib roof direction).outline, (realHouse_drawable lib roof direction).rings, fun p _ => quads_range p⟩

theorem inset_opened : opened (1 / 1000 : ℝ) (unscaled (K := ℝ) inset) = unscaled inset := by
  unfold opened unscaled inset
  norm_num

/-- The house with a mansard roof. -/
theorem mansardHouse (distance : Geo ℝ → Geo ℝ → ℝ) :
    DrawnWith (complete (realLibrary (fun _ => 0) distance fun _ _ => [inset]) (quadWorld "mansard" "")) ⟨realHouse "mansard" "", [(realRing, false)]⟩ 7 {} [] ⟨0, 0⟩
      fun _ outlines holes top roof => outlines = [realRing] ∧ holes = [] ∧ MansardFaces quads realLook top 5 realRing (unscaled inset) 0 roof := by
  refine C87_mansard_partial _ (C86_library _ _ _) (quadWorld "mansard" "") _ 7 {} [] .empty ⟨[], [], [], ⟨rfl, by simp, by simp⟩, rfl, .nil, .nil⟩ _ (quadHouse_drawable _ _ _) rfl rfl
    realRing realRing rfl (realRing_opened _ rfl) realRing_bounded quads_range (3000000, 3000000) [(37000000, 3000000), (37000000, 27000000), (3000000, 27000000)]
    ⟨3, realRing_shortest, rfl⟩ rfl (by decide) ?_ inset_opened 0 (by decide) ?_
  · unfold realRing
    simp only [List.mem_cons, List.not_mem_nil, or_false]
    rintro v (rfl | rfl | rfl | rfl) <;> norm_num [square, fromInt, quadWorld, realWorld]
  · intro k hk hne
    simp only [realRing, List.length_cons, List.length_nil] at hk
    interval_cases k
    · exact absurd rfl hne
    all_goals norm_num [square, fromInt, realRing]

end RoofsProof

/-- The house with a mansard roof is closed. -/
example (distance : Geo ℝ → Geo ℝ → ℝ) :
    ∃ (m' : Mesh ℝ) (faces : List (Triangle ℝ × Texture)), drawPart (complete (realLibrary (fun _ => 0) distance fun _ _ => [inset]) (quadWorld "mansard" "")) 7 {}
      ⟨realHouse "mansard" "", [(realRing, false)]⟩ = .ok m' ∧ Built m' ∧ Paints m' ([] ++ faces) [] ∧ Closed (([] ++ faces).map fun x : Triangle ℝ × Texture => place x.1) := by
  refine C76_roof_partial _ _ 7 {} [] ⟨0, 0⟩ _ (mansardHouse distance) (by intro a b; rfl) (by norm_num [realHouse]) ?_ ?_
  · intro p outlines holes hp ho hi
    have hsingle := polygonOf_single _ _ realRing rfl (by simp [realRing]) p hp
    rw [show opened (complete (realLibrary (fun _ => 0) distance fun _ _ => [inset]) (quadWorld "mansard" "")).epsilon realRing = realRing from realRing_opened _ rfl] at hsingle
    obtain ⟨q, hq, h1, h2⟩ := polygon_of_ring (1 / 1000 : ℝ) 1000 (1 / 1000) realRing (by simp [realRing]) (realRing_opened _ rfl)
    have hpq : Outcome.ok p = Outcome.ok q := hp.symm.trans hq
    injection hpq with hpq
    subst hpq
    rw [ClosedProof.all_unique ho h1]
    rw [h2] at hi
    rw [List.forall₂_nil_right_iff.1 hi]
    exact quads_fill p _ _ _ _ ⟨hsingle.points, hsingle.outers, hsingle.inners⟩
  · rintro io outlines holes top roof - ⟨rfl, rfl, h⟩
    exact C87_border quads realLook top 5 realRing (unscaled inset) 0 roof h rfl (fun p hp => quads_fill p _ _ _ _ hp)

/-- If the library returns nothing, then the roof is flat. -/
example (distance : Geo ℝ → Geo ℝ → ℝ) :
    DrawnWith (complete (realLibrary (fun _ => 0) distance fun _ _ => []) (quadWorld "mansard" "")) ⟨realHouse "mansard" "", [(realRing, false)]⟩ 7 {} [] ⟨0, 0⟩
      fun io _ _ top roof => FlatFaces realLook top false io roof :=
  C87_flat_partial _ (C86_library _ _ _) (quadWorld "mansard" "") _ 7 {} [] .empty ⟨[], [], [], ⟨rfl, by simp, by simp⟩, rfl, .nil, .nil⟩ _ (quadHouse_drawable _ _ _) rfl rfl
    realRing realRing rfl (realRing_opened _ rfl) realRing_bounded [] ⟨3, realRing_shortest, rfl⟩ (by simp)

/-! ## Violations -/

/-- C87: if the outline of the library begins with a corner next to one in the second half of the outline, then the sides are twisted: here the corner in the north-east of
the smaller outline is connected with the corner in the south-east of the outline. -/
theorem C87_violated_twist (distance : Geo ℝ → Geo ℝ → ℝ) (look : Look ℝ) (height bottom : ℝ) (p : Poly ℝ) (hp : Polygon.addContour (1 / 1000) 1000 (1 / 1000)
      (newPolygon (quadWorld "mansard" "")) realRing false = .ok p) :
    Draws look.texture (mansardRoof (realLibrary (fun _ => 0) distance fun _ _ => [insetTurned]) (quadWorld "mansard" "") look "" height bottom p) fun ts =>
      ∃ t ∈ ts, t.2.1.position = ⟨4, bottom, 0⟩ ∧ t.2.2.position = ⟨37 / 10, bottom + height, 27 / 10⟩ := by
  intro m done ts hd
  obtain ⟨q, hq, hsingle⟩ := addContour_single (quadWorld "mansard" "") realRing (by simp [realRing])
  obtain rfl : p = q := by
    have := hp.symm.trans hq
    injection this
  rw [show opened (quadWorld "mansard" "").epsilon realRing = realRing from realRing_opened _ rfl] at hsingle
  have harea : Terrain.area2 [(37000000, 27000000), (3000000, 27000000), (3000000, 3000000), (37000000, 3000000)] ≥ 0 := by decide
  obtain ⟨m', new, h1, h2, shift, hlt, hmin, h3⟩ := mansardRoof_draws (C86_library (fun _ => 0) distance fun _ _ => [insetTurned]) (quadWorld "mansard" "") look "" height
    bottom p realRing hsingle (by simp [realRing]) realRing_bounded quads_range (37000000, 27000000) [(3000000, 27000000), (3000000, 3000000), (37000000, 3000000)]
    ⟨3, realRing_shortest, rfl⟩ rfl (by
      unfold realRing
      simp only [List.mem_cons, List.not_mem_nil, or_false]
      rintro v (rfl | rfl | rfl | rfl) <;> norm_num [square, fromInt, quadWorld, realWorld]) (by
      rw [if_pos harea]
      simp only [quadWorld, realWorld]
      unfold opened unscaled
      norm_num) m done ts hd
  refine ⟨m', new, h1, h2, ?_⟩
  rw [if_pos harea] at h3
  obtain rfl : shift = 1 := by
    have hlt : shift < 2 := hlt
    have := hmin 1 (by simp [realRing])
    interval_cases shift
    · exfalso; norm_num [square, fromInt, realRing] at this
    · rfl
  obtain ⟨q, flat, -, -, rfl⟩ := h3
  refine ⟨_, List.mem_append_right _ (List.mem_cons_self ..), ?_, ?_⟩
  · simp [facet, above, realRing]
  · simp [facet, above, unscaled]; norm_num

end Verif.Props
