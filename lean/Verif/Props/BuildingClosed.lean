import Verif.Props.Building
import Verif.Props.Solids

/-! # C76: buildings are closed -/
namespace Verif.Props
open Verif.MeshBuilder Verif.MeshSpec Verif.ShownSpec Verif.PolygonSpec Verif.Building Verif.BuildingSpec Verif.SolidsSpec
open Verif.Polygon (Vec Poly)
open SolidsProof (esum esum_cons esum_nil esum_append esum_flatMap closed_of_esum)

namespace ClosedProof
variable {K : Type} [Field K] [LinearOrder K]

/-- Sum of `f` over directed edges. -/
def total {V : Type} (f : V → V → Int) (l : List (V × V)) : Int := (l.map fun e => f e.1 e.2).sum

theorem total_append {V : Type} (f : V → V → Int) (l r : List (V × V)) : total f (l ++ r) = total f l + total f r := by simp [total]

theorem total_swap {V : Type} (f : V → V → Int) (hf : ∀ a b, f a b = - f b a) (l : List (V × V)) : total f (l.map Prod.swap) = - total f l := by
  unfold total
  induction l with
  | nil => rfl
  | cons e l ih => simp only [List.map_cons, List.sum_cons, ih]; rw [show f e.swap.1 e.swap.2 = - f e.1 e.2 from hf _ _]; ring

theorem count_swap {V : Type} [DecidableEq V] (l : List (V × V)) (a b : V) : (l.map Prod.swap).count (a, b) = l.count (b, a) := by
  induction l with
  | nil => rfl
  | cons e l ih =>
    obtain ⟨x, y⟩ := e
    rw [List.map_cons, List.count_cons, List.count_cons, ih]
    simp only [beq_iff_eq, Prod.swap, Prod.mk.injEq]
    simp only [and_comm]

/-- A function which changes its sign with the direction has the same sum over the triangles and over the border. -/
theorem border_sum {V : Type} [DecidableEq V] (ts : List (V × V × V)) (border : List (V × V)) (h : HasBorder ts border) (f : V → V → Int)
    (hf : ∀ a b, f a b = - f b a) : esum f ts = total f border := by
  have hp : (edges ts ++ border.map Prod.swap).Perm ((edges ts ++ border.map Prod.swap).map Prod.swap) := by
    rw [List.perm_iff_count]
    rintro ⟨a, b⟩
    rw [count_swap, List.count_append, List.count_append, count_swap, count_swap]
    exact h a b
  have h1 := (hp.map fun e => f e.1 e.2).sum_eq
  have h2 : total f (edges ts ++ border.map Prod.swap) = total f ((edges ts ++ border.map Prod.swap).map Prod.swap) := h1
  rw [total_swap f hf, total_append, total_swap f hf] at h2
  have h3 : esum f ts = total f (edges ts) := rfl
  omega

theorem esum_same {V : Type} (f : V → V → Int) (a b c x y z : V) (h : (a, b, c) ∈ [(x, y, z), (y, z, x), (z, x, y)]) :
    f a b + f b c + f c a = f x y + f y z + f z x := by
  simp only [List.mem_cons, Prod.mk.injEq, List.not_mem_nil, or_false] at h
  rcases h with ⟨rfl, rfl, rfl⟩ | ⟨rfl, rfl, rfl⟩ | ⟨rfl, rfl, rfl⟩ <;> ring

/-- A point on the ground at some height. -/
def lift (h : K) (v : Vec K) : Vec3 K := ⟨v.x, h, v.y⟩

theorem total_map {V W : Type} (f : W → W → Int) (g : V → W) (l : List (V × V)) :
    total f (l.map fun e => (g e.1, g e.2)) = total (fun x y => f (g x) (g y)) l := by simp [total, Function.comp_def]

theorem flat_sum (look : Look K) (h : K) (flip : Bool) (io : TriangleIo K) (plan : List (Vec K × Vec K × Vec K)) (hp : IsPlan io plan)
    (ts : List (Triangle K)) (hf : FlatFaces look h flip io ts) (f : Vec3 K → Vec3 K → Int) (hs : ∀ a b, f a b = - f b a) :
    esum f (ts.map place) = (if flip then 1 else -1) * esum (fun x y => f (lift h x) (lift h y)) plan := by
  unfold IsPlan at hp
  unfold FlatFaces at hf
  generalize io.triangles = cs at hp hf
  induction hp generalizing ts with
  | nil => cases hf; simp [esum_nil]
  | @cons c t cs plan hc _ ih =>
    cases hf with
    | @cons _ s _ ts hd htl =>
      obtain ⟨i, j, k, rfl, hi, hj, hk⟩ := hc
      obtain ⟨a, b, d, ⟨i', p, hi', hpi, rfl⟩, ⟨j', q, hj', hqj, rfl⟩, ⟨k', r, hk', hrk, rfl⟩, hside⟩ := hd
      simp only [Int.natCast_inj] at hi' hj' hk'
      subst hi' hj' hk'
      rw [hi] at hpi; rw [hj] at hqj; rw [hk] at hrk
      cases hpi; cases hqj; cases hrk
      obtain ⟨t1, t2, t3⟩ := t
      obtain ⟨s1, s2, s3⟩ := s
      rw [List.map_cons]
      simp only [place]
      rw [esum_cons, esum_cons, ih ts htl]
      cases flip with
      | true =>
        simp only [if_true] at hside ⊢
        have := esum_same (fun a b : Corner K => f a.position b.position) _ _ _ _ _ _ hside
        simp only at this
        rw [this]
        simp only [lift]; ring
      | false =>
        simp only [Bool.false_eq_true, if_false] at hside ⊢
        have := esum_same (fun a b : Corner K => f a.position b.position) _ _ _ _ _ _ hside
        simp only at this
        have a1 := hs s1.position s2.position
        have a2 := hs s2.position s3.position
        have a3 := hs s3.position s1.position
        simp only [lift] at this ⊢
        linarith

theorem total_cycle {V : Type} (g : V → Int) (ring : List V) : ((ringEdges ring).map fun e => g e.1 - g e.2).sum = 0 := by
  unfold ringEdges
  cases hr : ring.getLast? with
  | none => rfl
  | some last =>
    have hne : ring ≠ [] := by rintro rfl; simp at hr
    have gen : ∀ (l : List V) (a : V) , (((a :: l.dropLast).zip l).map fun e => g e.1 - g e.2).sum = match l.getLast? with | none => 0 | some z => g a - g z := by
      intro l
      induction l with
      | nil => intro a; rfl
      | cons b l ih =>
        intro a
        cases l with
        | nil => simp
        | cons c l =>
          rw [List.dropLast_cons_cons, List.zip_cons_cons, List.map_cons, List.sum_cons, ih b]
          simp only [List.getLast?_cons_cons]
          have hl : ∃ z, (c :: l).getLast? = some z := ⟨_, List.getLast?_eq_some_getLast (by simp)⟩
          obtain ⟨z, hz⟩ := hl
          rw [hz]; ring
    have := gen ring last
    rw [hr] at this
    simp only at this
    rw [this]; ring

theorem walls_sum (look : Look K) (bottom top : K) (ring : List (Vec K)) (f : Vec3 K → Vec3 K → Int) (hs : ∀ a b, f a b = - f b a) :
    esum f ((ringWalls look bottom top ring).map place) =
      total (fun x y => f (lift top x) (lift top y)) (ringEdges ring) - total (fun x y => f (lift bottom x) (lift bottom y)) (ringEdges ring) := by
  have one : ∀ e : Vec K × Vec K, esum f ((wallFaces look bottom top e.1 e.2).map place) =
      f (lift top e.1) (lift top e.2) - f (lift bottom e.1) (lift bottom e.2) + (f (lift bottom e.1) (lift top e.1) - f (lift bottom e.2) (lift top e.2)) := by
    intro e
    simp only [wallFaces, List.map_cons, List.map_nil, place, esum_cons, esum_nil]
    simp only [lift]
    rw [hs ⟨e.2.x, top, e.2.y⟩ ⟨e.2.x, bottom, e.2.y⟩, hs ⟨e.2.x, bottom, e.2.y⟩ ⟨e.1.x, bottom, e.1.y⟩, hs ⟨e.2.x, top, e.2.y⟩ ⟨e.1.x, bottom, e.1.y⟩]
    ring
  have cyc := total_cycle (fun v : Vec K => f (lift bottom v) (lift top v)) ring
  unfold ringWalls
  rw [List.map_flatMap, esum_flatMap]
  simp only [one]
  unfold total
  generalize ringEdges ring = es at cyc ⊢
  rw [List.map_reverse, List.sum_reverse]
  have split : ∀ l : List (Vec K × Vec K), (l.map fun e => f (lift top e.1) (lift top e.2) - f (lift bottom e.1) (lift bottom e.2) +
      (f (lift bottom e.1) (lift top e.1) - f (lift bottom e.2) (lift top e.2))).sum =
      (l.map fun e => f (lift top e.1) (lift top e.2)).sum - (l.map fun e => f (lift bottom e.1) (lift bottom e.2)).sum +
      (l.map fun e => f (lift bottom e.1) (lift top e.1) - f (lift bottom e.2) (lift top e.2)).sum := by
    intro l
    induction l with
    | nil => rfl
    | cons e l ih => simp only [List.map_cons, List.sum_cons, ih]; ring
  rw [split, cyc]; ring

theorem rings_sum (look : Look K) (bottom top : K) (rings : List (List (Vec K))) (f : Vec3 K → Vec3 K → Int) (hs : ∀ a b, f a b = - f b a) :
    esum f ((rings.flatMap (ringWalls look bottom top)).map place) =
      total (fun x y => f (lift top x) (lift top y)) (rings.flatMap ringEdges) -
        total (fun x y => f (lift bottom x) (lift bottom y)) (rings.flatMap ringEdges) := by
  induction rings with
  | nil => rfl
  | cons r rings ih =>
    simp only [List.flatMap_cons, List.map_append, esum_append, total_append, walls_sum look bottom top r f hs, ih]; ring

theorem zip_edges {V : Type} (f : V → V → Int) (ring : List V) : total f (ring.zip (ring.tail ++ ring.take 1)) = total f (ringEdges ring) := by
  unfold ringEdges
  cases ring with
  | nil => rfl
  | cons a l =>
    rw [List.getLast?_eq_some_getLast (by simp)]
    simp only [List.tail_cons, List.take_succ_cons, List.take_zero]
    have gen : ∀ (l : List V) (a b : V), total f ((a :: l).zip (l ++ [b])) =
        total f ((a :: l).dropLast.zip l) + f ((a :: l).getLast (by simp)) b := by
      intro l
      induction l with
      | nil => intro a b; simp [total]
      | cons c l ih =>
        intro a b
        rw [List.cons_append, List.zip_cons_cons, List.dropLast_cons_cons, List.zip_cons_cons]
        simp only [total, List.map_cons, List.sum_cons]
        have := ih c b
        simp only [total] at this
        rw [this, List.getLast_cons (by simp : c :: l ≠ [])]; ring
    rw [gen l a a, List.zip_cons_cons]
    simp only [total, List.map_cons, List.sum_cons]; ring

theorem pyramid_sum (look : Look K) (top height : K) (ring : List (Vec K)) (f : Vec3 K → Vec3 K → Int) (hs : ∀ a b, f a b = - f b a) :
    esum f ((pyramid look top height ring).map place) = - total (fun x y => f (lift top x) (lift top y)) (ringEdges ring) := by
  have cyc := total_cycle (fun v : Vec K => f (lift top v) ⟨(mean ring).x, top + height, (mean ring).y⟩) ring
  have h1 := zip_edges (fun x y => f (lift top x) ⟨(mean ring).x, top + height, (mean ring).y⟩ - f (lift top y) ⟨(mean ring).x, top + height, (mean ring).y⟩) ring
  have h2 := zip_edges (fun x y => f (lift top x) (lift top y)) ring
  rw [← h2]
  have h3 : total (fun x y => f (lift top x) ⟨(mean ring).x, top + height, (mean ring).y⟩ - f (lift top y) ⟨(mean ring).x, top + height, (mean ring).y⟩)
    (ringEdges ring) = 0 := cyc
  rw [h3] at h1
  unfold pyramid
  generalize mean ring = c at h1 ⊢
  generalize ring.zip (ring.tail ++ ring.take 1) = es at h1 ⊢
  clear h2 h3 cyc
  have gen : ∀ es : List (Vec K × Vec K), esum f ((es.map fun e => ((⟨⟨e.1.x, top, e.1.y⟩, look.triangleColor ⟨e.1.x, top, e.1.y⟩, ⟨0, 0⟩⟩ : Corner K),
      (⟨⟨c.x, top + height, c.y⟩, look.triangleColor ⟨e.1.x, top, e.1.y⟩, ⟨look.scaled height, 0⟩⟩ : Corner K),
      (⟨⟨e.2.x, top, e.2.y⟩, look.triangleColor ⟨e.1.x, top, e.1.y⟩, ⟨look.scaled height, look.scaled height⟩⟩ : Corner K))).map place) =
      total (fun x y => f (lift top x) ⟨c.x, top + height, c.y⟩ - f (lift top y) ⟨c.x, top + height, c.y⟩) es - total (fun x y => f (lift top x) (lift top y)) es := by
    intro es
    induction es with
    | nil => rfl
    | cons e es ih =>
      simp only [List.map_cons, place] at ih ⊢
      rw [esum_cons, ih]
      simp only [total, List.map_cons, List.sum_cons, lift]
      have a1 := hs ⟨c.x, top + height, c.y⟩ ⟨e.2.x, top, e.2.y⟩
      have a2 := hs ⟨e.2.x, top, e.2.y⟩ ⟨e.1.x, top, e.1.y⟩
      linarith
  rw [gen, h1]; ring

theorem pyramids_sum (look : Look K) (top height : K) (rings : List (List (Vec K))) (f : Vec3 K → Vec3 K → Int) (hs : ∀ a b, f a b = - f b a) :
    esum f ((rings.flatMap (pyramid look top height)).map place) = - total (fun x y => f (lift top x) (lift top y)) (rings.flatMap ringEdges) := by
  induction rings with
  | nil => rfl
  | cons r rings ih => simp only [List.flatMap_cons, List.map_append, esum_append, total_append, pyramid_sum look top height r f hs, ih]; ring

end ClosedProof

open ClosedProof
variable {K : Type} [Field K] [LinearOrder K]

/-- C76: the roof, the walls and a floor of a part are a closed surface without any gap, if the triangle library fills its rings: flat roofs in any
case, pyramidal roofs if there are no holes. If the part has no floor, then only the floor is missing. -/
theorem C76_faces (roofLook facadeLook : Look K) (type : String) (roofHeight bottom top : K) (io : TriangleIo K) (outlines holes : List (List (Vec K)))
    (hfill : Fills io (outlines ++ holes)) (roof floor : List (Triangle K)) (hroof : RoofFaces roofLook type roofHeight top io outlines roof)
    (htype : type = "flat" ∨ (type = "pyramidal" ∧ holes = [])) (hfloor : FlatFaces roofLook bottom true io floor) :
    Closed ((roof ++ floor ++ (outlines ++ holes).flatMap (ringWalls facadeLook bottom top)).map place) := by
  obtain ⟨plan, hplan, hborder⟩ := hfill
  apply closed_of_esum
  intro f hf
  rw [List.map_append, List.map_append, esum_append, esum_append, rings_sum _ _ _ _ f hf, flat_sum _ _ _ _ plan hplan floor hfloor f hf,
    border_sum plan _ hborder _ (fun a b => hf _ _)]
  have hr : esum f (roof.map place) = - total (fun x y => f (lift top x) (lift top y)) ((outlines ++ holes).flatMap ringEdges) := by
    rcases hroof with ⟨rfl, -⟩ | ⟨-, hroof⟩ | ⟨rfl, rfl⟩
    · rcases htype with h | ⟨h, -⟩ <;> exact absurd h (by decide)
    · rw [flat_sum _ _ _ _ plan hplan roof hroof f hf, border_sum plan _ hborder _ (fun a b => hf _ _)]
      simp
    · rcases htype with h | ⟨-, rfl⟩
      · exact absurd h (by decide)
      · rw [pyramids_sum _ _ _ _ f hf, List.append_nil]
  rw [hr]; simp

/-- C76: a part above the ground is drawn as a closed surface: if the mesh was closed before, then it is closed afterwards. -/
theorem C76_part_partial (env : Env K) (part : Part K) (id : UInt64) (h : Solid env part) (m : Mesh K) (done : List (Triangle K × Texture)) (hm : Built m)
    (hs : Paints m done []) (hc : Closed (done.map fun x => place x.1)) :
    ∃ (m' : Mesh K) (faces : List (Triangle K × Texture)), drawPart env id m part = .ok m' ∧ Built m' ∧ Paints m' (done ++ faces) [] ∧
      Closed ((done ++ faces).map fun x => place x.1) := by
  obtain ⟨start, ring, rest, hf⟩ := h.outline
  obtain ⟨p, holes, m', roof, floor, hp, ho, hi, hk, hd, hb, hsh, hr, hfl⟩ := C75_part_partial env part id m done hm hs start ring rest hf h.rings
    (fun p hp => (h.library p hp).1) (by rcases h.roof with h | ⟨h, -⟩ <;> simp [h]) h.facade
  rw [if_pos h.above] at hfl
  refine ⟨m', _, hd, hb, by simpa only [List.append_assoc] using hsh, ?_⟩
  have key := C76_faces _ (part.style.facadeLook id) _ _ _ _ _ _ holes ((h.library p hp).2 _ _ ho hi) roof floor hr (by
    rcases h.roof with h | ⟨h, hr⟩
    · exact .inl h
    · refine .inr ⟨h, ?_⟩
      have : part.rings.filter (fun r => r.2) = [] := by
        rw [List.filter_eq_nil_iff]; intro r hr'; simp [hr r hr']
      rw [this] at hk
      simpa using hk) hfl
  apply closed_of_esum
  intro f hf
  rw [List.map_append, esum_append, SolidsProof.esum_of_closed _ hc f hf, Int.zero_add]
  have := SolidsProof.esum_of_closed _ key f hf
  rw [← this]
  congr 1
  simp [Function.comp_def]

/-- C76: a building whose parts are above the ground is one closed surface. -/
theorem C76_building_partial (env : Env K) (id : UInt64) (parts : List (Part K)) (h : ∀ part ∈ parts, Solid env part) :
    ∃ (m' : Mesh K) (faces : List (Triangle K)), drawParts env id {} parts = .ok m' ∧ Shows m' faces ∧ Closed (faces.map place) := by
  have gen : ∀ (parts : List (Part K)) (m : Mesh K) (done : List (Triangle K × Texture)), (∀ part ∈ parts, Solid env part) → Built m → Paints m done [] →
      Closed (done.map fun x => place x.1) → ∃ (m' : Mesh K) (faces : List (Triangle K × Texture)), drawParts env id m parts = .ok m' ∧ Paints m' faces [] ∧
        Closed (faces.map fun x => place x.1) := by
    intro parts
    induction parts with
    | nil => intro m done _ _ hs hc; exact ⟨m, done, rfl, hs, hc⟩
    | cons part parts ih =>
      intro m done h hb hs hc
      obtain ⟨m1, faces, h1, b1, s1, c1⟩ := C76_part_partial env part id (h part (List.mem_cons_self ..)) m done hb hs hc
      obtain ⟨m2, faces2, h2, s2, c2⟩ := ih m1 _ (fun p hp => h p (List.mem_cons_of_mem _ hp)) b1 s1 c1
      exact ⟨m2, faces2, by simp only [drawParts, h1, Outcome.bind, h2], s2, c2⟩
  obtain ⟨m', faces, h1, h2, h3⟩ := gen parts {} [] h .empty ⟨[], [], [], ⟨rfl, by simp, by simp⟩, rfl, .nil, .nil⟩ (by intro a b; rfl)
  exact ⟨m', faces.map Prod.fst, h1, by simpa using C73_paints_shows _ _ _ h2, by simpa [Function.comp_def] using h3⟩

/-! ## Examples -/

namespace ClosedProof

theorem stored_unique {p : Poly K} {a b : List (Vec K)} {r : Nat × Nat} (ha : Stored p a r) (hb : Stored p b r) : a = b := by
  obtain ⟨lo, h1, -, -, h2⟩ := ha
  obtain ⟨lo', h3, -, -, h4⟩ := hb
  rw [h1] at h3
  injection h3 with e1 e2
  obtain rfl : lo = lo' := by omega
  have hl : a.length = b.length := by omega
  apply List.ext_getElem hl
  intro i hi hi'
  obtain ⟨x1, y1⟩ := h2 i _ (List.getElem?_eq_getElem hi)
  obtain ⟨x2, y2⟩ := h4 i _ (List.getElem?_eq_getElem hi')
  rw [x1] at x2
  rw [y1] at y2
  injection x2 with x2
  injection y2 with y2
  cases ha' : a[i]; cases hb' : b[i]
  rw [ha', hb'] at x2 y2
  simp only at x2 y2
  rw [x2, y2]

theorem all_unique {p : Poly K} {as bs : List (List (Vec K))} {rs : List (Nat × Nat)} (ha : List.Forall₂ (Stored p) as rs)
    (hb : List.Forall₂ (Stored p) bs rs) : as = bs := by
  induction ha generalizing bs with
  | nil => cases hb; rfl
  | cons h _ ih => cases hb with | cons h' t => rw [stored_unique h h', ih t]

theorem border_of_perm {V : Type} [DecidableEq V] (ts : List (V × V × V)) (border : List (V × V))
    (h : (edges ts ++ border.map Prod.swap).Perm ((edges ts ++ border.map Prod.swap).map Prod.swap)) : HasBorder ts border := by
  intro a b
  have := (List.perm_iff_count.1 h) (a, b)
  rwa [count_swap, List.count_append, List.count_append, count_swap, count_swap] at this

/-- A look without texture. -/
def plain : Look ℚ := ⟨fun _ => 1, fun p => p, fun _ => 2, fun _ _ h => (1, h), fun _ => 3, fun h => h, ⟨0, 0, 0, 0, 0, 0, 0⟩⟩

/-- A house of 4 to 3 meters, on pillars of 2 meters, on a hill of 100 meters. -/
def house (roof : String) : Style ℚ := ⟨true, false, 12, 2, roof, 5, "", "flat", fun _ => plain, fun _ => plain⟩

/-- The library returns two triangles. -/
def world (roof : String) : Env ℚ := ⟨1 / 1000, 1000, 1 / 1000, fun _ => house roof, fun _ => 100,
  fun _ => ⟨[⟨0, 0⟩, ⟨4, 0⟩, ⟨4, 3⟩, ⟨0, 3⟩], [(0, 1, 2), (2, 3, 0)]⟩, fun _ => none, fun _ => none⟩

/-- The footprint, counterclockwise, with a repeated last point. -/
def footprint : List (Geo ℚ) := [⟨0, 0⟩, ⟨0, 4⟩, ⟨3, 4⟩, ⟨3, 0⟩, ⟨0, 0⟩]

theorem house_solid (roof : String) (hr : roof = "flat" ∨ roof = "pyramidal") : Solid (world roof) ⟨house roof, [(footprint.map ground, false)]⟩ := by
  refine ⟨⟨⟨0, 0⟩, _, _, rfl⟩, ?_, ?_, ?_, rfl, by show (2 : ℚ) > 0; norm_num⟩
  · intro r hr
    simp only [List.mem_singleton] at hr
    subst hr
    show opened (1 / 1000 : ℚ) (footprint.map ground) ≠ []
    decide +kernel
  · intro p hp
    refine ⟨?_, ?_⟩
    · show ∀ t ∈ [((0 : Int), (1 : Int), (2 : Int)), (2, 3, 0)], ∀ c ∈ [t.1, t.2.1, t.2.2], 0 ≤ c ∧ c < 4
      decide +kernel
    intro outlines holes ho hi
    obtain ⟨p', kept, h1, h2, h3, h4, -⟩ := C45_closed_partial (1 / 1000 : ℚ) 1000 (1 / 1000) [(footprint.map ground, false)] (by
      intro c hc; simp only [List.mem_singleton] at hc; subst hc; simp [footprint])
    have hpp : p = p' := by
      have : Outcome.ok p = Outcome.ok p' := hp.symm.trans h1
      injection this
    subst hpp
    have e1 := all_unique ho h2
    have e2 := all_unique hi h4
    have e3 : kept = [] := by simpa using h3
    have e4 : outlines ++ holes = [[⟨0, 0⟩, ⟨4, 0⟩, ⟨4, 3⟩, ⟨0, 3⟩]] := by
      rw [e1, e2, e3]
      decide +kernel
    rw [e4]
    refine ⟨[(⟨0, 0⟩, ⟨4, 0⟩, ⟨4, 3⟩), (⟨4, 3⟩, ⟨0, 3⟩, ⟨0, 0⟩)], ?_, ?_⟩
    · exact .cons ⟨0, 1, 2, rfl, rfl, rfl, rfl⟩ (.cons ⟨2, 3, 0, rfl, rfl, rfl, rfl⟩ .nil)
    · apply border_of_perm
      decide +kernel
  · rcases hr with h | h
    · exact .inl h
    · exact .inr ⟨h, by intro r hr; simp only [List.mem_singleton] at hr; subst hr; rfl⟩

end ClosedProof

/-- A house with a flat and a house with a pyramidal roof are closed. -/
example : ∃ m faces, drawParts (world "flat") 7 {} [⟨house "flat", [(footprint.map ground, false)]⟩] = .ok m ∧ Shows m faces ∧ Closed (faces.map place) :=
  C76_building_partial _ _ _ (by intro p hp; simp only [List.mem_singleton] at hp; subst hp; exact house_solid "flat" (.inl rfl))

example : ∃ m faces, drawParts (world "pyramidal") 7 {} [⟨house "pyramidal", [(footprint.map ground, false)]⟩] = .ok m ∧ Shows m faces ∧
    Closed (faces.map place) :=
  C76_building_partial _ _ _ (by intro p hp; simp only [List.mem_singleton] at hp; subst hp; exact house_solid "pyramidal" (.inr rfl))

/-- The same house: 2 triangles for the roof, 2 for the floor and 8 for the walls. -/
example : (match drawParts (world "flat") 7 {} [⟨house "flat", [(footprint.map ground, false)]⟩] with
    | .ok m => m.triangles.length == 3 * 12 && m.vertices.take 3 == [0, 0, 112]
    | _ => false) = true := by
  decide +kernel

/-- A tile with a house, a marked part of a house, a way and a relation with two houses: two meshes. -/
example : (match topAll (world "flat") {} [.area 1 [] footprint, .area 2 [⟨0xFFFFFFFF, 0⟩] footprint, .way 3 [] footprint,
      .relation 4 [] [.area 5 [] footprint, .node 6 [] ⟨0, 0⟩, .area 7 [] footprint]] with
    | .ok s => s.delivered.map fun d => (d.1, d.2.triangles.length)
    | _ => []) = [(1, 36), (4, 72)] := by
  decide +kernel

/-! ## Violations -/

/-- C74: a way in a multipolygon stops all buildings of the tile. -/
theorem C74_violated_way (env : Env K) (id : UInt64) (tags : List Tag) (wid : UInt64) (wtags : List Tag) (cs : List (Geo K)) (ms es : List (Element (Geo K)))
    (hi : hasIgnore tags = false) (hm : IsMultipolygon env.style (.relation id tags (.way wid wtags cs :: ms))) :
    topAll env {} (.relation id tags (.way wid wtags cs :: ms) :: es) = .throw "domain_error" := by
  obtain ⟨h1, h2⟩ := hm
  simp [topAll, top, Element.tags, hi, visit, h1, h2, collectAll, collect, Outcome.bind]

/-- C74: a node in a multipolygon is refused as well, and stops the tile. -/
theorem C74_violated_node (env : Env K) (id : UInt64) (tags : List Tag) (nid : UInt64) (ntags : List Tag) (c : Geo K) (ms es : List (Element (Geo K)))
    (hi : hasIgnore tags = false) (hm : IsMultipolygon env.style (.relation id tags (.node nid ntags c :: ms))) :
    topAll env {} (.relation id tags (.node nid ntags c :: ms) :: es) = .throw "domain_error" := by
  obtain ⟨h1, h2⟩ := hm
  simp [topAll, top, Element.tags, hi, visit, h1, h2, collectAll, collect, Outcome.bind]

/-- C74: a relation without any building delivers an empty mesh. -/
theorem C74_violated_empty (env : Env K) (e : Element (Geo K)) (hd : Delivered env.style e = true) (hf : Fine env.style e) (hp : parts env.style e = []) :
    ((topAll env {} [e]).bind fun s => .ok s.delivered) = .ok [(e.id, {})] := by
  rw [C74_meshes_partial env [e] (by intro e' h; simp only [List.mem_singleton] at h; subst h; exact hf)]
  simp [List.filter, hd, meshesOf, hp, drawParts, Outcome.bind]

/-- A relation of a forest. -/
example : Delivered (fun _ => { house "flat" with building := false }) (.relation 1 [] [.area 2 [] footprint]) = true ∧
    parts (fun _ => { house "flat" with building := false }) (.relation 1 [] [.area 2 [] footprint]) = [] := by
  refine ⟨by decide +kernel, ?_⟩
  simp [parts, partsOf, IsMultipolygon]

/-- C75: a type of roofs which is not known reads the end of the map, although the rest of the part is fine. -/
theorem C75_violated_roof (env : Env K) (part : Part K) (id : UInt64) (m : Mesh K) (p : Poly K) (hp : polygonOf env part = .ok p) (hne : 2 ≤ p.points.length)
    (hroof : part.style.roofType ∉ ["none", "flat", "pyramidal", "dome", "mansard", "skillion", "round"]) :
    drawPart env id m part = .ub "end iterator" := by
  have hfirst : ∃ v, pointAt p 0 = .ok v := by
    unfold pointAt
    have h0 : vecAt p.points 0 = .ok p.points[0] := by simp [vecAt, show 0 < p.points.length by omega]
    have h1 : vecAt p.points (0 + 1) = .ok p.points[1] := by simp [vecAt, show 1 < p.points.length by omega]
    exact ⟨⟨p.points[0], p.points[1]⟩, by rw [h0, h1]; rfl⟩
  obtain ⟨v, hv⟩ := hfirst
  simp only [List.mem_cons, List.not_mem_nil, or_false, not_or] at hroof
  obtain ⟨a, b, c, d, e, f, g⟩ := hroof
  have hp' : Polygon.addAll env.epsilon env.huge env.tiny { rectangle := .empty env.huge env.tiny } part.rings = .ok p := hp
  simp [drawPart, hp', Outcome.bind, draw, hv, attachRoof, roofOf, a, b, c, d, e, f, g]

/-- A gabled roof. -/
example : drawPart (world "gabled") 7 {} ⟨house "gabled", [(footprint.map ground, false)]⟩ = .ub "end iterator" :=
  C75_violated_roof (world "gabled") _ 7 {} _ rfl (by decide +kernel) (by decide)

namespace ClosedProof

/-- Counts an edge. -/
def counter {V : Type} [DecidableEq V] (a b x y : V) : Int := (if x = a ∧ y = b then 1 else 0) - (if x = b ∧ y = a then 1 else 0)

theorem counter_swap {V : Type} [DecidableEq V] (a b x y : V) : counter a b x y = - counter a b y x := by
  unfold counter
  simp only [and_comm (a := y = a), and_comm (a := y = b)]
  ring

omit [Field K] in
theorem counter_total (h : K) (a b : Vec K) (l : List (Vec K × Vec K)) :
    total (fun x y => counter (lift h a) (lift h b) (lift h x) (lift h y)) l = (l.count (a, b) : Int) - l.count (b, a) := by
  have inj : ∀ x y : Vec K, lift h x = lift h y ↔ x = y := by
    intro x y
    constructor
    · intro e; simp only [lift, Vec3.mk.injEq, true_and] at e; cases x; cases y; simp_all
    · rintro rfl; rfl
  unfold total counter
  simp only [inj]
  induction l with
  | nil => rfl
  | cons e l ih =>
    rw [List.map_cons, List.sum_cons, ih, List.count_cons, List.count_cons]
    obtain ⟨x, y⟩ := e
    simp only [beq_iff_eq, Prod.mk.injEq]
    push_cast
    split <;> split <;> simp <;> ring

omit [Field K] in
theorem counter_other (h k : K) (hk : h ≠ k) (a b : Vec K) (l : List (Vec K × Vec K)) :
    total (fun x y => counter (lift h a) (lift h b) (lift k x) (lift k y)) l = 0 := by
  have ne : ∀ x y : Vec K, lift k x ≠ lift h y := by
    intro x y e; simp only [lift, Vec3.mk.injEq] at e; exact hk e.2.1.symm
  unfold total counter
  simp [ne]

end ClosedProof

/-- C76: a part whose rings run the other way round is not closed, although the triangle library fills them: the walls are turned inside out. Areas which do not come
from OpenStreetMap may run either way. -/
theorem C76_violated_clockwise (roofLook facadeLook : Look K) (roofHeight bottom top : K) (hne : top ≠ bottom) (io : TriangleIo K) (rings : List (List (Vec K)))
    (plan : List (Vec K × Vec K × Vec K)) (hplan : IsPlan io plan) (hborder : HasBorder plan ((rings.flatMap ringEdges).map Prod.swap))
    (a b : Vec K) (hab : (rings.flatMap ringEdges).count (a, b) ≠ (rings.flatMap ringEdges).count (b, a)) (roof floor : List (Triangle K))
    (hroof : RoofFaces roofLook "flat" roofHeight top io rings roof) (hfloor : FlatFaces roofLook bottom true io floor) :
    ¬ Closed ((roof ++ floor ++ rings.flatMap (ringWalls facadeLook bottom top)).map place) := by
  intro hc
  have hf := counter_swap (lift top a) (lift top b)
  have := SolidsProof.esum_of_closed _ hc _ hf
  have hr : FlatFaces roofLook top false io roof := by
    rcases hroof with ⟨h, -⟩ | ⟨-, h⟩ | ⟨h, -⟩
    · exact absurd h (by decide)
    · exact h
    · exact absurd h (by decide)
  rw [List.map_append, List.map_append, esum_append, esum_append, rings_sum _ _ _ _ _ hf, flat_sum _ _ _ _ plan hplan floor hfloor _ hf,
    flat_sum _ _ _ _ plan hplan roof hr _ hf, border_sum plan _ hborder _ (fun a b => hf _ _), border_sum plan _ hborder _ (fun a b => hf _ _),
    total_swap _ (fun a b => hf _ _), total_swap _ (fun a b => hf _ _), counter_total, counter_other top bottom hne] at this
  simp only [Bool.false_eq_true, if_false, if_true] at this
  omega

/-- C76: a pyramidal roof above a hole is not closed: the walls of the hole end in the air. -/
theorem C76_violated_hole (roofLook facadeLook : Look K) (roofHeight bottom top : K) (io : TriangleIo K) (outlines holes : List (List (Vec K)))
    (hfill : Fills io (outlines ++ holes)) (a b : Vec K) (hab : (holes.flatMap ringEdges).count (a, b) ≠ (holes.flatMap ringEdges).count (b, a))
    (roof floor : List (Triangle K)) (hroof : RoofFaces roofLook "pyramidal" roofHeight top io outlines roof) (hfloor : FlatFaces roofLook bottom true io floor) :
    ¬ Closed ((roof ++ floor ++ (outlines ++ holes).flatMap (ringWalls facadeLook bottom top)).map place) := by
  intro hc
  obtain ⟨plan, hplan, hborder⟩ := hfill
  have hf := counter_swap (lift top a) (lift top b)
  have := SolidsProof.esum_of_closed _ hc _ hf
  have hr : roof = outlines.flatMap (pyramid roofLook top roofHeight) := by
    rcases hroof with ⟨h, -⟩ | ⟨h, -⟩ | ⟨-, h⟩
    · exact absurd h (by decide)
    · exact absurd h (by decide)
    · exact h
  rw [List.map_append, List.map_append, esum_append, esum_append, rings_sum _ _ _ _ _ hf, flat_sum _ _ _ _ plan hplan floor hfloor _ hf, hr,
    pyramids_sum _ _ _ _ _ hf, border_sum plan _ hborder _ (fun a b => hf _ _), List.flatMap_append, total_append, total_append,
    counter_total _ _ _ (outlines.flatMap ringEdges), counter_total _ _ _ (holes.flatMap ringEdges)] at this
  simp only [if_true] at this
  omega

/-- The house, clockwise. -/
example : ∃ plan, IsPlan ((world "flat").triangulate ⟨[], [], [], [], [], .empty 0 0⟩) plan ∧
    HasBorder plan (([[⟨0, 3⟩, ⟨4, 3⟩, ⟨4, 0⟩, ⟨0, 0⟩]].flatMap ringEdges).map Prod.swap) ∧
    ([[⟨0, 3⟩, ⟨4, 3⟩, ⟨4, 0⟩, ⟨0, 0⟩]].flatMap ringEdges).count ((⟨4, 3⟩, ⟨4, 0⟩) : Vec ℚ × Vec ℚ) ≠
    ([[⟨0, 3⟩, ⟨4, 3⟩, ⟨4, 0⟩, ⟨0, 0⟩]].flatMap ringEdges).count ((⟨4, 0⟩, ⟨4, 3⟩) : Vec ℚ × Vec ℚ) := by
  refine ⟨[(⟨0, 0⟩, ⟨4, 0⟩, ⟨4, 3⟩), (⟨4, 3⟩, ⟨0, 3⟩, ⟨0, 0⟩)], ?_, ?_, ?_⟩
  · exact .cons ⟨0, 1, 2, rfl, rfl, rfl, rfl⟩ (.cons ⟨2, 3, 0, rfl, rfl, rfl, rfl⟩ .nil)
  · apply border_of_perm
    decide +kernel
  · decide +kernel

/-- A square with a square hole, filled by eight triangles. -/
example : ∃ (io : TriangleIo ℚ) (outline hole : List (Vec ℚ)) (a b : Vec ℚ), Fills io ([outline] ++ [hole]) ∧
    ([hole].flatMap ringEdges).count (a, b) ≠ ([hole].flatMap ringEdges).count (b, a) := by
  refine ⟨⟨[⟨0, 0⟩, ⟨3, 0⟩, ⟨3, 3⟩, ⟨0, 3⟩, ⟨1, 1⟩, ⟨1, 2⟩, ⟨2, 2⟩, ⟨2, 1⟩],
      [(0, 1, 4), (1, 7, 4), (1, 2, 7), (2, 6, 7), (2, 3, 6), (3, 5, 6), (3, 0, 5), (0, 4, 5)]⟩,
    [⟨0, 0⟩, ⟨3, 0⟩, ⟨3, 3⟩, ⟨0, 3⟩], [⟨1, 1⟩, ⟨1, 2⟩, ⟨2, 2⟩, ⟨2, 1⟩], ⟨1, 1⟩, ⟨1, 2⟩, ⟨[(⟨0, 0⟩, ⟨3, 0⟩, ⟨1, 1⟩), (⟨3, 0⟩, ⟨2, 1⟩, ⟨1, 1⟩), (⟨3, 0⟩, ⟨3, 3⟩, ⟨2, 1⟩), (⟨3, 3⟩, ⟨2, 2⟩, ⟨2, 1⟩), (⟨3, 3⟩, ⟨0, 3⟩, ⟨2, 2⟩),
      (⟨0, 3⟩, ⟨1, 2⟩, ⟨2, 2⟩), (⟨0, 3⟩, ⟨0, 0⟩, ⟨1, 2⟩), (⟨0, 0⟩, ⟨1, 1⟩, ⟨1, 2⟩)], ?_, ?_⟩, ?_⟩
  · exact .cons ⟨0, 1, 4, rfl, rfl, rfl, rfl⟩ (.cons ⟨1, 7, 4, rfl, rfl, rfl, rfl⟩ (.cons ⟨1, 2, 7, rfl, rfl, rfl, rfl⟩
      (.cons ⟨2, 6, 7, rfl, rfl, rfl, rfl⟩ (.cons ⟨2, 3, 6, rfl, rfl, rfl, rfl⟩ (.cons ⟨3, 5, 6, rfl, rfl, rfl, rfl⟩
      (.cons ⟨3, 0, 5, rfl, rfl, rfl, rfl⟩ (.cons ⟨0, 4, 5, rfl, rfl, rfl, rfl⟩ .nil)))))))
  · apply border_of_perm
    decide +kernel
  · decide +kernel

end Verif.Props
