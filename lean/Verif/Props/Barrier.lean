import Mathlib.Tactic.Positivity
import Verif.Props.BarrierSpec
import Verif.Props.Along
import Verif.Props.Solids

/-! # Walls (C81) and barriers (C82) -/
namespace Verif.Props
open AlongProof (slope)
open Verif.MeshBuilder Verif.AlongSpec Verif.MeshSpec Verif.BarrierSpec Verif.Barrier
open Verif.ShownSpec (Triangle Shows Corner Paints)
open Verif.Along (World Delivered divInt newPoint normalized copyMeshAlong)
open Verif.Building (Look)
open Verif.BuildingSpec (place)
open Verif.SolidsSpec (Closed)
set_option linter.unusedSectionVars false
namespace BarrierProof
open BuildingProof ShownProof AlongProof SolidsProof

variable {K : Type} [Field K] [LinearOrder K] [IsStrictOrderedRing K] [FloorRing K]

/-! ### Walls -/

/-- A well formed mesh which shows what `m0` shows and then these triangles. If all that `m0` shows has textures, then the new triangles have this texture or
none so far. -/
def Grown (m0 : Mesh K) (t : Texture) (m : Mesh K) (new : List (Triangle K)) : Prop :=
  Built m ∧ (∀ ts, Shows m0 ts → Shows m (ts ++ new)) ∧ ∀ done, Paints m0 done [] → Drawn t done m new

theorem Grown.start {m0 : Mesh K} (t : Texture) (h : Built m0) : Grown m0 t m0 [] :=
  ⟨h, fun ts hs => by simpa using hs, fun _ hd => Drawn.start h hd⟩

theorem Grown.texture {m0 m : Mesh K} {t : Texture} {new : List (Triangle K)} (h : Grown m0 t m new) :
    ∃ m', writeTexture m t = .ok m' ∧ Built m' ∧ (∀ ts, Shows m0 ts → Shows m' (ts ++ new)) ∧
      ∀ done, Paints m0 done [] → Paints m' (done ++ new.map fun x => (x, t)) [] := by
  obtain ⟨rs, hrs⟩ := C44_map m h.1
  obtain ⟨m', rs', hw, -⟩ := C44_write m rs hrs t
  refine ⟨m', hw, .texture t h.1 hw, fun ts hs => C73_texture m m' _ (h.2.1 ts hs) t hw, fun done hd => ?_⟩
  obtain ⟨m'', hw', -, hp⟩ := (h.2.2 done hd).texture
  rw [hw] at hw'
  cases hw'
  exact hp

variable {m0 : Mesh K} {t : Texture}

theorem plane_good (look : Look K) (height : K) {m : Mesh K} {ts : List (Triangle K)} (h : Grown m0 t m ts) (a b : Vec3 K) :
    Grown m0 t (plane look height m a b) (ts ++ sideFaces look height a b) := by
  obtain ⟨n, hn⟩ := C43_well_formed m h.1
  refine ⟨.plane _ _ _ _ _ _ h.1, fun us hu => ?_, fun done hd => (h.2.2 done hd).add hn (addPlane_adds hn a b height _ _ _) (.plane _ _ _ _ _ _ h.1)⟩
  rw [← List.append_assoc]
  exact C73_plane m n hn _ (h.2.1 us hu) a b height _ _ _

theorem triangle_good (look : Look K) {m : Mesh K} {ts : List (Triangle K)} (h : Grown m0 t m ts) (x : Vec3 K × Vec3 K × Vec3 K) :
    Grown m0 t (triangle look m x)
      (ts ++ [(⟨x.1, look.triangleColor x.1, ⟨0, 0⟩⟩, ⟨x.2.1, look.triangleColor x.1, ⟨1, 0⟩⟩, ⟨x.2.2, look.triangleColor x.1, ⟨1, 1⟩⟩)]) := by
  obtain ⟨n, hn⟩ := C43_well_formed m h.1
  refine ⟨.triangle _ _ _ _ _ _ _ _ h.1, fun us hu => ?_, fun done hd => (h.2.2 done hd).triangle _ _ _ _ _ _ _⟩
  rw [← List.append_assoc]
  exact C73_triangle m n hn _ (h.2.1 us hu) _ _ _ _ _ _ _

theorem box_good (look : Look K) (height : K) {m : Mesh K} {ts : List (Triangle K)} (h : Grown m0 t m ts) (l0 l1 r0 r1 : Vec3 K) :
    Grown m0 t (buildParallelepiped look l0 l1 r0 r1 height m) (ts ++ boxFaces look height l0 l1 r0 r1) := by
  have g := triangle_good look (triangle_good look (plane_good look height (plane_good look height (plane_good look height
    (plane_good look height h l1 l0) r1 l1) r0 r1) l0 r0) (⟨l0.x, l0.y + height, l0.z⟩, ⟨l1.x, l1.y + height, l1.z⟩, ⟨r0.x, r0.y + height, r0.z⟩))
    (⟨r0.x, r0.y + height, r0.z⟩, ⟨l1.x, l1.y + height, l1.z⟩, ⟨r1.x, r1.y + height, r1.z⟩)
  simpa only [buildParallelepiped, boxFaces, topFace, List.append_assoc, List.cons_append, List.nil_append] using g

theorem segment_good (w : World K) (hq : ∀ x, 0 ≤ x → 0 ≤ w.sqrt x ∧ w.sqrt x * w.sqrt x = x) (he : 0 ≤ w.epsilon) (look : Look K) (size : WallSize K) (a b : Geo K)
    (hd : w.epsilon < w.sqrt ((b.lon - a.lon) * (b.lon - a.lon) + (b.lat - a.lat) * (b.lat - a.lat))) {m : Mesh K} {ts : List (Triangle K)} (h : Grown m0 t m ts) :
    ∃ box, IsBox look w.elevation size (a, b) box ∧ Grown m0 t (buildSegment w look size ⟨a.lon, a.lat⟩ ⟨b.lon, b.lat⟩ m) (ts ++ box) := by
  have hr := hq ((b.lon - a.lon) * (b.lon - a.lon) + (b.lat - a.lat) * (b.lat - a.lat)) (add_nonneg (mul_self_nonneg _) (mul_self_nonneg _))
  have hn : normalized w ⟨b.lon - a.lon, b.lat - a.lat⟩ = ⟨(b.lon - a.lon) / w.sqrt ((b.lon - a.lon) * (b.lon - a.lon) + (b.lat - a.lat) * (b.lat - a.lat)),
      (b.lat - a.lat) / w.sqrt ((b.lon - a.lon) * (b.lon - a.lon) + (b.lat - a.lat) * (b.lat - a.lat))⟩ := by
    unfold normalized; simp only; rw [if_pos hd]
  generalize w.sqrt ((b.lon - a.lon) * (b.lon - a.lon) + (b.lat - a.lat) * (b.lat - a.lat)) = l at *
  have hl : 0 < l := lt_of_le_of_lt he hd
  have hl' : l ≠ 0 := hl.ne'
  refine ⟨_, ⟨⟨-((b.lat - a.lat) / l), (b.lon - a.lon) / l⟩, ?_, ?_, ?_, rfl⟩, ?_⟩
  · simp only; ring
  · have : -((b.lat - a.lat) / l) * -((b.lat - a.lat) / l) + (b.lon - a.lon) / l * ((b.lon - a.lon) / l) =
      ((b.lon - a.lon) * (b.lon - a.lon) + (b.lat - a.lat) * (b.lat - a.lat)) / (l * l) := by field_simp; ring
    simp only [this]
    rw [← hr.2, div_self (mul_ne_zero hl' hl')]
  · have : (b.lon - a.lon) * ((b.lon - a.lon) / l) - (b.lat - a.lat) * -((b.lat - a.lat) / l) =
      ((b.lon - a.lon) * (b.lon - a.lon) + (b.lat - a.lat) * (b.lat - a.lat)) / l := by field_simp; ring
    simp only [this]
    rw [← hr.2]
    positivity
  · have g := box_good look size.height h (besideGround w.elevation size.heightOffset size.width ⟨-((b.lat - a.lat) / l), (b.lon - a.lon) / l⟩ a)
      (besideGround w.elevation size.heightOffset size.width ⟨-((b.lat - a.lat) / l), (b.lon - a.lon) / l⟩ b)
      (besideGround w.elevation size.heightOffset (-size.width) ⟨-((b.lat - a.lat) / l), (b.lon - a.lon) / l⟩ a)
      (besideGround w.elevation size.heightOffset (-size.width) ⟨-((b.lat - a.lat) / l), (b.lon - a.lon) / l⟩ b)
    have e1 : ∀ x : K, x + -((b.lat - a.lat) / l) * size.width = x + size.width * -((b.lat - a.lat) / l) := fun x => by ring
    have e2 : ∀ x : K, x + (b.lon - a.lon) / l * size.width = x + size.width * ((b.lon - a.lon) / l) := fun x => by ring
    have e3 : ∀ x : K, x - -((b.lat - a.lat) / l) * size.width = x + -size.width * -((b.lat - a.lat) / l) := fun x => by ring
    have e4 : ∀ x : K, x - (b.lon - a.lon) / l * size.width = x + -size.width * ((b.lon - a.lon) / l) := fun x => by ring
    unfold buildSegment
    simp only [hn, e1, e2, e3, e4]
    simpa only [besideGround] using g

theorem share_zero (p q : Geo K) : share p q 0 = p := by
  obtain ⟨a, b⟩ := p
  simp [share]

theorem share_one (p q : Geo K) : share p q 1 = q := by
  obtain ⟨a, b⟩ := q
  simp [share]

/-- The pieces of one part of a way, from piece number `i` on. -/
theorem steps_good (w : World K) (hq : ∀ x, 0 ≤ x → 0 ≤ w.sqrt x ∧ w.sqrt x * w.sqrt x = x) (he : 0 ≤ w.epsilon) (look : Look K) (size : WallSize K) (ratio : K)
    (p q : Geo K) (count : Nat) (hc : 0 < count)
    (hd : ∀ piece ∈ pieces ratio count p q,
      w.epsilon < w.sqrt ((piece.2.lon - piece.1.lon) * (piece.2.lon - piece.1.lon) + (piece.2.lat - piece.1.lat) * (piece.2.lat - piece.1.lat)))
    (k i : Nat) (hk : i + k ≤ count) {m : Mesh K} {ts : List (Triangle K)} (h : Grown m0 t m ts) :
    ∃ (m' : Mesh K) (boxes : List (List (Triangle K))),
      foldO (fun s (j : Nat) => wallStep w look size ratio p q (count : Int) s (j + 1)) (m, share p q ((i : K) / (count : K))) (List.range' i k) =
        .ok (m', share p q (((i + k : Nat) : K) / (count : K))) ∧
      List.Forall₂ (fun (j : Nat) box => IsBox look w.elevation size (share p q ((j : K) / (count : K)), share p q (((j : K) + ratio) / (count : K))) box)
        (List.range' i k) boxes ∧ Grown m0 t m' (ts ++ boxes.flatten) := by
  have hcK : (count : K) ≠ 0 := by exact_mod_cast hc.ne'
  induction k generalizing i m ts with
  | zero => exact ⟨m, [], by simp [foldO], .nil, by simpa using h⟩
  | succ k ih =>
    have hmem : (share p q ((i : K) / (count : K)), share p q (((i : K) + ratio) / (count : K))) ∈ pieces ratio count p q := by
      unfold pieces
      exact List.mem_map.2 ⟨i, List.mem_range.2 (by omega), rfl⟩
    obtain ⟨box, hb, g⟩ := segment_good w hq he look size _ _ (hd _ hmem) h
    obtain ⟨m', boxes, h1, h2, h3⟩ := ih (i + 1) (by omega) g
    refine ⟨m', box :: boxes, ?_, ?_, ?_⟩
    · have hfin : (if (count : Int) = 1 then q else newPoint p q (((i + 1 : Nat) : K) / ((count : Int) : K))) = share p q (((i + 1 : Nat) : K) / (count : K)) := by
        split
        · rename_i h1
          have : count = 1 := by omega
          subst this
          have : i = 0 := by omega
          subst this
          simp [share_one]
        · rw [newPoint_eq, Int.cast_natCast]
      have hend : (⟨(share p q ((i : K) / (count : K))).lon + ((share p q (((i + 1 : Nat) : K) / (count : K))).lon - (share p q ((i : K) / (count : K))).lon) * ratio,
          (share p q ((i : K) / (count : K))).lat + ((share p q (((i + 1 : Nat) : K) / (count : K))).lat - (share p q ((i : K) / (count : K))).lat) * ratio⟩ : Vec2 K) =
          ⟨(share p q (((i : K) + ratio) / (count : K))).lon, (share p q (((i : K) + ratio) / (count : K))).lat⟩ := by
        unfold share
        push_cast
        congr 1 <;> (field_simp; ring)
      rw [List.range'_succ]
      simp only [foldO, wallStep, hfin, hend, Outcome.bind]
      rw [show i + (k + 1) = i + 1 + k by omega, ← h1]
      rfl
    · rw [List.range'_succ]
      exact .cons hb h2
    · simpa only [List.flatten_cons, List.append_assoc] using h3

theorem pair_good (w : World K) (hq : ∀ x, 0 ≤ x → 0 ≤ w.sqrt x ∧ w.sqrt x * w.sqrt x = x) (he : 0 ≤ w.epsilon) (look : Look K) (size : WallSize K) (p : Geo K × Geo K)
    (hl : 0 < size.length + size.gap) (h0 : 0 ≤ w.distance p.1 p.2) (h1 : w.distance p.1 p.2 < 2 ^ 31 * (size.length + size.gap))
    (hd : ∀ row, Pieces w size p row → ∀ piece ∈ row,
      w.epsilon < w.sqrt ((piece.2.lon - piece.1.lon) * (piece.2.lon - piece.1.lon) + (piece.2.lat - piece.1.lat) * (piece.2.lat - piece.1.lat)))
    {m : Mesh K} {ts : List (Triangle K)} (h : Grown m0 t m ts) :
    ∃ (m' : Mesh K) (row : List (Geo K × Geo K)) (boxes : List (List (Triangle K))), wallPair w look size m p = .ok m' ∧ Pieces w size p row ∧
      List.Forall₂ (IsBox look w.elevation size) row boxes ∧ Grown m0 t m' (ts ++ boxes.flatten) := by
  obtain ⟨n, hn, hf⟩ := divInt_fits (w.distance p.1 p.2) (size.length + size.gap) hl h0 h1
  have hp : Pieces w size p (pieces (size.length / (size.length + size.gap)) (max n 1) p.1 p.2) := ⟨max n 1, ⟨n, hf, rfl⟩, rfl⟩
  obtain ⟨m', boxes, e, hb, g⟩ := steps_good w hq he look size (size.length / (size.length + size.gap)) p.1 p.2 (max n 1) (by omega) (hd _ hp) (max n 1) 0 (by omega) h
  refine ⟨m', _, boxes, ?_, hp, ?_, g⟩
  · unfold wallPair
    have hm : max (n : Int) 1 = ((max n 1 : Nat) : Int) := by omega
    simp only [hn, Outcome.bind, hm, Int.toNat_natCast]
    have hz : share p.1 p.2 (((0 : Nat) : K) / ((max n 1 : Nat) : K)) = p.1 := by simp [share_zero]
    rw [hz] at e
    rw [List.range_eq_range', e]
  · unfold pieces
    rw [List.forall₂_map_left_iff, List.range_eq_range']
    exact hb

theorem wall_good (w : World K) (hq : ∀ x, 0 ≤ x → 0 ≤ w.sqrt x ∧ w.sqrt x * w.sqrt x = x) (he : 0 ≤ w.epsilon) (look : Look K) (size : WallSize K) (cs : List (Geo K))
    (hb : cs = [] ∨ Buildable w size cs) {m : Mesh K} (h : Built m) :
    ∃ m' new, wall w look size cs m = .ok m' ∧ Built m' ∧ (∀ ts, Shows m ts → Shows m' (ts ++ new)) ∧
      (∀ done, Paints m done [] → Paints m' (done ++ new.map fun x => (x, look.texture)) []) ∧ WallFaces w look size cs new := by
  rcases hb with rfl | hb
  · exact ⟨m, [], rfl, h, fun ts hs => by simpa using hs, fun _ hd => by simpa using hd, [], [], .nil, .nil, rfl⟩
  have key : ∀ (l : List (Geo K × Geo K)), (∀ p ∈ l, p ∈ parts cs) → ∀ {m' : Mesh K} {ts : List (Triangle K)}, Grown m look.texture m' ts →
      ∃ (m'' : Mesh K) (rows : List (List (Geo K × Geo K))) (boxes : List (List (Triangle K))), foldO (wallPair w look size) m' l = .ok m'' ∧
        List.Forall₂ (Pieces w size) l rows ∧ List.Forall₂ (IsBox look w.elevation size) rows.flatten boxes ∧ Grown m look.texture m'' (ts ++ boxes.flatten) := by
    intro l
    induction l with
    | nil => intro _ m' ts h; exact ⟨m', [], [], rfl, .nil, .nil, by simpa using h⟩
    | cons p l ih =>
      intro hl m' ts h
      have hp := hl p (by simp)
      obtain ⟨m1, row, b1, e1, p1, i1, g1⟩ := pair_good w hq he look size p (by have := hb.length; have := hb.gap; linarith) (hb.distance p hp).1 (hb.distance p hp).2
        (hb.direction p hp) h
      obtain ⟨m2, rows, b2, e2, p2, i2, g2⟩ := ih (fun p hp => hl p (by simp [hp])) g1
      refine ⟨m2, row :: rows, b1 ++ b2, by simp only [foldO, e1, Outcome.bind, e2], .cons p1 p2, ?_, ?_⟩
      · rw [List.flatten_cons]; exact List.rel_append i1 i2
      · rwa [List.flatten_append, ← List.append_assoc]
  cases cs with
  | nil => exact ⟨m, [], rfl, h, fun ts hs => by simpa using hs, fun _ hd => by simpa using hd, [], [], .nil, .nil, rfl⟩
  | cons c cs =>
    obtain ⟨m1, rows, boxes, e1, r1, b1, g1⟩ := key (parts (c :: cs)) (fun p hp => hp) (Grown.start look.texture h)
    rw [List.nil_append] at g1
    obtain ⟨m2, e2, g2, g3, g4⟩ := g1.texture
    refine ⟨m2, boxes.flatten, ?_, g2, g3, g4, rows, boxes, r1, b1, rfl⟩
    simp only [parts, List.tail_cons] at e1
    simp only [wall, e1, Outcome.bind, e2]

/-! ### Barriers -/

theorem surface_move (env : Env K) (style : Style K) (a b : Vec3 K) :
    pillarSurface env style b = (pillarSurface env style a).map fun t =>
      (⟨b.x + (t.1.x - a.x), b.y + (t.1.y - a.y), b.z + (t.1.z - a.z)⟩, ⟨b.x + (t.2.1.x - a.x), b.y + (t.2.1.y - a.y), b.z + (t.2.1.z - a.z)⟩,
        ⟨b.x + (t.2.2.x - a.x), b.y + (t.2.2.y - a.y), b.z + (t.2.2.z - a.z)⟩) := by
  have point : ∀ (f : K) (v : Vec3 K), Solids.plus (Solids.plus b (Solids.times ⟨0, 1, 0⟩ f)) v =
      ⟨b.x + ((Solids.plus (Solids.plus a (Solids.times ⟨0, 1, 0⟩ f)) v).x - a.x), b.y + ((Solids.plus (Solids.plus a (Solids.times ⟨0, 1, 0⟩ f)) v).y - a.y),
        b.z + ((Solids.plus (Solids.plus a (Solids.times ⟨0, 1, 0⟩ f)) v).z - a.z)⟩ := by
    intro f v
    unfold Solids.plus
    simp only
    congr 1 <;> ring
  have middle : ∀ f : K, Solids.plus b (Solids.times ⟨0, 1, 0⟩ f) =
      ⟨b.x + ((Solids.plus a (Solids.times ⟨0, 1, 0⟩ f)).x - a.x), b.y + ((Solids.plus a (Solids.times ⟨0, 1, 0⟩ f)).y - a.y),
        b.z + ((Solids.plus a (Solids.times ⟨0, 1, 0⟩ f)).z - a.z)⟩ := by
    intro f
    unfold Solids.plus
    simp only
    congr 1 <;> ring
  unfold pillarSurface Solids.Cylinder.generate
  simp only [List.map_flatMap]
  congr 1; funext j
  congr 1; funext i
  unfold Solids.Cylinder.segment Solids.Cylinder.isCone Solids.Cylinder.getRadius
  simp only [id, List.map_append, List.map_cons, List.map_nil]
  rw [point, point, point, point, middle, middle]
  congr 1
  · congr 1
    split <;> rfl
  · split <;> rfl

theorem triangles_good (look : Look K) (l : List (Vec3 K × Vec3 K × Vec3 K)) {m : Mesh K} {ts : List (Triangle K)} (h : Grown m0 t m ts) :
    ∃ new, Grown m0 t (l.foldl (triangle look) m) (ts ++ new) ∧ new.map place = l ∧ ∀ x ∈ new, Tinted look (fun p => p) x := by
  induction l generalizing m ts with
  | nil => exact ⟨[], by simpa using h, rfl, by simp⟩
  | cons x l ih =>
    obtain ⟨new, g, e, c⟩ := ih (triangle_good look h x)
    refine ⟨_ :: new, by simpa using g, by rw [List.map_cons, e]; rfl, ?_⟩
    intro y hy
    rcases List.mem_cons.1 hy with rfl | hy
    · exact ⟨_, rfl, rfl, rfl, rfl⟩
    · exact c y hy

theorem stand_place (env : Env K) (style : Style K) (c spot : Geo K) (ts : List (Triangle K))
    (h : ts.map place = pillarSurface env style ⟨c.lon, env.world.elevation c, c.lat⟩) :
    (ts.map (stand env.world.elevation c spot)).map place =
      pillarSurface env style ⟨spot.lon, env.world.elevation c + env.world.elevation spot, spot.lat⟩ := by
  rw [surface_move env style ⟨c.lon, env.world.elevation c, c.lat⟩, ← h, List.map_map, List.map_map]
  apply List.map_congr_left
  intro t _
  have e : ∀ x : K, env.world.elevation spot + x = env.world.elevation c + env.world.elevation spot + (x - env.world.elevation c) := fun x => by ring
  simp only [Function.comp, place, stand, standCorner, e]

theorem pillar_good (env : Env K) (style : Style K) (id : UInt64) (cs : List (Geo K)) (hs : 0 < style.step)
    (hd : ∀ p ∈ parts cs, 0 ≤ env.world.distance p.1 p.2 ∧ env.world.distance p.1 p.2 < 2 ^ 31 * style.step) :
    ∃ r : Option (Mesh K), buildPillar env style id cs = .ok r ∧
      match (generalizing := false) cs with
      | [] => r = none
      | [c] => ∃ m ts, r = some m ∧ Built m ∧ Textured m (style.look id) ts ∧ ts.map place = pillarSurface env style ⟨c.lon, env.world.elevation c, c.lat⟩ ∧
        ∀ t ∈ ts, Tinted (style.look id) (fun p => p) t
      | c :: cs => ∃ (m : Mesh K) (ts : List (Triangle K)) (rows : List (List (Geo K))), r = some m ∧ Built m ∧ Textured m (style.look id) ts ∧
        List.Forall₂ (PillarRow env.world style) (parts (c :: cs)) rows ∧
        (ts.map place = rows.flatten.flatMap fun s => pillarSurface env style ⟨s.lon, env.world.elevation c + env.world.elevation s, s.lat⟩) ∧
        ∀ t ∈ ts, ∃ s ∈ rows.flatten, Tinted (style.look id) (fun p => ⟨s.lon + (p.x - c.lon), env.world.elevation s + p.y, s.lat + (p.z - c.lat)⟩) t := by
  cases cs with
  | nil => exact ⟨none, rfl, rfl⟩
  | cons c rest =>
    obtain ⟨ts, g0, e0, c0⟩ := triangles_good (style.look id) ((pillarCylinder env style c).generate env.world.epsilon (fun v => v))
      (Grown.start (style.look id).texture (.empty : Built ({} : Mesh K)))
    have e0 : ts.map place = pillarSurface env style ⟨c.lon, env.world.elevation c, c.lat⟩ := e0
    rw [List.nil_append] at g0
    obtain ⟨proto, e1, g1, g2, g3⟩ := g0.texture
    have g2 : Shows proto ts := by simpa using g2 [] (nice_empty (b := True)).2.1
    have g3 : Paints proto (ts.map fun x => (x, (style.look id).texture)) [] := by simpa using g3 [] ((nice_empty (b := True)).2.2 trivial)
    have gn : Nice True proto (ts.map fun x => (x, (style.look id).texture)) := ⟨g1, by simpa [Function.comp_def] using g2, fun _ => g3⟩
    cases rest with
    | nil =>
      refine ⟨some proto, ?_, proto, ts, rfl, g1, ⟨g2, g3⟩, e0, c0⟩
      simp only [buildPillar, e1, Outcome.bind, List.isEmpty_nil, if_true]
    | cons d rest =>
      have key : ∀ (l : List (Geo K × Geo K)), (∀ p ∈ l, p ∈ parts (c :: d :: rest)) → ∀ {m : Mesh K} {td : List (Triangle K × Texture)}, Nice True m td →
          ∃ (m' : Mesh K) (rows : List (List (Geo K))), foldO (fun m p => copyMeshAlong env.world c p.1 p.2 proto m style.step) m l = .ok m' ∧
            List.Forall₂ (PillarRow env.world style) l rows ∧
            Nice True m' (td ++ rows.flatten.flatMap fun s => (ts.map fun x => (x, (style.look id).texture)).map (standTextured env.world.elevation c s)) := by
        intro l
        induction l with
        | nil => intro _ m td h; exact ⟨m, [], rfl, .nil, by simpa using h⟩
        | cons p l ih =>
          intro hl m td h
          have hp := hd p (hl p (by simp))
          obtain ⟨count, m1, f1, k1, h1, -⟩ := along_good env.world c p.1 p.2 style.step hs hp.1 hp.2 gn h
          obtain ⟨m2, rows, k2, r2, h2⟩ := ih (fun p hp => hl p (by simp [hp])) h1
          refine ⟨m2, spots p.1 p.2 count :: rows, by simp only [foldO, k1, Outcome.bind, k2], .cons ⟨count, f1, rfl⟩ r2, ?_⟩
          rwa [List.flatten_cons, List.flatMap_append, ← List.append_assoc]
      obtain ⟨m, rows, k, r, g⟩ := key (parts (c :: d :: rest)) (fun p hp => hp) nice_empty
      simp only [parts, List.tail_cons] at k
      have e : (rows.flatten.flatMap fun s => (ts.map fun x => (x, (style.look id).texture)).map (standTextured env.world.elevation c s)) =
          (rows.flatten.flatMap fun s => ts.map (stand env.world.elevation c s)).map fun x => (x, (style.look id).texture) := by
        simp only [List.map_flatMap, List.map_map, Function.comp_def, standTextured]
      rw [List.nil_append, e] at g
      refine ⟨some m, ?_, m, rows.flatten.flatMap fun s => ts.map (stand env.world.elevation c s), rows, rfl, g.1,
        ⟨by simpa [Function.comp_def] using g.2.1, g.2.2 trivial⟩, r, ?_, ?_⟩
      · simp only [buildPillar, e1, Outcome.bind, List.isEmpty_cons, Bool.false_eq_true, if_false, k]
      · rw [List.map_flatMap]
        congr 1; funext s
        exact stand_place env style c s ts e0
      · intro x hx
        obtain ⟨s, hs, hx⟩ := List.mem_flatMap.1 hx
        obtain ⟨y, hy, rfl⟩ := List.mem_map.1 hx
        obtain ⟨p, h1, h2, h3, h4⟩ := c0 y hy
        exact ⟨s, hs, p, by simp only [stand, standCorner, h1], h2, h3, h4⟩

/-- The meshes of one element if the style is known. -/
theorem build_good (env : Env K) (hq : ∀ x, 0 ≤ x → 0 ≤ env.world.sqrt x ∧ env.world.sqrt x * env.world.sqrt x = x) (he : 0 ≤ env.world.epsilon) (top : Element (Geo K))
    (id : UInt64) (cs : List (Geo K)) (h : Possible env (top, id, cs)) :
    ∃ r, (if (env.style top).pillar then buildPillar env (env.style top) id cs else buildWall env (env.style top) id cs) = .ok r ∧
      Barriers env (top, id, cs) (match r with | some m => [⟨"barrier:", id, m⟩] | none => []) := by
  unfold Possible at h
  unfold Barriers
  simp only at h ⊢
  cases hp : (env.style top).pillar with
  | true =>
    rw [hp] at h
    simp only [if_true] at h ⊢
    obtain ⟨r, e, hr⟩ := pillar_good env (env.style top) id cs h.1 h.2
    refine ⟨r, e, ?_⟩
    rcases cs with _ | ⟨c, _ | ⟨d, cs⟩⟩
    · simp only at hr; subst hr; rfl
    · obtain ⟨m, ts, rfl, hb⟩ := hr
      exact ⟨m, ts, rfl, hb⟩
    · obtain ⟨m, ts, rows, rfl, hb⟩ := hr
      exact ⟨m, ts, rows, rfl, hb⟩
  | false =>
    rw [hp] at h
    simp only [Bool.false_eq_true, if_false] at h ⊢
    obtain ⟨m, new, e, g1, g2, g3, hw⟩ := wall_good env.world hq he ((env.style top).look id)
      ⟨(env.style top).width, (env.style top).height, 0, (env.style top).length, (env.style top).gap⟩ cs h .empty
    exact ⟨some m, by simp only [buildWall, e, Outcome.bind], m, new, rfl, g1,
      ⟨by simpa using g2 [] (nice_empty (b := True)).2.1, by simpa using g3 [] ((nice_empty (b := True)).2.2 trivial)⟩, hw⟩

theorem build_eq (env : Env K) (hq : ∀ x, 0 ≤ x → 0 ≤ env.world.sqrt x ∧ env.world.sqrt x * env.world.sqrt x = x) (he : 0 ≤ env.world.epsilon) (top e : Element (Geo K))
    (id : UInt64) (cs : List (Geo K)) (s : State K) (hs : s.style = some (env.style top) ∨ s.style = none ∧ e = top) (h : Possible env (top, id, cs)) :
    ∃ ds, build env s e id cs = .ok { s with delivered := s.delivered ++ ds } ∧ Barriers env (top, id, cs) ds := by
  obtain ⟨r, e1, hb⟩ := build_good env hq he top id cs h
  refine ⟨_, ?_, hb⟩
  rcases hs with hs | ⟨hs, rfl⟩
  · simp only [build, setStyle, hs, e1, Outcome.bind, resetStyle, Bool.false_eq_true, if_false]
    cases s
    simp only at hs
    subst hs
    cases r <;> simp
  · simp only [build, setStyle, hs, e1, Outcome.bind, resetStyle, if_true]
    cases s
    simp only at hs
    subst hs
    cases r <;> simp

mutual
theorem visit_eq' (env : Env K) (hq : ∀ x, 0 ≤ x → 0 ≤ env.world.sqrt x ∧ env.world.sqrt x * env.world.sqrt x = x) (he : 0 ≤ env.world.epsilon) (top : Element (Geo K)) :
    (e : Element (Geo K)) → (s : State K) → (s.style = some (env.style top) ∨ s.style = none ∧ e = top) → (∀ j ∈ simple e, Possible env (top, j)) →
    ∃ dss, visit env s e = .ok { s with delivered := s.delivered ++ dss.flatten } ∧ List.Forall₂ (Barriers env) ((simple e).map fun j => (top, j)) dss
  | .node id tags c, s, hs, h => by
    obtain ⟨ds, h1, h2⟩ := build_eq env hq he top (.node id tags c) id [c] s hs (h _ (by simp [simple]))
    exact ⟨[ds], by simp [visit, h1], .cons h2 .nil⟩
  | .way id tags cs, s, hs, h => by
    obtain ⟨ds, h1, h2⟩ := build_eq env hq he top (.way id tags cs) id cs s hs (h _ (by simp [simple]))
    exact ⟨[ds], by simp [visit, h1], .cons h2 .nil⟩
  | .area id tags cs, s, hs, h => by
    obtain ⟨ds, h1, h2⟩ := build_eq env hq he top (.area id tags cs) id cs s hs (h _ (by simp [simple]))
    exact ⟨[ds], by simp [visit, h1], .cons h2 .nil⟩
  | .relation id tags members, s, hs, h => by
    rcases hs with hs | ⟨hs, rfl⟩
    · obtain ⟨dss, h1, h2⟩ := visitAll_eq' env hq he top members s hs (by simpa [simple] using h)
      refine ⟨dss, ?_, by simpa [simple] using h2⟩
      simp only [visit, setStyle, hs, h1, Outcome.bind, resetStyle, Bool.false_eq_true, if_false]
    · obtain ⟨dss, h1, h2⟩ := visitAll_eq' env hq he (.relation id tags members) members { s with style := some (env.style (.relation id tags members)) } rfl
        (by simpa [simple] using h)
      refine ⟨dss, ?_, by simpa [simple] using h2⟩
      cases s
      simp only at hs
      subst hs
      simp only [visit, setStyle, h1, Outcome.bind, resetStyle, if_true]

theorem visitAll_eq' (env : Env K) (hq : ∀ x, 0 ≤ x → 0 ≤ env.world.sqrt x ∧ env.world.sqrt x * env.world.sqrt x = x) (he : 0 ≤ env.world.epsilon)
    (top : Element (Geo K)) : (es : List (Element (Geo K))) → (s : State K) → s.style = some (env.style top) → (∀ j ∈ simpleIn es, Possible env (top, j)) →
    ∃ dss, visitAll env s es = .ok { s with delivered := s.delivered ++ dss.flatten } ∧ List.Forall₂ (Barriers env) ((simpleIn es).map fun j => (top, j)) dss
  | [], s, _, _ => ⟨[], by simp [visitAll], .nil⟩
  | e :: es, s, hs, h => by
    obtain ⟨a, h1, h2⟩ := visit_eq' env hq he top e s (.inl hs) fun j hj => h j (by simp [simpleIn, hj])
    obtain ⟨b, h3, h4⟩ := visitAll_eq' env hq he top es { s with delivered := s.delivered ++ a.flatten } hs fun j hj => h j (by simp [simpleIn, hj])
    refine ⟨a ++ b, by simp [visitAll, h1, Outcome.bind, h3], ?_⟩
    simp only [simpleIn, List.map_append]
    exact List.rel_append h2 h4
end

end BarrierProof
open BarrierProof

variable {K : Type} [Field K] [LinearOrder K] [IsStrictOrderedRing K] [FloorRing K]

/-- C81: a wall along any way consists of boxes, one for each piece of the way, in order: their corners are beside the ends of the piece, on the ground, and
they have the height of the wall; they have the texture of the look, while all that was shown before keeps its texture. Partial: exact arithmetic; pieces need a length (`C81_violated_length`) and a direction. -/
theorem C81_wall_partial (w : World K) (hq : ∀ x, 0 ≤ x → 0 ≤ w.sqrt x ∧ w.sqrt x * w.sqrt x = x) (he : 0 ≤ w.epsilon) (look : Look K) (size : WallSize K)
    (cs : List (Geo K)) (hb : Buildable w size cs) (m : Mesh K) (ts : List (Triangle K)) (hm : Built m) (hs : Shows m ts) :
    ∃ m' new, Barrier.wall w look size cs m = .ok m' ∧ Built m' ∧ Shows m' (ts ++ new) ∧
      (∀ done, Paints m done [] → Paints m' (done ++ new.map fun x => (x, look.texture)) []) ∧ WallFaces w look size cs new := by
  obtain ⟨m', new, h1, h2, h3, h4, h5⟩ := wall_good w hq he look size cs (.inr hb) hm
  exact ⟨m', new, h1, h2, h3 ts hs, h4, h5⟩

/-- C81: the pieces of a part of a way: the first one begins where the part begins; where a piece and its gap end, the next piece begins, or the part ends. Along
`d` metres the pieces and gaps have at least the lengths which were asked for and at most twice of them, unless the part is too short: then it is one piece. -/
theorem C81_pieces (p q : Geo K) (length gap d : K) (hl : 0 < length) (hg : 0 ≤ gap) (count : Nat) (hc : PieceCount (length + gap) d count) :
    (∃ a, (pieces (length / (length + gap)) count p q).head? = some (p, a)) ∧
    (∀ (i : Nat) (piece : Geo K × Geo K), (pieces (length / (length + gap)) count p q)[i]? = some piece →
      ⟨piece.2.lat + (q.lat - p.lat) * (gap / (length + gap) / (count : K)), piece.2.lon + (q.lon - p.lon) * (gap / (length + gap) / (count : K))⟩ =
        if h : i + 1 < count then ((pieces (length / (length + gap)) count p q)[i + 1]'(by simpa [pieces] using h)).1 else q) ∧
    (length + gap ≤ d → length ≤ d * (length / (length + gap)) / (count : K) ∧ d * (length / (length + gap)) / (count : K) < 2 * length ∧
      gap ≤ d * (gap / (length + gap)) / (count : K) ∧ d * (gap / (length + gap)) / (count : K) ≤ 2 * gap) ∧
    (d < length + gap → count = 1) := by
  obtain ⟨n, ⟨hn1, hn2⟩, rfl⟩ := hc
  have hf : 0 < length + gap := by linarith
  have hcK : (0 : K) < ((max n 1 : Nat) : K) := by
    have : 0 < max n 1 := by omega
    exact_mod_cast this
  refine ⟨?_, ?_, ?_, ?_⟩
  · obtain ⟨k, hk⟩ : ∃ k, max n 1 = k + 1 := ⟨max n 1 - 1, by omega⟩
    rw [hk]
    refine ⟨share p q ((((0 : Nat) : K) + length / (length + gap)) / ((k + 1 : Nat) : K)), ?_⟩
    simp [pieces, List.range_succ_eq_map, share_zero]
  · intro i piece hp
    have hi : i < max n 1 := by
      have := (List.getElem?_eq_some_iff.1 hp).1
      simpa [pieces] using this
    generalize max n 1 = count at *
    have hp' : piece = (share p q ((i : K) / (count : K)), share p q (((i : K) + length / (length + gap)) / (count : K))) := by
      simp only [pieces, List.getElem?_map, List.getElem?_range hi, Option.map_some, Option.some.injEq] at hp
      exact hp.symm
    subst hp'
    have hne : length + gap ≠ 0 := hf.ne'
    have hcne : (count : K) ≠ 0 := hcK.ne'
    split
    · simp only [pieces, List.getElem_map, List.getElem_range, share]
      push_cast
      congr 1 <;> (field_simp; ring)
    · have : i + 1 = count := by omega
      subst this
      have hi1 : ((i : K) + 1) ≠ 0 := by push_cast at hcne; exact hcne
      obtain ⟨qa, qo⟩ := q
      simp only [share]
      push_cast
      congr 1 <;> (field_simp; ring)
  · intro hd
    have hn : 1 ≤ n := by
      by_contra hn
      have : n = 0 := by omega
      subst this
      simp at hn2
      linarith
    have hm : max n 1 = n := by omega
    rw [hm] at hcK ⊢
    have h1 : (1 : K) ≤ (n : K) := by exact_mod_cast hn
    have hq1 : length + gap ≤ d / (n : K) := by rw [le_div_iff₀ hcK]; linarith
    have hq2 : d / (n : K) < 2 * (length + gap) := by rw [div_lt_iff₀ hcK]; nlinarith
    have e1 : ∀ x : K, d * (x / (length + gap)) / (n : K) = x * (d / (n : K) / (length + gap)) := fun x => by field_simp
    have hr1 : 1 ≤ d / (n : K) / (length + gap) := by rw [le_div_iff₀ hf]; linarith
    have hr2 : d / (n : K) / (length + gap) < 2 := by rw [div_lt_iff₀ hf]; linarith
    rw [e1, e1]
    generalize d / (n : K) / (length + gap) = r at *
    refine ⟨?_, ?_, ?_, ?_⟩ <;> nlinarith
  · intro hd
    have : n = 0 := by
      by_contra hn
      have h1 : (1 : K) ≤ (n : K) := by exact_mod_cast (show 1 ≤ n by omega)
      nlinarith
    omega

/-- C81: the faces of a piece of a wall together with its bottom have no border. -/
theorem C81_closed (look : Look K) (height : K) (left0 left1 right0 right1 : Vec3 K) :
    Closed ((boxFaces look height left0 left1 right0 right1).map place ++ [(left1, left0, right0), (left1, right0, right1)]) := by
  apply SolidsProof.closed_of_esum
  intro f hf
  simp only [boxFaces, sideFaces, ShownSpec.wall, topFace, place, List.map_append, List.map_cons, List.map_nil, List.cons_append, List.nil_append, SolidsProof.esum_cons,
    SolidsProof.esum_nil]
  linarith [hf left1 left0, hf left1 right1, hf right0 right1, hf left0 right0, hf left1 right0,
    hf left0 ⟨left0.x, left0.y + height, left0.z⟩, hf left1 ⟨left1.x, left1.y + height, left1.z⟩, hf right0 ⟨right0.x, right0.y + height, right0.z⟩,
    hf right1 ⟨right1.x, right1.y + height, right1.z⟩, hf left1 ⟨left0.x, left0.y + height, left0.z⟩, hf right1 ⟨left1.x, left1.y + height, left1.z⟩,
    hf right0 ⟨right1.x, right1.y + height, right1.z⟩, hf left0 ⟨right0.x, right0.y + height, right0.z⟩,
    hf ⟨left1.x, left1.y + height, left1.z⟩ ⟨left0.x, left0.y + height, left0.z⟩, hf ⟨right1.x, right1.y + height, right1.z⟩ ⟨left1.x, left1.y + height, left1.z⟩,
    hf ⟨right0.x, right0.y + height, right0.z⟩ ⟨right1.x, right1.y + height, right1.z⟩, hf ⟨left0.x, left0.y + height, left0.z⟩ ⟨right0.x, right0.y + height, right0.z⟩,
    hf ⟨right0.x, right0.y + height, right0.z⟩ ⟨left1.x, left1.y + height, left1.z⟩]

/-- C81: the sides of a piece of a wall face outwards, seen from any point above or below the inner part of its line, and its top faces upwards (its corners
are in clockwise order, seen from above). -/
theorem C81_faces (look : Look K) (elevation : Geo K → K) (size : WallSize K) (hw : 0 < size.width) (hh : 0 < size.height) (a b : Geo K) (ts : List (Triangle K))
    (h : IsBox look elevation size (a, b) ts) :
    ts.length = 10 ∧ ∀ t ∈ ts.map place, (∀ r y : K, 0 < r → r < 1 → 0 < facing ⟨(share a b r).lon, y, (share a b r).lat⟩ t) ∨
      0 < (t.2.1.z - t.1.z) * (t.2.2.x - t.1.x) - (t.2.1.x - t.1.x) * (t.2.2.z - t.1.z) := by
  obtain ⟨n, -, -, hn, rfl⟩ := h
  simp only at hn
  refine ⟨rfl, ?_⟩
  have key : ∀ (c : K), 0 < c → 0 < c * (size.height * (size.width * ((b.lon - a.lon) * n.y - (b.lat - a.lat) * n.x))) := fun c hc =>
    mul_pos hc (mul_pos hh (mul_pos hw hn))
  intro t ht
  simp only [boxFaces, sideFaces, ShownSpec.wall, topFace, place, List.map_cons, List.map_nil, List.cons_append, List.nil_append, List.mem_cons,
    List.not_mem_nil, or_false] at ht
  rcases ht with rfl | rfl | rfl | rfl | rfl | rfl | rfl | rfl | rfl | rfl
  · left; intro r y h0 h1
    have e := key 1 one_pos
    simp only [facing, besideGround, share]; linarith
  · left; intro r y h0 h1
    have e := key 1 one_pos
    simp only [facing, besideGround, share]; linarith
  · left; intro r y h0 h1
    have e := key (2 * (1 - r)) (by linarith)
    simp only [facing, besideGround, share]; linarith
  · left; intro r y h0 h1
    have e := key (2 * (1 - r)) (by linarith)
    simp only [facing, besideGround, share]; linarith
  · left; intro r y h0 h1
    have e := key 1 one_pos
    simp only [facing, besideGround, share]; linarith
  · left; intro r y h0 h1
    have e := key 1 one_pos
    simp only [facing, besideGround, share]; linarith
  · left; intro r y h0 h1
    have e := key (2 * r) (by linarith)
    simp only [facing, besideGround, share]; linarith
  · left; intro r y h0 h1
    have e := key (2 * r) (by linarith)
    simp only [facing, besideGround, share]; linarith
  · right
    have e := mul_pos hw hn
    simp only [besideGround]; linarith
  · right
    have e := mul_pos hw hn
    simp only [besideGround]; linarith

/-- C82: barriers: for any elements, each node, way and area gets its mesh with pillars or a wall, in order, with the colors and the texture of its look. The members of a relation, at any depth, get the
style of the outermost relation. Afterwards no style is set. Partial: exact arithmetic; steps and lengths have to be positive, and pillars along a way are too
high by the elevation of its first coordinate (`C82_violated_ground`). -/
theorem C82_delivered_partial (env : Env K) (hq : ∀ x, 0 ≤ x → 0 ≤ env.world.sqrt x ∧ env.world.sqrt x * env.world.sqrt x = x) (he : 0 ≤ env.world.epsilon)
    (es : List (Element (Geo K))) (h : ∀ j ∈ jobs es, Possible env j) :
    ∃ dss, visitAll env {} es = .ok { style := none, delivered := dss.flatten } ∧ List.Forall₂ (Barriers env) (jobs es) dss := by
  have key : ∀ (es : List (Element (Geo K))) (s : State K), s.style = none → (∀ j ∈ jobs es, Possible env j) →
      ∃ dss, visitAll env s es = .ok { style := none, delivered := s.delivered ++ dss.flatten } ∧ List.Forall₂ (Barriers env) (jobs es) dss := by
    intro es
    induction es with
    | nil => intro s hs _; exact ⟨[], by cases s; simp only at hs; subst hs; simp [visitAll], .nil⟩
    | cons e es ih =>
      intro s hs h
      obtain ⟨a, h1, h2⟩ := visit_eq' env hq he e e s (.inr ⟨hs, rfl⟩) fun j hj => h (e, j) (by simp [jobs, hj])
      obtain ⟨b, h3, h4⟩ := ih { s with delivered := s.delivered ++ a.flatten } hs fun j hj => h j (by
        unfold jobs at hj ⊢
        rw [List.flatMap_cons]
        exact List.mem_append_right _ hj)
      refine ⟨a ++ b, by simp [visitAll, h1, Outcome.bind, h3], ?_⟩
      unfold jobs at h4 ⊢
      rw [List.flatMap_cons]
      exact List.rel_append h2 h4
  simpa using key es {} rfl h

/-- C81 is false for a wall without length and gap: the number of its pieces is infinite, its conversion to `int` is undefined. -/
theorem C81_violated_length (w : World K) (look : Look K) (size : WallSize K) (hl : size.length + size.gap = 0) (p q : Geo K) (cs : List (Geo K)) (m : Mesh K) :
    Barrier.wall w look size (p :: q :: cs) m = .ub "conversion to int" := by
  simp [Barrier.wall, foldO, wallPair, divInt, hl, Outcome.bind]

namespace BarrierProof

/-- No colors and no textures. -/
def plain {α : Type} [Zero α] : Look α := ⟨fun _ => 0, fun _ => ⟨0, 0⟩, fun _ => 0, fun _ _ _ => (0, 0), fun _ => 0, fun _ => 0, ⟨0, 0, 0, 0, 0, 0, 0⟩⟩

/-- Pillars of height 3, or walls of height 2 with pieces of 10 metres and gaps of 5 metres. -/
def styleOf {α : Type} [DivisionRing α] (pillar : Bool) : Style α := ⟨pillar, 1, if pillar then 3 else 2, 10, 5, 20, 1, 1, fun _ => plain⟩

/-- A plateau at height 5. -/
def plateau : Env ℚ :=
  { world := { distance := fun _ _ => 35, elevation := fun _ => 5, sqrt := fun x => x, epsilon := 1 / 2 ^ 52, center := ⟨0, 0⟩ }, style := fun _ => styleOf true,
    rotated := fun _ => ⟨1, 0, 0⟩ }

/-- The third coordinate of all vertices satisfies a condition. -/
def heights (check : ℚ → Bool) : List ℚ → Bool
  | _ :: _ :: z :: rest => check z && heights check rest
  | [] => true
  | _ => false

/-- There is one mesh with vertices, and all of its heights satisfy a condition. -/
def allHeights (check : ℚ → Bool) (r : Outcome (State ℚ)) : Bool :=
  match r with
  | .ok s =>
    match s.delivered with
    | [d] => !d.mesh.vertices.isEmpty && heights check d.mesh.vertices
    | _ => false
  | _ => false

/-- The same with real numbers and a square root, for walls or for pillars. -/
noncomputable def realEnv (pillar : Bool) : Env ℝ :=
  { world := slope, style := fun _ => styleOf pillar, rotated := fun _ => ⟨1, 0, 0⟩ }

theorem buildable (size : WallSize ℝ) (h1 : size.length = 10) (h2 : size.gap = 5) : Buildable slope size [⟨0, 0⟩, ⟨0, 4⟩] := by
  refine ⟨by rw [h1]; norm_num, by rw [h2]; norm_num, ?_, ?_⟩
  · intro p _; rw [h1, h2]; simp only [slope]; norm_num
  · intro p hp row hr piece hm
    simp only [parts, List.tail_cons, List.zip_cons_cons, List.zip_nil_right, List.mem_cons, List.not_mem_nil, or_false] at hp
    subst hp
    obtain ⟨count, ⟨n, ⟨hn, -⟩, hc⟩, rfl⟩ := hr
    rw [h1, h2] at hn
    simp only [slope] at hn
    have hn3 : n < 3 := by
      by_contra h
      have : (3 : ℝ) ≤ (n : ℝ) := by exact_mod_cast (show 3 ≤ n by omega)
      nlinarith
    have hc2 : count = 1 ∨ count = 2 := by omega
    obtain ⟨j, -, rfl⟩ := List.mem_map.1 hm
    rw [h1, h2]
    have hs : ∀ x : ℝ, 1 ≤ x → (1 : ℝ) / 2 ^ 52 < Real.sqrt x := by
      intro x hx
      have : (1 : ℝ) ≤ Real.sqrt x := Real.one_le_sqrt.2 hx
      have : (1 : ℝ) / 2 ^ 52 < 1 := by norm_num
      linarith
    apply hs
    simp only [share]
    rcases hc2 with rfl | rfl <;> (push_cast; ring_nf; norm_num)

end BarrierProof

/-- The hypotheses can be met: a way of two pieces of a wall, in a relation with a node. -/
example (pillar : Bool) : ∃ dss : List (List (Delivered ℝ)), visitAll (realEnv pillar) {} [.relation 1 [] [.way 2 [] [⟨0, 0⟩, ⟨0, 4⟩], .node 3 [] ⟨1, 1⟩]] =
    .ok { style := none, delivered := dss.flatten } ∧ dss.length = 2 := by
  obtain ⟨dss, h1, h2⟩ := C82_delivered_partial (realEnv pillar) (fun x hx => ⟨Real.sqrt_nonneg x, Real.mul_self_sqrt hx⟩) (by simp [realEnv, slope])
    [.relation 1 [] [.way 2 [] [⟨0, 0⟩, ⟨0, 4⟩], .node 3 [] ⟨1, 1⟩]] (by
      intro j hj
      simp only [jobs, simple, simpleIn, List.flatMap_cons, List.flatMap_nil, List.append_nil, List.cons_append, List.nil_append, List.map_cons, List.map_nil,
        List.mem_cons, List.not_mem_nil, or_false] at hj
      unfold Possible
      cases pillar with
      | true =>
        rcases hj with rfl | rfl <;> (simp only [realEnv, styleOf, if_true]; refine ⟨by norm_num, fun p _ => ?_⟩; simp only [slope]; norm_num)
      | false =>
        rcases hj with rfl | rfl
        · exact .inr (buildable _ rfl rfl)
        · exact .inr ⟨by simp [realEnv, styleOf], by simp [realEnv, styleOf], by simp [parts], by simp [parts]⟩)
  exact ⟨dss, h1, h2.length_eq.symm⟩

/-- A pillar at a single coordinate stands on the ground. -/
example : allHeights (fun z => z == 5 || z == 8) (visitAll plateau {} [.node 1 [] ⟨0, 0⟩]) = true := by decide +kernel

/-- C82 is false for pillars along a way: all of their vertices are at 10 or 13, although the ground is at 5: the elevation of the first coordinate is
part of the pillar which is copied, and the elevation of the spot is added. -/
theorem C82_violated_ground : (∀ c, plateau.world.elevation c = 5) ∧
    allHeights (fun z => z == 10 || z == 13) (visitAll plateau {} [.way 1 [] [⟨0, 0⟩, ⟨0, 4⟩]]) = true :=
  ⟨fun _ => rfl, by decide +kernel⟩

end Verif.Props
