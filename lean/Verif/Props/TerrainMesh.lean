import Verif.Props.Painted
import Verif.Props.TerrainMeshSpec
import Verif.Props.Terrain

/-! # C85: the meshes of terrain -/
namespace Verif.Props
open Verif.Terrain Verif.TerrainSpec Verif.ShownSpec Verif.MeshSpec
open Verif.MeshBuilder (foldO Mesh Vec2 Vec3 TriangleIo Texture addPlane fillMesh writeTexture)
open Verif.Polygon (Vec Poly Rect)
open Verif.Building (Look)

set_option linter.unusedSectionVars false

namespace TerrainProof
open ShownProof
variable {K : Type} [Field K] [LinearOrder K] [IsStrictOrderedRing K] [FloorRing K]

/-! ## Areas -/

/-- The cross product of two points. -/
def cross (a b : Int × Int) : Int := a.1 * b.2 - b.1 * a.2

/-- The sum along a line. -/
def crosses (prev : Int × Int) : Path → Int
  | [] => 0
  | q :: rest => cross prev q + crosses q rest

theorem areaSum_eq (p : Path) (prev : Int × Int) :
    areaSum prev p = prev.1 * prev.2 - ((prev :: p).getLast (by simp)).1 * ((prev :: p).getLast (by simp)).2 - crosses prev p := by
  induction p generalizing prev with
  | nil => simp [areaSum, crosses]
  | cons q p ih =>
    rw [areaSum, ih, crosses]
    simp only [List.getLast_cons_cons]
    simp only [cross]; ring

theorem sides_eq (p : Path) (a f : Int × Int) :
    ((((a :: p).zip (p ++ [f])).map fun s => s.1.1 * s.2.2 - s.2.1 * s.1.2).sum : Int) = crosses a p + cross ((a :: p).getLast (by simp)) f := by
  induction p generalizing a with
  | nil => simp [crosses, cross]
  | cons q p ih =>
    rw [List.cons_append, List.zip_cons_cons, List.map_cons, List.sum_cons, ih, crosses]
    simp only [List.getLast_cons_cons]
    simp only [cross]; ring

theorem area2_eq (p : Path) : area2 p = doubleArea p := by
  match p with
  | [] => rfl
  | [a] => simp [area2, doubleArea, sides]
  | [a, b] => simp [area2, doubleArea, sides]
  | a :: b :: c :: p =>
    have h := sides_eq (b :: c :: p) a a
    have hl : (a :: b :: c :: p).getLast? = some ((a :: b :: c :: p).getLast (by simp)) := List.getLast?_eq_some_getLast (by simp)
    unfold area2 doubleArea sides
    simp only [List.tail_cons, List.take_succ_cons, List.take_zero]
    rw [h, hl]
    simp only [List.length_cons]
    rw [if_neg (by omega), areaSum_eq, crosses]
    simp only [List.getLast_cons_cons]
    simp only [cross]; ring

/-! ## Walls -/

theorem flatMap_filter_cons {A B : Type} (f : A → Bool) (g : A → List B) (a : A) (l : List A) :
    ((a :: l).filter f).flatMap g = (if f a = true then g a else []) ++ (l.filter f).flatMap g := by
  rw [List.filter_cons]
  split <;> simp

theorem skirtFrom_paints (env : Env K) (c : Context K) (first : Vec K) (rest : List (Vec K)) (p1 : Vec K) (m : Mesh K) (n : Nat) (hw : WellFormed m n)
    (done : List (Triangle K × Texture)) (pending : List (Triangle K)) (hp : Paints m done pending) :
    ∃ n', WellFormed (skirtFrom env c first p1 rest m) n' ∧ Paints (skirtFrom env c first p1 rest m) done
      (pending ++ (((p1 :: rest).zip (rest ++ [first])).filter fun s => ¬ (env.rect.isOnBorder (1 / 10 ^ 8) s.1 ∧ env.rect.isOnBorder (1 / 10 ^ 8) s.2)).flatMap fun s =>
        wall (onGround env s.1) (onGround env s.2) c.heightOffset (c.look.planeColor (onGround env s.1))
          (c.look.planeScale (onGround env s.1) (onGround env s.2) c.heightOffset).1
          (c.look.planeScale (onGround env s.1) (onGround env s.2) c.heightOffset).2) := by
  have one : ∀ (m : Mesh K) (n : Nat) (p1 p2 : Vec K) (pending : List (Triangle K)), WellFormed m n → Paints m done pending →
      ∃ n', WellFormed (if env.rect.isOnBorder (1 / 10 ^ 8) p1 && env.rect.isOnBorder (1 / 10 ^ 8) p2 then m else skirt env c m p1 p2) n' ∧
        Paints (if env.rect.isOnBorder (1 / 10 ^ 8) p1 && env.rect.isOnBorder (1 / 10 ^ 8) p2 then m else skirt env c m p1 p2) done
          (pending ++ if ¬ (env.rect.isOnBorder (1 / 10 ^ 8) p1 ∧ env.rect.isOnBorder (1 / 10 ^ 8) p2) then
            wall (onGround env p1) (onGround env p2) c.heightOffset (c.look.planeColor (onGround env p1))
          (c.look.planeScale (onGround env p1) (onGround env p2) c.heightOffset).1
          (c.look.planeScale (onGround env p1) (onGround env p2) c.heightOffset).2 else []) := by
    intro m n p1 p2 pending hw hp
    by_cases h : env.rect.isOnBorder (1 / 10 ^ 8) p1 = true ∧ env.rect.isOnBorder (1 / 10 ^ 8) p2 = true
    · rw [if_pos (by simpa using h), if_neg (by simpa using h), List.append_nil]
      exact ⟨n, hw, hp⟩
    · rw [if_neg (by simpa using h), if_pos h]
      have e : ∀ p : Vec K, (⟨p.x, env.elevation ⟨p.y, p.x⟩ + 0, p.y⟩ : Vec3 K) = onGround env p := fun p => by simp [onGround]
      unfold skirt
      simp only [e]
      exact ⟨n + 6, MeshProof.addPlane_wf hw .., C73_paints_plane _ _ hw _ _ hp ..⟩
  induction rest generalizing p1 m n pending with
  | nil =>
    unfold skirtFrom
    obtain ⟨n', h1, h2⟩ := one m n p1 first pending hw hp
    refine ⟨n', h1, ?_⟩
    rw [List.nil_append, List.zip_cons_cons, flatMap_filter_cons, List.zip_nil_left, List.filter_nil, List.flatMap_nil, List.append_nil]
    simp only [decide_eq_true_eq]
    exact h2
  | cons p2 rest ih =>
    unfold skirtFrom
    obtain ⟨n', h1, h2⟩ := one m n p1 p2 pending hw hp
    obtain ⟨n'', h3, h4⟩ := ih p2 _ n' h1 _ h2
    refine ⟨n'', h3, ?_⟩
    rw [List.append_assoc] at h4
    rw [List.cons_append, List.zip_cons_cons, flatMap_filter_cons]
    simp only [decide_eq_true_eq]
    exact h4

theorem height_paints (env : Env K) (c : Context K) (points : List (Vec K)) (m : Mesh K) (n : Nat) (hw : WellFormed m n)
    (done : List (Triangle K × Texture)) (pending : List (Triangle K)) (hp : Paints m done pending) :
    ∃ n', WellFormed (if |c.heightOffset| > 0 then buildHeightOffset env c points m else m) n' ∧
      Paints (if |c.heightOffset| > 0 then buildHeightOffset env c points m else m) done (pending ++ skirtsOf env c points) := by
  unfold skirtsOf
  by_cases h : c.heightOffset = 0
  · rw [if_neg (by simp [h]), if_pos h, List.append_nil]
    exact ⟨n, hw, hp⟩
  · rw [if_pos (by simpa using h), if_neg h]
    cases points with
    | nil => exact ⟨n, hw, by simpa [sides, buildHeightOffset] using hp⟩
    | cons p rest => exact skirtFrom_paints env c p rest p m n hw done pending hp

theorem restore_eq (env : Env K) (path : Path) : restore env path = ringOf env path := by
  have : (10 : K) ^ 7 = 10000000 := by norm_num
  simp only [restore, ringOf, this]

theorem paths_paint (env : Env K) (c : Context K) (paths : List Path) (poly : Poly K) (m : Mesh K) (n : Nat) (hw : WellFormed m n)
    (done : List (Triangle K × Texture)) (pending : List (Triangle K)) (hp : Paints m done pending) (r : Poly K × Mesh K)
    (h : foldO (addPath env c) (poly, m) paths = .ok r) :
    Polygon.addAll env.epsilon env.huge env.tiny poly (paths.map fun path => (ringOf env path, decide (doubleArea path < 0))) = .ok r.1 ∧
    ∃ n', WellFormed r.2 n' ∧ Paints r.2 done (pending ++ paths.flatMap fun path => skirtsOf env c (ringOf env path)) := by
  induction paths generalizing poly m n pending with
  | nil => cases h; exact ⟨rfl, n, hw, by simpa using hp⟩
  | cons path paths ih =>
    obtain ⟨a, h1, h⟩ := bind_eq h
    unfold addPath at h1
    obtain ⟨poly', h2, h1⟩ := bind_eq h1
    cases h1
    rw [restore_eq] at h
    obtain ⟨n', h3, h4⟩ := height_paints env c (ringOf env path) m n hw done pending hp
    obtain ⟨h5, n'', h6, h7⟩ := ih poly' _ n' h3 _ h4 h
    rw [area2_eq, restore_eq] at h2
    refine ⟨?_, n'', h6, by simpa using h7⟩
    rw [List.map_cons, Polygon.addAll]
    simp only [h2]
    exact h5

/-! ## Surfaces -/

theorem shows_length {m : Mesh K} {ts : List (Triangle K)} (h : Shows m ts) : m.triangles.length = 3 * ts.length := by
  obtain ⟨ids, h1, h2⟩ := h
  rw [h1, ← h2.length_eq]
  clear h1 h2
  induction ids with
  | nil => rfl
  | cons i ids ih => simp only [List.flatMap_cons, List.length_append, ih, List.length_cons, List.length_nil]; omega

theorem extras_eq {env : Env K} {c : Context K} {m : Mesh K} {before top : List (Triangle K)} {start : Nat} {extras : List (String × Mesh K)}
    (hs : Shows m (before ++ top)) (hb : start = 3 * before.length) (h : addExtras env c m start = .ok extras) : IsExtras env c m top extras := by
  unfold addExtras at h
  split_ifs at h with h1 h2 h3
  · cases h; exact .inl ⟨.inl h1, rfl⟩
  · obtain ⟨trees, ht, h⟩ := bind_eq h
    cases h
    exact .inr ⟨h2, before, trees, hs, by rw [← hb]; exact ht, rfl⟩
  · cases h; exact .inl ⟨.inr h3, rfl⟩

theorem texture_wf {m m' : Mesh K} {n : Nat} {t : Texture} (hw : WellFormed m n) {rs : List Record} (hm : Mapped m rs)
    (h : writeTexture m t = .ok m') : WellFormed m' n := by
  obtain ⟨m'', rs', e, hu, hv, htr, hc, _⟩ := C44_write m rs hm t
  rw [h] at e
  cases e
  exact ⟨by rw [hv]; exact hw.vertices, by rw [hc]; exact hw.colors, by rw [hu]; exact hw.uvs, by rw [htr]; exact hw.triangles,
    by rw [htr]; exact hw.range⟩

theorem fill_paints (env : Env K) (c : Context K) (hr : InRange c) (poly : Poly K) (m m' : Mesh K) (n : Nat) (hw : WellFormed m n)
    (hm : ∃ done rest, Paints m done rest) (h : writeTexture (fill env c poly m) c.look.texture = .ok m') :
    ∃ top, IsSurface (c.triangulate poly) (surfaceAt env c) top ∧ (∃ n', WellFormed m' n') ∧
      ∀ done rest, Paints m done rest → Paints m' (done ++ (rest ++ top).map fun t => (t, c.look.texture)) [] := by
  have e : fill env c poly m = fillMesh m (c.triangulate poly) (surfaceAt env c) false := by
    unfold fill
    congr 1
    funext i q
    simp only [surfaceAt, add_comm c.heightOffset]
  rw [e] at h
  obtain ⟨top, h1, h2⟩ := fillMesh_adds hw (c.triangulate poly) (surfaceAt env c) false (hr poly)
  have hw' := MeshProof.fillMesh_wf hw (c.triangulate poly) (surfaceAt env c) false (hr poly)
  obtain ⟨done, rest, hp⟩ := hm
  obtain ⟨rs, _, _, hm, _⟩ := h1.paints hw hp
  exact ⟨top, h2, ⟨_, texture_wf hw' hm h⟩, fun done rest hp => C73_paints_texture _ _ _ _ (h1.paints hw hp) _ h⟩

/-- The pieces so far, with what was made of them. -/
structure Meshes (env : Env K) (s : State K) (results : List (List (Triangle K) × List (String × Mesh K))) : Prop where
  pieces : List.Forall₂ (fun p r => IsPiece env p r.1 r.2) s.pieces results
  delivered : s.delivered = results.flatMap Prod.snd
  wf : ∃ n, WellFormed s.mesh n
  paints : ∃ done rest, Paints s.mesh done rest ∧ done.map Prod.fst ++ rest = (s.pieces.zip results).flatMap fun p => common env p.1 p.2.1
  textures : (∀ p ∈ s.pieces, skirts env p = [] ∨ p.context.meshName = "" ∧ HasPoints env p) →
    Paints s.mesh ((s.pieces.zip results).flatMap fun p => (common env p.1 p.2.1).map fun t => (t, p.1.context.look.texture)) []

theorem empty_paints : Paints ({} : Mesh K) [] [] := ⟨[], [], [], ⟨rfl, by simp, by simp⟩, rfl, .nil, .nil⟩

theorem empty_wf : WellFormed ({} : Mesh K) 0 := ⟨rfl, rfl, rfl, ⟨0, rfl⟩, by simp⟩

theorem Meshes.geometry {env : Env K} {s : State K} {results : List (List (Triangle K) × List (String × Mesh K))} (hs : Meshes env s results)
    {geometry : List Path} {c : Context K} (hc : InRange c) {r : State K × List Path} (h : addGeometry env s geometry c = .ok r) :
    ∃ result, Meshes env r.1 (results ++ [result]) := by
  obtain ⟨hps, hd, ⟨n, hw⟩, ⟨done, rest, hp, he⟩, ht⟩ := hs
  have hl := hps.length_eq
  have zip : ∀ p r, (s.pieces ++ [p]).zip (results ++ [r]) = s.pieces.zip results ++ [(p, r)] := by
    intro p r; rw [List.zip_append hl]; rfl
  unfold addGeometry at h
  obtain ⟨q, hq, h⟩ := bind_eq h
  obtain ⟨poly, m⟩ := q
  dsimp only at h
  generalize (env.library.tidy geometry).filter (fun p => !isSmall p) = kept at h hq
  generalize (env.library.tidy geometry).filter isSmall = skipped at h
  have key := fun done rest hp => paths_paint env c kept _ s.mesh n hw done rest hp _ hq
  obtain ⟨hpoly, n', hw', hp'⟩ := key done rest hp
  have hpoly : IsPolygon env ⟨c, kept, skipped⟩ poly := hpoly
  have hskirts : (kept.flatMap fun path => skirtsOf env c (ringOf env path)) = skirts env ⟨c, kept, skipped⟩ := rfl
  split at h
  · -- no points
    rename_i hempty
    rw [List.isEmpty_iff] at hempty
    cases h
    refine ⟨([], []), ?_, ?_, ⟨n', hw'⟩, ⟨done, _, hp', ?_⟩, ?_⟩
    · exact List.rel_append hps (.cons ⟨poly, hpoly, .inl ⟨hempty, rfl, rfl⟩⟩ .nil)
    · simp [hd]
    · dsimp only
      rw [zip, List.flatMap_append, ← he, hskirts]
      simp [common]
    · intro hall
      dsimp only at hall ⊢
      have hno : skirts env ⟨c, kept, skipped⟩ = [] := by
        rcases hall ⟨c, kept, skipped⟩ (by simp) with h | ⟨_, poly', h1, h2⟩
        · exact h
        · unfold IsPolygon at hpoly h1
          rw [hpoly] at h1
          cases h1
          exact absurd hempty h2
      obtain ⟨_, _, _, h2⟩ := key _ _ (ht fun p hp => hall p (by simp [hp]))
      rw [zip, List.flatMap_append]
      rw [hskirts, hno] at h2
      simpa [common, hno] using h2
  · rename_i hne
    rw [List.isEmpty_iff] at hne
    obtain ⟨s', hpol, h'⟩ := bind_eq h
    cases h'
    clear h
    unfold addPolygon at hpol
    split at hpol
    · -- own mesh
      rename_i hname
      obtain ⟨m', hm', hpol⟩ := bind_eq hpol
      obtain ⟨extras, hx, hpol⟩ := bind_eq hpol
      cases hpol
      obtain ⟨top, ht1, ⟨k, hk⟩, hpt⟩ := fill_paints env c hc poly {} m' 0 empty_wf ⟨[], [], empty_paints⟩ hm'
      have hpt := hpt _ _ empty_paints
      have hshow := C73_paints_shows _ _ _ hpt
      simp only [List.nil_append, List.map_map, List.append_nil] at hshow hpt
      have hid : top.map (Prod.fst ∘ fun t => (t, c.look.texture)) = top := by simp [Function.comp_def]
      rw [hid] at hshow
      refine ⟨(top, extras ++ [(c.meshName, m')]), ?_, ?_, ⟨n', hw'⟩, ⟨done, _, hp', ?_⟩, ?_⟩
      · exact List.rel_append hps (.cons ⟨poly, hpoly, .inr ⟨hne, ht1, m', extras,
          extras_eq (before := []) (by simpa using hshow) rfl hx, .inr ⟨hname, hpt, rfl⟩⟩⟩ .nil)
      · simp [hd]
      · dsimp only
        rw [zip, List.flatMap_append, ← he, hskirts]
        simp [common, hname]
      · intro hall
        dsimp only at hall ⊢
        have hno : skirts env ⟨c, kept, skipped⟩ = [] := by
          rcases hall ⟨c, kept, skipped⟩ (by simp) with h | ⟨h, _⟩
          · exact h
          · exact absurd h hname
        obtain ⟨_, _, _, h2⟩ := key _ _ (ht fun p hp => hall p (by simp [hp]))
        rw [zip, List.flatMap_append]
        rw [hskirts, hno] at h2
        simpa [common, hno, hname] using h2
    · rename_i hname
      rw [not_not] at hname
      obtain ⟨m', hm', hpol⟩ := bind_eq hpol
      obtain ⟨extras, hx, hpol⟩ := bind_eq hpol
      cases hpol
      dsimp only at hm'
      obtain ⟨top, ht1, hk, hpt⟩ := fill_paints env c hc poly m m' n' hw' ⟨_, _, hp'⟩ hm'
      have hpt' := hpt _ _ hp'
      have hshow := C73_paints_shows _ _ _ hpt'
      simp only [List.map_append, List.map_map, List.append_nil, ← List.append_assoc] at hshow
      have hid : ∀ l : List (Triangle K), l.map (Prod.fst ∘ fun t => (t, c.look.texture)) = l := by simp [Function.comp_def]
      simp only [hid] at hshow
      refine ⟨(top, extras), ?_, ?_, hk, ⟨_, _, hpt', ?_⟩, ?_⟩
      · refine List.rel_append hps (.cons ⟨poly, hpoly, .inr ⟨hne, ht1, m', extras, extras_eq hshow ?_ hx, .inl ⟨hname, rfl⟩⟩⟩ .nil)
        rw [shows_length (C73_paints_shows _ _ _ hp')]
        simp
      · simp [hd]
      · dsimp only
        rw [zip, List.flatMap_append, ← he, hskirts]
        simp [common, hname, Function.comp_def]
      · intro hall
        dsimp only at hall ⊢
        obtain ⟨_, _, _, h2⟩ := key _ _ (ht fun p hp => hall p (by simp [hp]))
        have h3 := hpt _ _ h2
        rw [zip, List.flatMap_append]
        rw [hskirts] at h3
        simpa [common, hname] using h3

theorem Meshes.regions {env : Env K} {s s' : State K} {results : List (List (Triangle K) × List (String × Mesh K))} (hs : Meshes env s results)
    (rs : List (Region K)) (hc : ∀ r ∈ rs, ∀ c, r.context = some c → InRange c) (h : foldO (buildRegion env) s rs = .ok s') :
    ∃ results', Meshes env s' results' := by
  induction rs generalizing s results with
  | nil => cases h; exact ⟨_, hs⟩
  | cons r rs ih =>
    obtain ⟨s1, h1, h⟩ := bind_eq h
    unfold buildRegion at h1
    dsimp only at h1
    split at h1
    · cases h1
    · rename_i c hcon
      obtain ⟨q, hq, h1⟩ := bind_eq h1
      cases h1
      have hs0 : Meshes env { s with foreground := (s.foreground.add .subject r.geometry).moveSubjectToClip } results :=
        ⟨hs.pieces, hs.delivered, hs.wf, hs.paints, hs.textures⟩
      obtain ⟨result, hm⟩ := hs0.geometry (hc r List.mem_cons_self c hcon) hq
      exact ih (s := { q.1 with background := q.1.background.add .clip q.2 }) (results := results ++ [result]) ⟨hm.pieces, hm.delivered, hm.wf, hm.paints, hm.textures⟩
        (fun r hr => hc r (List.mem_cons_of_mem _ hr)) h

theorem generate_meshes {env : Env K} {layers : List (Layer K)} (hc : ∀ r ∈ layers.flatMap Layer.regions, ∀ c, r.context = some c → InRange c)
    (hb : InRange env.background) {s : State K} (h : generateFrom env layers = .ok s) :
    ∃ s' results, Meshes env s' results ∧ s = { s' with delivered := s'.delivered ++ [("terrain_surface", s'.mesh)] } := by
  unfold generateFrom at h
  obtain ⟨s1, h1, h⟩ := bind_eq h
  obtain ⟨s2, h2, h⟩ := bind_eq h
  cases h
  rw [foldO_layers] at h1
  have h0 : Meshes env ({} : State K) [] := ⟨.nil, rfl, ⟨0, empty_wf⟩, ⟨[], [], empty_paints, rfl⟩, fun _ => empty_paints⟩
  obtain ⟨results, hm⟩ := h0.regions _ hc h1
  unfold buildBackground at h2
  dsimp only at h2
  split at h2
  · cases h2
    exact ⟨{ s1 with background := { s1.background.add .subject [env.tileRect] with paths := [] } }, results,
      ⟨hm.pieces, hm.delivered, hm.wf, hm.paints, hm.textures⟩, rfl⟩
  · obtain ⟨q, hq, h2⟩ := bind_eq h2
    cases h2
    have hm' : Meshes env { s1 with background := { s1.background.add .subject [env.tileRect] with paths := [] } } results :=
      ⟨hm.pieces, hm.delivered, hm.wf, hm.paints, hm.textures⟩
    obtain ⟨result, hm⟩ := hm'.geometry hb hq
    exact ⟨_, _, hm, rfl⟩

theorem forall₂_mem_right {A B : Type} {R : A → B → Prop} {l : List A} {r : List B} (h : List.Forall₂ R l r) {b : B} (hb : b ∈ r) : ∃ a ∈ l, R a b := by
  induction h with
  | nil => simp at hb
  | cons h _ ih =>
    rcases List.mem_cons.1 hb with rfl | hb
    · exact ⟨_, List.mem_cons_self, h⟩
    · obtain ⟨a, ha, h⟩ := ih hb
      exact ⟨a, List.mem_cons_of_mem _ ha, h⟩

end TerrainProof

open TerrainProof
variable {K : Type} [Field K] [LinearOrder K] [IsStrictOrderedRing K] [FloorRing K]

/-- C85: the meshes of a tile are those of its pieces one after the other (extras, and a mesh with its surface if a piece has its own one), and in the
end the common mesh, which shows for all pieces the walls between the ground and their surface, and the surface if a piece has no mesh of its own. -/
theorem C85_meshes (env : Env K) (layers : List (Layer K)) (hc : ∀ r ∈ layers.flatMap Layer.regions, ∀ c, r.context = some c → InRange c)
    (hb : InRange env.background) (s : State K) (h : generateFrom env layers = .ok s) :
    ∃ results, List.Forall₂ (fun p r => IsPiece env p r.1 r.2) s.pieces results ∧
      s.delivered = results.flatMap Prod.snd ++ [("terrain_surface", s.mesh)] ∧
      Shows s.mesh ((s.pieces.zip results).flatMap fun p => common env p.1 p.2.1) ∧
      ((∀ p ∈ s.pieces, skirts env p = [] ∨ p.context.meshName = "" ∧ HasPoints env p) →
        Paints s.mesh ((s.pieces.zip results).flatMap fun p => (common env p.1 p.2.1).map fun t => (t, p.1.context.look.texture)) []) := by
  obtain ⟨s', results, hm, rfl⟩ := generate_meshes hc hb h
  refine ⟨results, hm.pieces, by rw [hm.delivered], ?_, hm.textures⟩
  obtain ⟨done, rest, hp, he⟩ := hm.paints
  rw [← he]
  exact C73_paints_shows _ _ _ hp

/-- C85: the paths of a piece have an area, those which were left out have less. -/
theorem C85_tolerance (env : Env K) (layers : List (Layer K)) (s : State K) (h : generateFrom env layers = .ok s) (p : Piece K) (hp : p ∈ s.pieces) :
    (∀ q ∈ p.kept, 2000 ≤ |doubleArea q|) ∧ ∀ q ∈ p.skipped, |doubleArea q| < 2000 := by
  have key : ∀ before geometry c, (∀ q ∈ (pieceOf env before geometry c).kept, 2000 ≤ |doubleArea q|) ∧
      ∀ q ∈ (pieceOf env before geometry c).skipped, |doubleArea q| < 2000 := by
    intro before geometry c
    simp only [pieceOf, List.mem_filter, isSmall, area2_eq]
    refine ⟨fun q hq => ?_, fun q hq => ?_⟩
    · simpa using hq.2
    · simpa using hq.2
  have trace : ∀ {before rs ps}, Trace env before rs ps → ∀ p ∈ ps, ∃ before geometry c, p = pieceOf env before geometry c := by
    intro before rs ps ht
    induction ht with
    | nil => simp
    | cons _ _ ih =>
      intro p hp
      rcases List.mem_cons.1 hp with rfl | hp
      · exact ⟨_, _, _, rfl⟩
      · exact ih p hp
  obtain ⟨ps, ht, he⟩ := generate_eq h
  dsimp only at he
  rw [he] at hp
  rcases List.mem_append.1 hp with hp | hp
  · obtain ⟨_, _, _, rfl⟩ := trace ht p hp
    exact key _ _ _
  · split at hp
    · cases hp
    · rw [List.mem_singleton.1 hp]
      exact key _ _ _

namespace TerrainExample

/-- A context with this texture, whose triangles are the first and the last three points. -/
def filled (texture : Int) (meshName : String := "") (heightOffset : ℚ := 0) : Context ℚ where
  heightOffset := heightOffset
  meshName := meshName
  extras := ""
  look := ⟨fun _ => 1, fun q => q, fun _ => 2, fun _ _ _ => (1, 1), fun _ => 3, fun k => k, ⟨texture, 1, 1, 0, 0, 1, 1⟩⟩
  noise _ _ := 0
  triangulate poly :=
    match poly.points with
    | [a, b, c, d, e, f, g, h] => ⟨[⟨a, b⟩, ⟨c, d⟩, ⟨e, f⟩, ⟨g, h⟩], [(0, 1, 2), (0, 2, 3)]⟩
    | _ => ⟨[], []⟩

theorem filled_inRange (texture : Int) (meshName : String) (heightOffset : ℚ) : InRange (filled texture meshName heightOffset) := by
  intro poly t ht i hi
  simp only [filled] at ht ⊢
  split at ht
  · simp only [List.mem_cons, List.not_mem_nil, or_false] at ht
    rcases ht with rfl | rfl <;> simp only [List.mem_cons, List.not_mem_nil, or_false] at hi <;> rcases hi with rfl | rfl | rfl <;> simp
  · simp at ht

/-- A rectangle in degrees. -/
def degrees (a b c d : Int) : Path := [(10 ^ 7 * a, 10 ^ 7 * b), (10 ^ 7 * c, 10 ^ 7 * b), (10 ^ 7 * c, 10 ^ 7 * d), (10 ^ 7 * a, 10 ^ 7 * d)]

/-- A tile of four degrees; the library does not cut anything. -/
def ground : Env ℚ where
  epsilon := 1 / 10 ^ 12
  huge := 10 ^ 9
  tiny := 0
  step := 100
  tileRect := degrees 0 0 4 4
  rect := ⟨0, 0, 4, 4⟩
  elevation c := c.lon
  library := ⟨fun s _ => s, fun s => s, fun s _ => s, fun s _ => s, fun s => s⟩
  background := filled 1
  forest _ _ _ := .ok []

/-- A raised place and a lake with its own mesh. -/
def raised : List (Layer ℚ) := [⟨10, [⟨0, 0, some (filled 5 "" 2), [degrees 1 1 2 2]⟩]⟩, ⟨0, [⟨0, 0, some (filled 6 "lake"), [degrees 2 1 3 2]⟩]⟩]

/-- A lake with its own mesh below the ground. -/
def sunken : List (Layer ℚ) := [⟨0, [⟨0, 0, some (filled 7 "lake" (-1)), [degrees 1 1 2 2]⟩]⟩]

/-- What a run gives. -/
def check (o : Outcome (State ℚ)) (f : State ℚ → Bool) : Bool :=
  match o with
  | .ok s => f s
  | _ => false

theorem check_ok {o : Outcome (State ℚ)} {f : State ℚ → Bool} (h : check o f = true) : ∃ s, o = .ok s ∧ f s = true := by
  unfold check at h
  split at h
  · exact ⟨_, rfl, h⟩
  · simp at h

/-- The polygon of a piece has points. -/
def points (p : Piece ℚ) : Bool :=
  match Polygon.addAll ground.epsilon ground.huge ground.tiny { rectangle := Rect.empty ground.huge ground.tiny }
    (p.kept.map fun path => (ringOf ground path, decide (doubleArea path < 0))) with
  | .ok poly => !poly.points.isEmpty
  | _ => false

theorem points_ok {p : Piece ℚ} (h : points p = true) : HasPoints ground p := by
  unfold points at h
  split at h
  · rename_i poly hp
    exact ⟨poly, hp, by simpa using h⟩
  · simp at h

/-- The hypotheses of C85 are met by the raised place and the lake: the place has walls, one of them without width where its ring is closed. -/
example : ∃ s, generateFrom ground raised = .ok s ∧ (∀ p ∈ s.pieces, skirts ground p = [] ∨ p.context.meshName = "" ∧ HasPoints ground p) ∧
    (∃ p ∈ s.pieces, skirts ground p ≠ []) ∧ (s.delivered.map Prod.fst = ["lake", "terrain_surface"]) ∧ s.mesh.triangles.length = 3 * (10 + 2 + 2) := by
  obtain ⟨s, h1, h2⟩ := check_ok (o := generateFrom ground raised) (f := fun s =>
    (s.pieces.all fun p => (skirts ground p).isEmpty || (decide (p.context.meshName = "") && points p)) &&
    (s.pieces.any fun p => !(skirts ground p).isEmpty) && decide (s.delivered.map Prod.fst = ["lake", "terrain_surface"]) &&
    decide (s.mesh.triangles.length = 3 * (10 + 2 + 2))) (by decide +kernel)
  simp only [Bool.and_eq_true, List.all_eq_true, List.any_eq_true, decide_eq_true_eq, Bool.or_eq_true, List.isEmpty_iff, Bool.not_eq_true',
    List.isEmpty_eq_false_iff] at h2
  obtain ⟨⟨⟨h2, h3⟩, h4⟩, h5⟩ := h2
  exact ⟨s, h1, fun p hp => (h2 p hp).imp_right fun h => ⟨h.1, points_ok h.2⟩, h3, h4, h5⟩

example : ∀ r ∈ raised.flatMap Layer.regions, ∀ c, r.context = some c → InRange c := by
  intro r hr c hc
  simp only [raised, List.flatMap_cons, List.flatMap_nil, List.append_nil, List.mem_append, List.mem_cons, List.not_mem_nil, or_false] at hr
  rcases hr with rfl | rfl <;> cases hc <;> exact filled_inRange _ _ _

end TerrainExample

open TerrainExample

/-- C85 is violated for the textures of pieces with a height and with their own mesh: their walls are in the common mesh, where nothing has their
texture. -/
theorem C85_violated_texture : ∃ (layers : List (Layer ℚ)) (s : State ℚ) (p : Piece ℚ), generateFrom ground layers = .ok s ∧ p ∈ s.pieces ∧
    skirts ground p ≠ [] ∧ ∀ done rest, Paints s.mesh done rest → ∀ x ∈ done, x.2 ≠ p.context.look.texture := by
  obtain ⟨s, h1, h2⟩ := check_ok (o := generateFrom ground sunken) (f := fun s =>
    (s.pieces.any fun p => !(skirts ground p).isEmpty && decide (p.context.look.texture.id = 7)) &&
    decide (s.mesh.uvMap = Record.entries ⟨s.mesh.uvs.length, (filled 1).look.texture⟩)) (by decide +kernel)
  simp only [Bool.and_eq_true, List.any_eq_true, decide_eq_true_eq, Bool.not_eq_true', List.isEmpty_eq_false_iff] at h2
  obtain ⟨⟨p, hp, h2, h3⟩, h4⟩ := h2
  refine ⟨sunken, s, p, h1, hp, h2, ?_⟩
  rintro done rest ⟨rs, ids, ids', hm, -, hd, -⟩ x hx he
  have hrs : rs = [⟨s.mesh.uvs.length, (filled 1).look.texture⟩] := by
    refine ShownProof.records_unique ?_
    rw [← hm.map, h4]; simp
  obtain ⟨i, -, -, ⟨hi, -⟩, -⟩ := forall₂_mem_right hd hx
  rw [hrs] at hi
  simp only [textureOf, List.find?_cons, List.find?_nil] at hi
  split at hi
  · simp only [Option.map_some, Option.some.injEq] at hi
    rw [← hi] at he
    rw [← he] at h3
    simp [filled] at h3
  · simp at hi

end Verif.Props
