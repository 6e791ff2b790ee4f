import Verif.Props.RoofSheetSpec
import Verif.Props.BuildingSheet
import Verif.Props.RoofsSkillion
import Verif.Props.Curved

/-! # C117: buildings with any roof and any walls look as the stylesheet says -/
namespace Verif.Props
open Verif.Clipper (El)
open Verif.Style (Rule Declaration Str FilterCollection)
open Verif.StyleSpec Verif.LoadTileSpec Verif.BuildingSheet Verif.BuildingSheetSpec Verif.RoofSheetSpec
open Verif.StyleEval (Arith)

namespace RoofSheetProof
open Verif.MeshBuilder Verif.MeshSpec Verif.ShownSpec Verif.PolygonSpec Verif.Building Verif.BuildingSpec Verif.RoofsSpec Verif.Roofs Verif.CurvedSpec
open Verif.Polygon (Vec Poly Rect)
open BuildingProof RoofsProof CurvedProof SkillionProof
set_option linter.unusedSectionVars false

variable {K : Type} [Field K] [LinearOrder K] [IsStrictOrderedRing K]

/-- The rectangle of the polygon is the smallest one around its rings. -/
theorem boxed_smallest {env : Env K} {part : BuildingSpec.Part K} {start : Geo K} {ring : List (Vec K)} {rest : List (List (Vec K) × Bool)}
    (hf : part.rings = (ground start :: ring, false) :: rest) (hb : Boxed env part) {p : Poly K} {holes : List (List (Vec K))} (hk : holes.Sublist (holesOf env part))
    (hsmall : NorthEast env.huge env.tiny (outlinesOf env part ++ holes).flatten → Smallest p.rectangle (outlinesOf env part ++ holes).flatten) :
    Smallest p.rectangle (outlinesOf env part ++ holes).flatten ∧ (∀ o ∈ outlinesOf env part, NorthEast env.huge env.tiny o) ∧
      HolesWithin (outlinesOf env part) holes := by
  have hout : ∀ o ∈ outlinesOf env part, NorthEast env.huge env.tiny o := by
    intro o h
    obtain ⟨r, hr, rfl⟩ := List.mem_map.1 h
    exact hb.corners r (List.mem_filter.1 hr).1
  have hhole : ∀ o ∈ holes, NorthEast env.huge env.tiny o := by
    intro o h
    obtain ⟨r, hr, rfl⟩ := List.mem_map.1 (hk.subset h)
    exact hb.corners r (List.mem_filter.1 hr).1
  refine ⟨hsmall ?_, hout, fun o h1 h h2 => hb.holes o h1 h (hk.subset h2)⟩
  obtain ⟨⟨px, a1, a2⟩, ⟨py, a3, a4⟩, -⟩ := hb.corners (ground start :: ring, false) (by rw [hf]; exact List.mem_cons_self ..)
  have hm0 : opened env.epsilon (ground start :: ring) ∈ outlinesOf env part := by
    unfold outlinesOf; rw [hf]; simp
  refine ⟨⟨px, List.mem_flatten.2 ⟨_, List.mem_append_left _ hm0, a1⟩, a2⟩, ⟨py, List.mem_flatten.2 ⟨_, List.mem_append_left _ hm0, a3⟩, a4⟩, ?_⟩
  intro v hv
  obtain ⟨o, ho, hv⟩ := List.mem_flatten.1 hv
  rcases List.mem_append.1 ho with ho | ho
  · exact (hout o ho).2.2 v hv
  · exact (hhole o ho).2.2 v hv

theorem draws_mono {t : Texture} {face : Mesh K → Outcome (Mesh K)} {F G : List (Triangle K) → Prop} (h : Draws t face F) (hfg : ∀ l, F l → G l) : Draws t face G := by
  intro m done ts hm
  obtain ⟨m', new, h1, h2, h3⟩ := h m done ts hm
  exact ⟨m', new, h1, h2, hfg _ h3⟩

/-- Each roof is drawn as it is described. -/
theorem roof_drawn {lib : Library K} (hl : Standard lib) {env : Env K} {part : BuildingSpec.Part K} (id : UInt64) {start : Geo K} {ring0 : List (Vec K)}
    {rest0 : List (List (Vec K) × Bool)} (hf : part.rings = (ground start :: ring0, false) :: rest0) (hrings : ∀ r ∈ part.rings, opened env.epsilon r.1 ≠ [])
    (h : RoofAble lib env part) {p : Poly K} {holes : List (List (Vec K))} (hp : polygonOf env part = .ok p) (hio : InRange (env.triangulate p))
    (ho : List.Forall₂ (Stored p) (outlinesOf env part) p.outers) (hi : List.Forall₂ (Stored p) holes p.inners) (hk : holes.Sublist (holesOf env part))
    (hsmall : NorthEast env.huge env.tiny (outlinesOf env part ++ holes).flatten → Smallest p.rectangle (outlinesOf env part ++ holes).flatten) (top : K) :
    ∃ face, roofOf (complete lib env) part.style.roofType = some face ∧
      Draws (part.style.roofLook id).texture (face (part.style.roofLook id) part.style.roofDirection part.style.roofHeight top p)
        (RoofShape lib env part (part.style.roofLook id) (env.triangulate p) (outlinesOf env part) holes top) := by
  have single : ∀ contour ring, part.rings = [(contour, false)] → opened env.epsilon contour = ring →
      ring ≠ [] ∧ Single env p ring ∧ outlinesOf env part = [ring] ∧ holes = [] := by
    intro contour ring hring hopened
    have hne : ring ≠ [] := by rw [← hopened]; exact hrings (contour, false) (by rw [hring]; exact List.mem_singleton.2 rfl)
    have hs := polygonOf_single env part contour hring (opened_ne (epsilon := env.epsilon) (by rw [hopened]; exact hne)) p hp
    rw [hopened] at hs
    refine ⟨hne, hs, by simp [outlinesOf, hring, hopened], ?_⟩
    unfold holesOf at hk
    rw [hring] at hk
    simpa using hk
  cases h with
  | plain ht =>
    obtain ⟨face, a1, a2⟩ := roof_draws (complete lib env) part.style id top p _ ho hio ht
    exact ⟨face, a1, draws_mono a2 fun l hl => .plain hl⟩
  | dome ht heps hb =>
    obtain ⟨hrect, hout, hin⟩ := boxed_smallest hf hb hk hsmall
    refine ⟨domeRoof lib env, by simp [roofOf, ht, complete, otherRoof], fun m done ts h => ?_⟩
    obtain ⟨m', new, a1, a2, a3⟩ := outerRectangles_draws env (part.style.roofLook id).texture p (ball lib env.epsilon (part.style.roofLook id) true top) _
      (fun r => dome_ok hl env.epsilon heps _ _ r) _ holes ho hrect hout hin m done ts h
    exact ⟨m', new, a1, a2, .dome ht a3⟩
  | round ht heps hv =>
    refine ⟨roundRoof lib env, by simp [roofOf, ht, complete, otherRoof], ?_⟩
    by_cases hin : p.inners = []
    · have hh : holes = [] := by
        rw [hin] at hi
        exact List.forall₂_nil_right_iff.1 hi
      exact draws_mono (roundRoof_draws hl env heps (part.style.roofLook id) part.style.roofDirection part.style.roofHeight top p _ ho hin hv) fun l hl =>
        .round ht (fun _ => hl) (fun hc => absurd hh hc)
    · have hh : holes ≠ [] := by
        rintro rfl
        exact hin (List.forall₂_nil_left_iff.1 hi)
      intro m done ts h
      obtain ⟨m', new, h1, h2, h3⟩ := flatRoof_draws env.triangulate false _ (part.style.roofLook id) top p hio m done ts h
      refine ⟨m', new, ?_, h2, .round ht (fun hc => absurd hc hh) (fun _ => h3)⟩
      unfold roundRoof
      rw [if_neg (by simpa using hin)]
      exact h1
  | mansard contour ring first rest s ht hring hopened hb hlib hoff hlen harea hq hopen =>
    obtain ⟨hne, hs, hout, hholes⟩ := single contour ring hring hopened
    obtain ⟨hreach, hhalf, hnear⟩ := hq (fromInt first) rfl
    refine ⟨mansardRoof lib env, by simp [roofOf, ht, complete, otherRoof], fun m done ts h => ?_⟩
    obtain ⟨m', new, h1, h2, shift, hlt, hmin, h3⟩ := mansardRoof_draws hl env (part.style.roofLook id) part.style.roofDirection part.style.roofHeight
      top p ring hs hne hb hlib first rest hoff hlen hreach (by rw [if_pos harea]; exact hopen) m done ts h
    rw [if_pos harea] at h3
    obtain rfl : shift = s := by
      by_contra hc
      exact absurd (hmin s hhalf) (not_le.2 (hnear shift (by omega) hc))
    exact ⟨m', new, h1, h2, .mansard ring first rest shift ht hout hholes hoff hlen (fun q e => (hq q e).2) h3⟩
  | mansardFlat contour ring paths ht hring hopened hb hoff hlen =>
    obtain ⟨hne, hs, hout, hholes⟩ := single contour ring hring hopened
    exact ⟨mansardRoof lib env, by simp [roofOf, ht, complete, otherRoof], draws_mono (mansardRoof_flat hl env (part.style.roofLook id) part.style.roofDirection
      part.style.roofHeight top p ring hs hne hb hio paths hoff hlen) fun l hl => .mansardFlat ring paths ht hout hholes hoff hlen hl⟩
  | skillion contour ring x ht heps hhuge hring hopened hpoints hx htilt =>
    obtain ⟨hne, hs, hout, hholes⟩ := single contour ring hring hopened
    rw [hout, hs.outers] at ho
    refine ⟨skillionRoof lib env, by simp [roofOf, ht, complete, otherRoof], draws_mono (skillionRoof_draws hl env heps hhuge (part.style.roofLook id)
      part.style.roofDirection x hx part.style.roofHeight top p ring _ hs.outers (List.forall₂_cons.1 ho).1 hio
      (hpoints p ⟨hs.points, hs.outers, hs.inners⟩) htilt.front htilt.back htilt.proper) ?_⟩
    rintro l ⟨f, k, h1, h2, h3⟩
    exact .skillion ring x f k ht hout hholes hx h1 h2 h3
  | skillionFlat contour ring x ht heps hring hopened hpoints hx hnone =>
    obtain ⟨hne, hs, hout, hholes⟩ := single contour ring hring hopened
    rw [hout, hs.outers] at ho
    exact ⟨skillionRoof lib env, by simp [roofOf, ht, complete, otherRoof], draws_mono (skillionRoof_flat hl env heps (part.style.roofLook id)
      part.style.roofDirection x hx part.style.roofHeight top p ring _ hs.outers (List.forall₂_cons.1 ho).1 hio
      (hpoints p ⟨hs.points, hs.outers, hs.inners⟩) hnone) fun l hl => .skillionFlat ring x ht hout hholes hx hnone hl⟩

/-- Walls of each kind are drawn as they are described. -/
theorem walls_drawn {lib : Library K} (hl : Standard lib) {env : Env K} {part : BuildingSpec.Part K} (id : UInt64) {start : Geo K} {ring0 : List (Vec K)}
    {rest0 : List (List (Vec K) × Bool)} (hf : part.rings = (ground start :: ring0, false) :: rest0) (h : FacadeAble lib env part) {p : Poly K} {holes : List (List (Vec K))}
    (ho : List.Forall₂ (Stored p) (outlinesOf env part) p.outers) (hi : List.Forall₂ (Stored p) holes p.inners) (hk : holes.Sublist (holesOf env part))
    (hsmall : NorthEast env.huge env.tiny (outlinesOf env part ++ holes).flatten → Smallest p.rectangle (outlinesOf env part ++ holes).flatten) (level : K) :
    ∃ face, facadeOf (complete lib env) part.style.facadeType = some face ∧
      Draws (part.style.facadeLook id).texture (face (part.style.facadeLook id) "" (full part - part.style.minHeight) (level + part.style.minHeight) p)
        (AnyFacade lib (part.style.facadeLook id) part.style.facadeType (level + part.style.minHeight) (level + full part) (outlinesOf env part) holes) := by
  have e : level + full part - (level + part.style.minHeight) = full part - part.style.minHeight := by ring
  have e' : level + part.style.minHeight + (full part - part.style.minHeight) = level + full part := by ring
  cases h with
  | flat h0 =>
    refine ⟨_, by simp only [facadeOf, h0, if_true]; rfl, fun m done ts h => ?_⟩
    obtain ⟨m', new, a1, a2, a3⟩ := flatFacade_draws (part.style.facadeLook id).texture (part.style.facadeLook id) (full part - part.style.minHeight)
      (level + part.style.minHeight) p _ holes ho hi m done ts h
    refine ⟨m', new, a1, a2, .inl ⟨h0, ?_⟩⟩
    rw [a3, e']
  | cylinder h0 hc hheight hmore hb =>
    obtain ⟨hrect, hout, hin⟩ := boxed_smallest hf hb hk hsmall
    refine ⟨cylinderFacade lib env, by simp [facadeOf, h0, complete, otherFacade], fun m done ts h => ?_⟩
    obtain ⟨m', new, a1, a2, a3⟩ := outerRectangles_draws env (part.style.facadeLook id).texture p (tower lib env.epsilon (part.style.facadeLook id)
      (full part - part.style.minHeight) (level + part.style.minHeight)) _
      (fun r => tower_ok hl hc env.epsilon _ _ _ hheight hmore r) _ holes ho hrect hout hin m done ts h
    exact ⟨m', new, a1, a2, .inr (.inl ⟨h0, by rw [e]; exact a3⟩)⟩
  | sphere h0 heps hb =>
    obtain ⟨hrect, -, -⟩ := boxed_smallest hf hb hk hsmall
    refine ⟨sphereFacade lib env, by simp [facadeOf, h0, complete, otherFacade], fun m done ts h => ?_⟩
    obtain ⟨m', new, a1, a2, a3⟩ := sphere_ok hl env.epsilon heps (part.style.facadeLook id) (level + part.style.minHeight) p.rectangle m done ts h
    exact ⟨m', new, a1, a2, .inr (.inr ⟨h0, p.rectangle, hrect, a3⟩)⟩

end RoofSheetProof

open RoofSheetProof in
/-- C117 (partial): a part with any roof and any walls is added to a mesh: the mesh shows what it showed before, a roof of the declared kind with the floor in the texture of
the roof, and walls of the declared kind in the texture of the walls. Missing: mansard and skillion roofs above several rings, and outlines for which they, domes, cylinders and
vaults are not as described (`RoofAble`, `FacadeAble`). -/
theorem C117_part_partial {K : Type} [Field K] [LinearOrder K] [IsStrictOrderedRing K] {lib : Roofs.Library K} (hl : RoofsSpec.Standard lib) (env : Building.Env K) (id : UInt64)
    (part : BuildingSpec.Part K) (h : Able lib env part) (m : MeshBuilder.Mesh K) (done : List (ShownSpec.Triangle K × MeshBuilder.Texture)) (hm : MeshSpec.Built m)
    (hs : ShownSpec.Paints m done []) :
    ∃ m' faces, BuildingSpec.drawPart (Roofs.complete lib env) id m part = .ok m' ∧ MeshSpec.Built m' ∧ ShownSpec.Paints m' (done ++ faces) [] ∧
      PartShape lib env id part faces := by
  obtain ⟨start, ⟨ring, rest, hf⟩, hrings, htri⟩ := h.rings
  obtain ⟨p, holes, hp, ho, hk, hi, hsmall⟩ := C46_polygon_partial env.epsilon env.huge env.tiny part.rings (by
    intro r hr hc; exact hrings r hr (by rw [hc]; rfl))
  have hfirst := BuildingProof.first_point (Roofs.complete lib env) part p hp start ring rest hf hrings
  obtain ⟨roof, r1, r2⟩ := roof_drawn (env := env) hl id hf hrings h.roof hp (htri p hp) ho hi hk hsmall (env.elevation start + full part)
  obtain ⟨facade, f1, f2⟩ := walls_drawn (env := env) hl id hf h.facade ho hi hk hsmall (env.elevation start)
  obtain ⟨m', top, floor, walls, h1, h2, h3, h4, h5, h6⟩ := BuildingProof.part_drawn (Roofs.complete lib env) part id m done hm hs p hp start hfirst (htri p hp)
    roof facade _ _ r1 f1 r2 f2
  exact ⟨m', _, h1, h2, by simpa only [List.append_assoc] using h3, start, ring, rest, p, holes, _, _, top, floor, walls, hf, hk, hp, ho, hi, rfl, rfl, h4, h6, h5, rfl⟩

namespace RoofSheetProof
open Verif.MeshBuilder Verif.MeshSpec Verif.ShownSpec Verif.PolygonSpec Verif.Building Verif.BuildingSpec Verif.RoofsSpec Verif.Roofs Verif.CurvedSpec
open Verif.Polygon (Vec Poly Rect)
open BuildingProof RoofsProof
set_option linter.unusedSectionVars false

variable {K : Type} [Field K] [LinearOrder K] [IsStrictOrderedRing K]

theorem roof_border {lib : Library K} {env : Env K} {part : BuildingSpec.Part K} (h : Tight lib env part) {look : Look K} {io : TriangleIo K}
    {holes : List (List (Vec K))} (hk : holes.Sublist (holesOf env part)) (hfill : Fills io (outlinesOf env part ++ holes)) {top : K} {roof : List (Triangle K)}
    (hr : RoofShape lib env part look io (outlinesOf env part) holes top roof) (f : Vec3 K → Vec3 K → Int) (hf : ∀ a b, f a b = - f b a) :
    SolidsProof.esum f (roof.map place) = ClosedProof.total f (roofEdges top (outlinesOf env part ++ holes)) := by
  obtain ⟨plan, hplan, hborder⟩ := id hfill
  have flat : ∀ ts, FlatFaces look top false io ts → SolidsProof.esum f (ts.map place) = ClosedProof.total f (roofEdges top (outlinesOf env part ++ holes)) := by
    intro ts h
    rw [ClosedProof.flat_sum _ _ _ _ plan hplan ts h f hf, ClosedProof.border_sum plan _ hborder _ (fun a b => hf _ _), total_roof f hf]
    simp
  cases hr with
  | plain hr =>
    rcases hr with ⟨ht, -⟩ | ⟨ht, hr⟩ | ⟨ht, rfl⟩
    · rcases h.roof with h' | ⟨h', -⟩ | ⟨h', -⟩ | h' <;> rw [ht] at h' <;> exact absurd h' (by decide)
    · exact flat _ hr
    · rcases h.roof with h' | ⟨h', hno⟩ | ⟨h', -⟩ | h'
      · rw [ht] at h'; exact absurd h' (by decide)
      · have : holesOf env part = [] := by
          unfold holesOf
          rw [List.map_eq_nil_iff, List.filter_eq_nil_iff]; intro r hr'; simp [hno r hr']
        rw [this] at hk
        obtain rfl : holes = [] := by simpa using hk
        rw [ClosedProof.pyramids_sum _ _ _ _ f hf, List.append_nil, total_roof f hf]
      · rw [ht] at h'; exact absurd h' (by decide)
      · rw [ht] at h'; exact absurd h' (by decide)
  | dome ht _ => rcases h.roof with h' | ⟨h', -⟩ | ⟨h', -⟩ | h' <;> rw [ht] at h' <;> exact absurd h' (by decide)
  | round ht _ _ => rcases h.roof with h' | ⟨h', -⟩ | ⟨h', -⟩ | h' <;> rw [ht] at h' <;> exact absurd h' (by decide)
  | mansard ring first rest s ht ho hh hoff hlen _ hr =>
    rcases h.roof with h' | ⟨h', -⟩ | ⟨-, h'⟩ | h'
    · rw [ht] at h'; exact absurd h' (by decide)
    · rw [ht] at h'; exact absurd h' (by decide)
    · rw [ho] at h' ⊢
      subst hh
      rw [List.append_nil]
      exact ClosedProof.border_sum _ _ (C87_border env.triangulate look top _ ring _ s roof hr (by simpa [unscaled] using hlen)
        fun p hp => h' ring (List.mem_singleton.2 rfl) _ p hoff hp) f hf
    · rw [ht] at h'; exact absurd h' (by decide)
  | mansardFlat ring paths ht ho hh _ _ hr => exact flat _ hr
  | skillion ring x i k ht ho hh _ _ _ hr =>
    rw [ho, hh, List.append_nil] at hfill ⊢
    exact ClosedProof.border_sum _ _ (C88_border look top _ io ring i k roof hr hfill) f hf
  | skillionFlat ring x ht ho hh _ _ hr => exact flat _ hr

theorem part_closed {lib : Library K} {env : Env K} {part : BuildingSpec.Part K} (id : UInt64) (h : Tight lib env part) (faces : List (Triangle K × Texture))
    (hfaces : PartShape lib env id part faces) : SolidsSpec.Closed (faces.map fun x => place x.1) := by
  obtain ⟨start, ring, rest, p, holes, bottom, top, roof, floor, walls, -, hk, hp, ho, hi, -, -, hr, hw, hfl, rfl⟩ := hfaces
  rw [if_pos h.above] at hfl
  have hfill := h.fill p holes hp ho hi
  have hfill' := hfill
  obtain ⟨plan, hplan, hborder⟩ := hfill'
  have hw : walls = (outlinesOf env part ++ holes).flatMap (ringWalls (part.style.facadeLook id) bottom top) := by
    rcases hw with ⟨-, h0⟩ | ⟨h0, -⟩ | ⟨h0, -⟩
    · exact h0
    · rw [h.facade] at h0; exact absurd h0 (by decide)
    · rw [h.facade] at h0; exact absurd h0 (by decide)
  subst hw
  apply SolidsProof.closed_of_esum
  intro f hf
  simp only [List.map_append, List.map_map, Function.comp_def, SolidsProof.esum_append]
  have w := ClosedProof.rings_sum (part.style.facadeLook id) bottom top (outlinesOf env part ++ holes) f hf
  rw [roof_border h hk hfill hr f hf, ClosedProof.flat_sum _ _ _ _ plan hplan floor hfl f hf, ClosedProof.border_sum plan _ hborder _ (fun a b => hf _ _), w,
    total_roof f hf]
  simp

theorem parts_closed {lib : Library K} {env : Env K} (id : UInt64) (parts : List (BuildingSpec.Part K)) (h : ∀ part ∈ parts, Tight lib env part)
    (faces : List (List (Triangle K × Texture))) (hf : List.Forall₂ (PartShape lib env id) parts faces) : SolidsSpec.Closed (faces.flatten.map fun x => place x.1) := by
  apply SolidsProof.closed_of_esum
  intro f hf'
  induction hf with
  | nil => rfl
  | cons h1 _ ih =>
    rw [List.flatten_cons, List.map_append, SolidsProof.esum_append, ih fun p hp => h p (List.mem_cons_of_mem _ hp),
      SolidsProof.esum_of_closed _ (part_closed id (h _ (List.mem_cons_self ..)) _ h1) f hf', add_zero]

theorem parts_drawn {lib : Library K} (hl : Standard lib) (env : Env K) (id : UInt64) (parts : List (BuildingSpec.Part K)) (h : ∀ part ∈ parts, Able lib env part) (m : Mesh K)
    (done : List (Triangle K × Texture)) (hm : Built m) (hs : Paints m done []) :
    ∃ m' faces, drawParts (complete lib env) id m parts = .ok m' ∧ Paints m' (done ++ faces.flatten) [] ∧ List.Forall₂ (PartShape lib env id) parts faces := by
  induction parts generalizing m done with
  | nil => exact ⟨m, [], rfl, by simpa using hs, .nil⟩
  | cons part parts ih =>
    obtain ⟨m1, f1, h1, b1, s1, p1⟩ := C117_part_partial hl env id part (h part (List.mem_cons_self ..)) m done hm hs
    obtain ⟨m2, f2, h2, s2, p2⟩ := ih (fun p hp => h p (List.mem_cons_of_mem _ hp)) m1 _ b1 s1
    exact ⟨m2, f1 :: f2, by simp only [drawParts, h1, Outcome.bind, h2], by simpa using s2, .cons p1 p2⟩

theorem meshes_drawn {lib : Library K} (hl : Standard lib) (env : Env K) (es : List (Element (Geo K))) (h : ∀ e ∈ es, ∀ part ∈ parts env.style e, Able lib env part) :
    ∃ ms, meshesOf (complete lib env) es = .ok ms ∧ List.Forall₂ (IsHouse lib env) es ms := by
  induction es with
  | nil => exact ⟨[], rfl, .nil⟩
  | cons e es ih =>
    obtain ⟨m, faces, h1, h2, h3⟩ := parts_drawn hl env e.id (parts env.style e) (h e (List.mem_cons_self ..)) {} [] .empty
      ⟨[], [], [], ⟨rfl, by simp, by simp⟩, rfl, .nil, .nil⟩
    obtain ⟨ms, h4, h5⟩ := ih fun e he => h e (List.mem_cons_of_mem _ he)
    refine ⟨(e.id, m) :: ms, ?_, .cons ⟨rfl, faces, h3, by simpa using h2, fun hs => parts_closed e.id _ hs faces h3⟩ h5⟩
    have h1' : drawParts (complete lib env) e.id {} (parts (complete lib env).style e) = .ok m := h1
    simp only [meshesOf, h1', h4, Outcome.bind]

end RoofSheetProof

open RoofSheetProof

/-- C117: a part is drawn without a gap if it is above the ground and has flat walls, the triangle library fills its rings, and the roof is flat, pyramidal without a hole below it,
a mansard roof or a skillion roof. -/
theorem C117_closed {K : Type} [Field K] [LinearOrder K] [IsStrictOrderedRing K] {lib : Roofs.Library K} {env : Building.Env K} {part : BuildingSpec.Part K} (id : UInt64)
    (h : Tight lib env part) (faces : List (ShownSpec.Triangle K × MeshBuilder.Texture)) (hfaces : PartShape lib env id part faces) :
    SolidsSpec.Closed (faces.map fun x => BuildingSpec.place x.1) := part_closed id h faces hfaces

/-- C117 (partial): the builder of buildings, with all of its roofs and walls, gets some elements. Then the callback gets a mesh for each building, in order, which shows all of its
parts with the heights, roofs, walls and looks which the rules of the stylesheet describe, and nothing else. Missing: what `C117_part_partial` leaves open, and texts of a
stylesheet which cannot be understood. -/
theorem C117_meshes_partial (ar : Arith ℝ) (hz : ar.zero = 0) (hs : StyleEvalSpec.Sane ar) (senv : Style.Env ℝ) {rules : List Rule} {fc : FilterCollection}
    (hok : Style.build senv rules = .ok fc) {P : Str → Prop} (hm : Mentions rules P) (hk : ∀ k ∈ words ++ amounts, P k) (paint : Paint) {lib : Roofs.Library ℝ}
    (hl : RoofsSpec.Standard lib) (base : Building.Env ℝ) (lod : ℤ)
    (calls : List El) (hr : ∀ e ∈ calls, ∀ x, Within x e → Readable senv P x ∧ Clear ar senv (decls senv rules lod x) x.tags) :
    ∃ style, (∀ e ∈ calls, ∀ x, Within x e → Told ar senv paint (decls senv rules lod x) (style x) x) ∧
      ((∀ e ∈ calls, BuildingSpec.Fine style e) → (∀ e ∈ calls, ∀ part ∈ BuildingSpec.parts style e, Able lib { base with style := style } part) →
        ∃ ms, deliver ar senv paint (Roofs.complete lib base) fc lod calls = .ok ms ∧
          List.Forall₂ (IsHouse lib { base with style := style }) (calls.filter (BuildingSpec.Delivered style)) ms) := by
  refine ⟨styleOf ar senv paint fc lod, fun e he x hx => ?_, fun hfine hdraw => ?_⟩
  · obtain ⟨s, h1, h2⟩ := C111_style_partial ar hz hs senv hok hm hk paint lod x (hr e he x hx).1 (hr e he x hx).2
    simpa only [styleOf, h1] using h2
  · unfold deliver
    have e : ({ Roofs.complete lib base with style := styleOf ar senv paint fc lod } : Building.Env ℝ) = Roofs.complete lib { base with style := styleOf ar senv paint fc lod } := rfl
    rw [e, C74_meshes_partial (Roofs.complete lib { base with style := styleOf ar senv paint fc lod }) calls hfine]
    exact meshes_drawn hl { base with style := styleOf ar senv paint fc lod } _ fun e he => hdraw e (List.mem_filter.1 he).1

open Verif.LoadTile Verif.QuadKeyBuilderSpec Verif.ImportSpec Verif.ImportRelationsSpec Verif.GeoStoreSpec GeoStoreProof
open Verif.OsmXmlSpec (Doc Head PrintsBody)

/-- C117 (partial): a stylesheet and an OSM file are read, the file is imported, and a tile is loaded. Then the callback gets a mesh for each building which is to be seen in the
tile, and it shows the building, with any roof and any walls, as the rules of the stylesheet describe it. Missing: what C98 and `C117_meshes_partial` leave open. -/
theorem C117_file_partial {K A L : Type} [LinearOrder K] (T : MapCss.Tools A L) {css g : List Char} {entries : List (MapCssSpec.Entry A L)}
    (hcss : MapCssSpec.Reads T css g entries) (hg : MapCssSpec.Gap g) (senv : Style.Env ℝ) (hacc : (Style.build senv (rulesOf entries)).isOk = true)
    {P : Str → Prop} (hm : Mentions (rulesOf entries) P) (hskip : P "skip".toList) (hclip : P "clip".toList) (hkeys : ∀ k ∈ words ++ amounts, P k)
    (ar : Arith ℝ) (hz : ar.zero = 0) (hs : StyleEvalSpec.Sane ar) (paint : Paint) {lib : Roofs.Library ℝ} (hlib : RoofsSpec.Standard lib) (base : Building.Env ℝ)
    (env : Import.Env) (hsort : OsmSpec.Sorts env.sort) (tokens : El → List UInt32) {m : GeoStore.Map K (MemStore.Store El)}
    {B : Stores K (MemStore.Store El)} (hB : Abs m B) (hu : Used tokens B) {k : K} {s : MemStore.Store El} (hk : B k = some s) {target : Import.Target} (ht : Sensible target)
    {h w u : List Char} {d : Doc} (hh : Head h) (hw : PrintsBody d w) (hf : ∃ v, w = '<' :: v) (hb : d.bounds ≠ none ∨ d.nodes ≠ []) (hd : ImportSpec.Sound d)
    (hr : (d.relations.map (·.id)).Nodup) :
    ∃ fc, (∃ depth, ∀ n ≥ depth, openSheet T senv n css = .ok fc) ∧
      ∃ x, ImportRelationsSpec.Describes env.eps (fun s => senv.getId s.toList) d x ∧ (ResolveSpec.Sound (withSheet env senv fc).resolver x →
        ∃ es, List.Forall₂ (fun key e => ResolveSpec.Becomes (withSheet env senv fc).resolver x (.old key) e) (ResolveSpec.All x) es ∧ ((∀ e ∈ es, Readable senv P e) →
          ∀ order : List UInt64 → List UInt64, (∀ l, (order l).Perm l) → ∃ N, ∀ n ≥ N,
            ∃ m', Import.importXml (GeoStore.memIface tokens) { withSheet env senv fc with order := order, stack := n } m k target (h ++ (w ++ u)) = (m', .done) ∧
              ∀ q, ∃ old, (GeoStore.step (GeoStore.memIface tokens) m (.tile q)).2 = .elements old ∧
                ∀ l, l = old ++ es.filterMap (seen env.eng (wanted senv (rulesOf entries)) target q) →
                  (∀ e ∈ l.flatMap QuadKeyBuilderSpec.parts, ∀ x, Within x e → Readable senv P x ∧ Clear ar senv (decls senv (rulesOf entries) q.lod x) x.tags) →
                  DistinctIds senv (rulesOf entries) q.lod l →
                  ∀ sorted order : List (List Char) → List (List Char), (∀ l, (sorted l).Perm l) → (∀ l, (order l).Perm l) →
                    ∃ t style, loadTile (GeoStore.memIface tokens) senv fc sorted order m' q = .ok t ∧
                      (∀ e ∈ buildWith senv (rulesOf entries) q.lod "building".toList l, ∀ x, Within x e →
                        Told ar senv paint (decls senv (rulesOf entries) q.lod x) (style x) x) ∧
                      ((∀ e ∈ buildWith senv (rulesOf entries) q.lod "building".toList l, BuildingSpec.Fine style e ∧
                          ∀ part ∈ BuildingSpec.parts style e, Able lib { base with style := style } part) →
                        ∃ ms shown, deliver ar senv paint (Roofs.complete lib base) fc q.lod (visited "building".toList t) = .ok ms ∧
                          shown.Perm ((buildWith senv (rulesOf entries) q.lod "building".toList l).filter (BuildingSpec.Delivered style)) ∧
                          List.Forall₂ (IsHouse lib { base with style := style }) shown ms))) := by
  obtain ⟨fc, ⟨depth, hopen⟩, x, hx, h1⟩ := C98_load_partial T hcss hg senv hacc hm hskip hclip env hsort tokens hB hu hk ht hh hw hf hb hd hr (u := u)
  have hok : Style.build senv (rulesOf entries) = .ok fc := by
    obtain ⟨depth', hdepth⟩ := C60_parse_partial T css g entries hcss hg
    obtain ⟨sheet, a1, a2⟩ := hdepth (max depth depth') (le_max_right _ _)
    have := hopen (max depth depth') (le_max_left _ _)
    rw [openSheet, a1] at this
    simp only [Outcome.bind] at this
    rwa [a2.1, LoadTileProof.toRule_rulesOf] at this
  refine ⟨fc, ⟨depth, hopen⟩, x, hx, fun hsound => ?_⟩
  obtain ⟨es, h2, h3⟩ := h1 hsound
  refine ⟨es, h2, fun hread order horder => ?_⟩
  obtain ⟨N, h4⟩ := h3 hread order horder
  refine ⟨N, fun n hn => ?_⟩
  obtain ⟨m', h5, h6⟩ := h4 n hn
  refine ⟨m', h5, fun q => ?_⟩
  obtain ⟨old, h7, h8⟩ := h6 q
  refine ⟨old, h7, fun l hl hread' hdis sorted order' hsorted horder' => ?_⟩
  obtain ⟨t, h9, h10⟩ := h8 l hl (fun e he => (hread' e he e (.self e)).1) hdis sorted order' hsorted horder'
  have hp := (h10 "building".toList).2
  obtain ⟨style, h11, h12⟩ := C117_meshes_partial ar hz hs senv hok hm hkeys paint hlib base q.lod (visited "building".toList t) (by
    intro e he x hx
    have := hp.mem_iff.1 he
    exact hread' e (List.mem_of_mem_filter this) x hx)
  refine ⟨t, style, h9, fun e he => h11 e (hp.mem_iff.2 he), fun hall => ?_⟩
  obtain ⟨ms, h13, h14⟩ := h12 (fun e he => (hall e (hp.mem_iff.1 he)).1) (fun e he => (hall e (hp.mem_iff.1 he)).2)
  exact ⟨ms, _, h13, hp.filter _, h14⟩


/-! ## Examples -/

namespace RoofSheetProof.Sample
open Verif.PolygonSpec Verif.Roofs Verif.RoofsSpec Verif.CurvedSpec BuildingSheetProof.Sample RoofsProof SkillionProof CurvedProof
open Verif.Polygon (Vec)

/-- A small house with a skillion roof which begins in the east can be drawn. -/
theorem skillion_able (distance : Geo ℝ → Geo ℝ → ℝ) (offset : Terrain.Path → ℝ → List Terrain.Path) :
    Able (realLibrary (fun _ => 0) distance offset) (quadWorld "skillion" "E") ⟨realHouse "skillion" "E", [(smallRing, false)]⟩ := by
  obtain ⟨l1, l2⟩ := small_line
  obtain ⟨c0, c1, c2, c3, c4⟩ := small_corners
  refine ⟨⟨_, smallHouse_drawable _ _ _⟩, .skillion smallRing smallRing 90 rfl (by norm_num [quadWorld, realWorld]) (by norm_num [quadWorld, realWorld]) rfl
    (smallRing_opened _ rfl) (fun p hp => quads_points p _ _ _ _ hp) (east_degrees distance offset) ?_, .flat rfl⟩
  rw [east, l1, l2]
  refine ⟨⟨1, by simp [smallRing], _, small_east, by norm_num [square]⟩, ⟨1, by simp [smallRing], _, small_east, by norm_num [square, quadWorld, realWorld]⟩, ?_⟩
  intro f k hf hk
  rw [small_front f hf, small_back k hk]
  refine ⟨by omega, ?_⟩
  rw [c0, c1, c2]
  norm_num [GeometrySpec.side]

/-- It has no gap. -/
theorem skillion_tight (distance : Geo ℝ → Geo ℝ → ℝ) (offset : Terrain.Path → ℝ → List Terrain.Path) :
    Tight (realLibrary (fun _ => 0) distance offset) (quadWorld "skillion" "E") ⟨realHouse "skillion" "E", [(smallRing, false)]⟩ := by
  refine ⟨?_, .inr (.inr (.inr rfl)), rfl, by norm_num [realHouse]⟩
  intro p holes hp ho hi
  have hsingle := polygonOf_single _ _ smallRing rfl (by simp [smallRing]) p hp
  rw [show opened (quadWorld "skillion" "E").epsilon smallRing = smallRing from smallRing_opened _ rfl] at hsingle
  rw [hsingle.inners] at hi
  rw [List.forall₂_nil_right_iff.1 hi, List.append_nil, show outlinesOf (quadWorld "skillion" "E") ⟨realHouse "skillion" "E", [(smallRing, false)]⟩ = [smallRing] from by
    show [opened (1 / 1000 : ℝ) smallRing] = _
    rw [smallRing_opened _ rfl]]
  exact quads_fill p _ _ _ _ ⟨hsingle.points, hsingle.outers, hsingle.inners⟩

/-- `area|z1-16[a=b] { builder: building; building: true; height: 12m; min-height: 2m; roof-type: dome; facade-type: cylinder; }` -/
def observatory : Rule := { BuildingSheetProof.Sample.rule with declarations :=
  [⟨"builder".toList, "building".toList⟩, ⟨"building".toList, "true".toList⟩, ⟨"height".toList, ['1', '2', 'm']⟩, ⟨"min-height".toList, ['2', 'm']⟩,
    ⟨"roof-type".toList, "dome".toList⟩, ⟨"facade-type".toList, "cylinder".toList⟩] }

theorem observatory_mentions : Mentions [observatory] (· ∈ table) := by
  unfold Mentions
  decide

theorem observatory_clear : Clear arith strings observatory.declarations house.tags := by
  constructor
  · intro k hk
    simp only [words, List.mem_cons, List.not_mem_nil, or_false] at hk
    rcases hk with rfl | rfl | rfl | rfl | rfl | rfl | rfl | rfl | rfl
    · exact ⟨_, .plain _ (plain 't' ['r', 'u', 'e'] (by decide) (by decide))⟩
    · exact ⟨_, .nothing⟩
    · exact ⟨_, .plain _ (plain 'd' ['o', 'm', 'e'] (by decide) (by decide))⟩
    · exact ⟨_, .nothing⟩
    · exact ⟨_, .nothing⟩
    · exact ⟨_, .nothing⟩
    · exact ⟨_, .plain _ (plain 'c' ['y', 'l', 'i', 'n', 'd', 'e', 'r'] (by decide) (by decide))⟩
    · exact ⟨_, .nothing⟩
    · exact ⟨_, .nothing⟩
  · intro k hk
    simp only [amounts, List.mem_cons, List.not_mem_nil, or_false] at hk
    rcases hk with rfl | rfl | rfl | rfl | rfl | rfl | rfl
    · exact ⟨_, .metres ['1', '2']⟩
    · exact ⟨_, .metres ['2']⟩
    all_goals exact ⟨_, .nothing⟩

end RoofSheetProof.Sample
open RoofSheetProof.Sample

/-- The house with a skillion roof is drawn without a gap. -/
example (distance : Geo ℝ → Geo ℝ → ℝ) (offset : Terrain.Path → ℝ → List Terrain.Path) :
    ∃ m' faces, BuildingSpec.drawPart (Roofs.complete (Roofs.realLibrary (fun _ => 0) distance offset) (RoofsProof.quadWorld "skillion" "E")) 7 {}
      ⟨RoofsProof.realHouse "skillion" "E", [(SkillionProof.smallRing, false)]⟩ = .ok m' ∧ ShownSpec.Paints m' faces [] ∧
      SolidsSpec.Closed (faces.map fun x => BuildingSpec.place x.1) := by
  obtain ⟨m', faces, h1, -, h3, h4⟩ := C117_part_partial (C86_library _ _ _) _ 7 _ (skillion_able distance offset) {} [] .empty
    ⟨[], [], [], ⟨rfl, by simp, by simp⟩, rfl, .nil, .nil⟩
  exact ⟨m', faces, h1, by simpa using h3, C117_closed 7 (skillion_tight distance offset) faces h4⟩

open BuildingSheetProof.Sample PolygonSpec BuildingSpec ShownSpec CurvedSpec in
/-- A stylesheet with an observatory: one mesh is delivered for the house, which shows a tower of seven sides from 2 to 12 metres above the ground, with a dome on it. -/
example (paint : Paint) (parseDouble : String → ℝ) (distance : Geo ℝ → Geo ℝ → ℝ) (offset : Terrain.Path → ℝ → List Terrain.Path) :
    ∃ fc m p roof floor walls lib, lib = Roofs.realLibrary parseDouble distance offset ∧ Style.build strings [observatory] = .ok fc ∧
      deliver arith strings paint (Roofs.complete lib (BuildingSheetProof.Sample.ground paint)) fc 1 [house] = .ok [(7, m)] ∧
      InRectangles (DomeFaces lib (paint [] 0 [] 0 7) 112) [[⟨0, 0⟩, ⟨4, 0⟩, ⟨4, 3⟩, ⟨0, 3⟩]] roof ∧ FlatFaces (paint [] 0 [] 0 7) 102 true p floor ∧
      InRectangles (TowerFaces lib (paint [] 0 [] 0 7) 102 10) [[⟨0, 0⟩, ⟨4, 0⟩, ⟨4, 3⟩, ⟨0, 3⟩]] walls ∧
      Paints m ((roof ++ floor).map (fun x => (x, (paint [] 0 [] 0 7).texture)) ++ walls.map (fun x => (x, (paint [] 0 [] 0 7).texture))) [] := by
  obtain ⟨fc, hok⟩ : ∃ fc, Style.build strings [observatory] = .ok fc := ⟨_, rfl⟩
  have hw : ∀ x, Within x house → x = house := by
    intro x hx
    cases hx
    rfl
  have hs : StyleEvalSpec.Sane arith := fun _ => ⟨rfl, rfl⟩
  obtain ⟨style, h1, h2⟩ := C117_meshes_partial arith rfl hs strings hok observatory_mentions (by decide) paint (C86_library parseDouble distance offset)
    (BuildingSheetProof.Sample.ground paint) 1 [house] (by
    intro e he x hx
    rw [List.mem_singleton.1 he] at hx
    rw [hw x hx, show decls strings [observatory] 1 house = _ from house_decls _]
    exact ⟨readable, observatory_clear⟩)
  have ht := h1 house (by simp) house (.self _)
  rw [show decls strings [observatory] 1 house = _ from house_decls _] at ht
  obtain ⟨b, hb1, hb2, hb3⟩ := ht
  have hun := fun o => C111_unique_partial arith rfl hs strings house.tags o
  have hb : b = "true".toList := (hun _).2 _ _ hb1 (.plain _ (plain 't' ['r', 'u', 'e'] (by decide) (by decide)))
  have hd := hb3 hb
  have hbt : (style house).building = true := hb2.2 hb
  have e1 : (style house).height = 12 := by
    have := (hun _).1 _ _ hd.height (.metres ['1', '2'])
    rw [this]; simp [strings]
  have e2 : (style house).minHeight = 2 := by
    have := (hun _).1 _ _ hd.minHeight (.metres ['2'])
    rw [this]; simp [strings]
  have e3 : (style house).roofType = "dome" := String.toList_inj.1 ((hun _).2 _ _ hd.roofType (.plain _ (plain 'd' ['o', 'm', 'e'] (by decide) (by decide))))
  have e4 : (style house).facadeType = "cylinder" :=
    String.toList_inj.1 ((hun _).2 _ _ hd.facadeType (.plain _ (plain 'c' ['y', 'l', 'i', 'n', 'd', 'e', 'r'] (by decide) (by decide))))
  have e5 : (style house).roofLook = paint [] 0 [] 0 := by
    obtain ⟨g, i, t, c, w1, w2, w3, w4, w5⟩ := hd.roofLook
    rw [w5, (hun _).2 _ _ w1 .nothing, (hun _).1 _ _ w2 .nothing, (hun _).2 _ _ w3 .nothing, (hun _).1 _ _ w4 .nothing]
  have e6 : (style house).facadeLook = paint [] 0 [] 0 := by
    obtain ⟨g, i, t, c, w1, w2, w3, w4, w5⟩ := hd.facadeLook
    rw [w5, (hun _).2 _ _ w1 .nothing, (hun _).1 _ _ w2 .nothing, (hun _).2 _ _ w3 .nothing, (hun _).1 _ _ w4 .nothing]
  have hparts : BuildingSpec.parts style house = [⟨style house, [([⟨0, 0⟩, ⟨4, 0⟩, ⟨4, 3⟩, ⟨0, 3⟩], false)]⟩] := by
    have : (style (.area 7 [⟨0, 1⟩] [⟨0, 0⟩, ⟨0, 4⟩, ⟨3, 4⟩, ⟨3, 0⟩])).building = true := hbt
    simp [house, BuildingSpec.parts, this, BuildingSpec.ground]
  have hopen : PolygonSpec.opened (1 / 1000 : ℝ) [⟨0, 0⟩, ⟨4, 0⟩, ⟨4, 3⟩, ⟨0, 3⟩] = [⟨0, 0⟩, ⟨4, 0⟩, ⟨4, 3⟩, ⟨0, 3⟩] := by
    norm_num [PolygonSpec.opened]
  have hbox : Boxed { BuildingSheetProof.Sample.ground paint with style := style } ⟨style house, [([⟨0, 0⟩, ⟨4, 0⟩, ⟨4, 3⟩, ⟨0, 3⟩], false)]⟩ := by
    constructor
    · intro r hr
      rw [List.mem_singleton.1 hr]
      show NorthEast (1000 : ℝ) (1 / 1000) (opened (1 / 1000 : ℝ) _)
      rw [hopen]
      refine ⟨⟨⟨4, 3⟩, by simp, by norm_num⟩, ⟨⟨4, 3⟩, by simp, by norm_num⟩, ?_⟩
      intro v hv
      simp only [List.mem_cons, List.not_mem_nil, or_false] at hv
      rcases hv with rfl | rfl | rfl | rfl <;> norm_num
    · intro o _ h hh
      simp [holesOf] at hh
  have hfull : full (⟨style house, [([⟨0, 0⟩, ⟨4, 0⟩, ⟨4, 3⟩, ⟨0, 3⟩], false)]⟩ : BuildingSpec.Part ℝ) = 12 := by
    simp only [full, e1]; norm_num
  obtain ⟨ms, h3, h4⟩ := h2 (by intro e he; rw [List.mem_singleton.1 he]; trivial) (by
    intro e he part hp
    rw [List.mem_singleton.1 he, hparts, List.mem_singleton] at hp
    subst hp
    refine ⟨⟨⟨0, 0⟩, ⟨_, _, rfl⟩, ?_, ?_⟩, .dome e3 (by show (1 / 1000 : ℝ) ≤ _; norm_num) hbox, .cylinder e4 (CurvedProof.circular ..) ?_ ?_ hbox⟩
    · intro r hr
      rw [List.mem_singleton.1 hr]
      show PolygonSpec.opened (1 / 1000 : ℝ) _ ≠ []
      rw [hopen]
      simp
    · intro p _
      show ∀ t ∈ [((0 : Int), (1 : Int), (2 : Int)), (2, 3, 0)], ∀ c ∈ [t.1, t.2.1, t.2.2], 0 ≤ c ∧ c < 4
      decide
    · rw [hfull, e2]; norm_num
    · rw [hfull, e2]; show (1 / 1000 : ℝ) ≤ _; norm_num)
  have hdel : Delivered style house = true := by
    have : (style (.area 7 [⟨0, 1⟩] [⟨0, 0⟩, ⟨0, 4⟩, ⟨3, 4⟩, ⟨3, 0⟩])).building = true := hbt
    simp only [house, Delivered, this, Bool.and_true, Bool.not_eq_true']
    decide
  rw [List.filter_cons_of_pos hdel, List.filter_nil] at h4
  cases h4 with
  | @cons _ mm _ _ hc hl =>
    cases hl
    obtain ⟨i, m⟩ := mm
    obtain ⟨hid, faces, f1, f2, -⟩ := hc
    simp only at hid
    subst hid
    rw [hparts] at f1
    cases f1 with
    | @cons _ face _ _ f3 f4 =>
      cases f4
      obtain ⟨start, ring, rest, p, holes, bottom, top, roof, floor, walls, g1, g3, g4, g5, g6, g7, g8, g9, g9', g10, g11⟩ := f3
      have ho : outlinesOf { BuildingSheetProof.Sample.ground paint with style := style } ⟨style house, [([⟨0, 0⟩, ⟨4, 0⟩, ⟨4, 3⟩, ⟨0, 3⟩], false)]⟩ =
          [[⟨0, 0⟩, ⟨4, 0⟩, ⟨4, 3⟩, ⟨0, 3⟩]] := by
        show [PolygonSpec.opened (1 / 1000 : ℝ) [⟨0, 0⟩, ⟨4, 0⟩, ⟨4, 3⟩, ⟨0, 3⟩]] = _
        rw [hopen]
      rw [ho] at g9 g9'
      simp only [e2] at g7
      rw [hfull] at g8
      have hbot : bottom = 102 := by rw [g7]; show (100 : ℝ) + 2 = 102; norm_num
      have htop : top = 112 := by rw [g8]; show (100 : ℝ) + _ = 112; norm_num
      simp only [e2, e5] at g10
      rw [if_pos (by norm_num)] at g10
      subst hbot htop
      have hroof : InRectangles (DomeFaces (Roofs.realLibrary parseDouble distance offset) (paint [] 0 [] 0 7) 112) [[⟨0, 0⟩, ⟨4, 0⟩, ⟨4, 3⟩, ⟨0, 3⟩]] roof := by
        have hno : ∀ t : String, (style house).roofType = t → t = "dome" := by
          intro t ht; rw [← ht]; exact e3
        cases g9 with
        | dome _ h => rw [e5] at h; exact h
        | plain h =>
          rcases h with ⟨h, -⟩ | ⟨h, -⟩ | ⟨h, -⟩
          all_goals exact absurd (hno _ h) (by decide)
        | round h => exact absurd (hno _ h) (by decide)
        | mansard _ _ _ _ h => exact absurd (hno _ h) (by decide)
        | mansardFlat _ _ h => exact absurd (hno _ h) (by decide)
        | skillion _ _ _ _ h => exact absurd (hno _ h) (by decide)
        | skillionFlat _ _ h => exact absurd (hno _ h) (by decide)
      have hwalls : InRectangles (TowerFaces (Roofs.realLibrary parseDouble distance offset) (paint [] 0 [] 0 7) 102 10) [[⟨0, 0⟩, ⟨4, 0⟩, ⟨4, 3⟩, ⟨0, 3⟩]] walls := by
        have hno : ∀ t : String, (style house).facadeType = t → t = "cylinder" := by
          intro t ht; rw [← ht]; exact e4
        rcases g9' with ⟨h, -⟩ | ⟨-, h⟩ | ⟨h, -⟩
        · exact absurd (hno _ h) (by decide)
        · rw [e6, show (112 : ℝ) - 102 = 10 by norm_num] at h
          exact h
        · exact absurd (hno _ h) (by decide)
      refine ⟨fc, m, _, roof, floor, walls, _, rfl, hok, h3, hroof, g10, hwalls, ?_⟩
      rw [g11] at f2
      simpa [e5, e6, show Element.id house = 7 from rfl] using f2

end Verif.Props
