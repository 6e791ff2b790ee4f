import Mathlib.Tactic.Linarith
import Mathlib.Tactic.Ring
import Mathlib.Tactic.ByContra
import Mathlib.Algebra.Order.Ring.Rat
import Mathlib.Data.Rat.Floor
import Mathlib.Data.List.Dedup
import Mathlib.Data.List.Sort
import Verif.Props.TerrainSpec

/-! # C83, C84: the surface of the terrain has no gaps, and what is shown at a point -/
namespace Verif.Props
open Verif.Terrain Verif.TerrainSpec
open Verif.MeshBuilder (foldO Mesh Vec2 Vec3 TriangleIo)
open Verif.Polygon (Vec Poly Rect)
open Verif.Building (Look)

set_option linter.unusedSectionVars false

namespace TerrainProof
variable {K X : Type} [Field K] [LinearOrder K] [IsStrictOrderedRing K] [FloorRing K]

theorem bind_eq {α β : Type} {o : Outcome α} {f : α → Outcome β} {b : β} (h : o.bind f = .ok b) : ∃ a, o = .ok a ∧ f a = .ok b := by
  cases o with
  | ok a => exact ⟨a, rfl, h⟩
  | throw e => simp [Outcome.bind] at h
  | ub e => simp [Outcome.bind] at h

theorem foldO_append {σ β : Type} (step : σ → β → Outcome σ) (s : σ) (l r : List β) :
    foldO step s (l ++ r) = (foldO step s l).bind fun s => foldO step s r := by
  induction l generalizing s with
  | nil => rfl
  | cons b l ih =>
    simp only [List.cons_append, foldO]
    cases step s b with
    | ok s' => exact ih s'
    | throw e => rfl
    | ub e => rfl

/-- Layer by layer is region by region. -/
theorem foldO_layers {σ β γ : Type} (step : σ → β → Outcome σ) (f : γ → List β) (s : σ) (ls : List γ) :
    foldO (fun s l => foldO step s (f l)) s ls = foldO step s (ls.flatMap f) := by
  induction ls generalizing s with
  | nil => rfl
  | cons l ls ih =>
    simp only [foldO, List.flatMap_cons, foldO_append]
    cases foldO step s (f l) with
    | ok s' => exact ih s'
    | throw e => rfl
    | ub e => rfl

/-! ## Winding numbers -/

theorem around_nil (wind : Path → X → Int) (x : X) : around wind [] x = 0 := rfl

theorem around_append (wind : Path → X → Int) (ps qs : List Path) (x : X) : around wind (ps ++ qs) x = around wind ps x + around wind qs x := by
  simp [around]

theorem around_filter (wind : Path → X → Int) (f : Path → Bool) (ps : List Path) (x : X) :
    around wind (ps.filter fun p => !f p) x + around wind (ps.filter f) x = around wind ps x := by
  induction ps with
  | nil => simp [around]
  | cons p ps ih =>
    cases h : f p <;> simp [around, h] at ih ⊢ <;> omega

theorem around_zero (wind : Path → X → Int) (ps : List Path) (x : X) (h : ∀ p ∈ ps, wind p x = 0) : around wind ps x = 0 := by
  induction ps with
  | nil => rfl
  | cons p ps ih =>
    have := ih fun q hq => h q (List.mem_cons_of_mem _ hq)
    simp only [around, List.map_cons, List.sum_cons, h p List.mem_cons_self] at this ⊢
    omega

/-! ## Clipper -/

/-- All paths of the clipper are clips, and the index is not behind the end. -/
def Clips (c : Clipper) (ps : List Path) : Prop := c.paths = ps.map (fun p => (.clip, p)) ∧ c.edgeStartIndex ≤ ps.length

theorem of_map (kind k : PolyType) (ps : List Path) : ((ps.map fun p => (k, p)).filter fun p => p.1 = kind).map Prod.snd = if k = kind then ps else [] := by
  by_cases h : k = kind <;> simp [h, List.filter_map, Function.comp_def]

theorem Clips.clip {c : Clipper} {ps : List Path} (h : Clips c ps) (new : List Path) : (c.add .subject new).of .clip = ps := by
  simp only [Clipper.of, Clipper.add, h.1, List.filter_append, List.map_append, of_map]
  simp

theorem Clips.subject {c : Clipper} {ps : List Path} (h : Clips c ps) (new : List Path) : (c.add .subject new).of .subject = new := by
  simp only [Clipper.of, Clipper.add, h.1, List.filter_append, List.map_append, of_map]
  simp

theorem Clips.add {c : Clipper} {ps : List Path} (h : Clips c ps) (new : List Path) : Clips (c.add .clip new) (ps ++ new) := by
  refine ⟨by simp [Clipper.add, h.1], ?_⟩
  have := h.2
  simp only [Clipper.add, List.length_append]; omega

theorem Clips.move {c : Clipper} {ps : List Path} (h : Clips c ps) (new : List Path) : Clips (c.add .subject new).moveSubjectToClip (ps ++ new) := by
  have h2 := h.2
  unfold Clipper.moveSubjectToClip
  split
  · rename_i he
    simp only [Clipper.add, h.1, List.isEmpty_iff, List.append_eq_nil_iff, List.map_eq_nil_iff] at he
    obtain ⟨rfl, rfl⟩ := he
    exact ⟨by simp [Clipper.add, h.1], by simpa [Clipper.add] using h2⟩
  · refine ⟨?_, ?_⟩
    · simp only [Clipper.add, h.1]
      apply List.ext_getElem
      · simp
      · intro i hi _
        simp only [List.length_mapIdx, List.length_append, List.length_map] at hi
        simp only [List.getElem_mapIdx, List.getElem_map]
        by_cases hl : i < ps.length
        · simp [List.getElem_append_left, hl]
        · have : c.edgeStartIndex ≤ i := by omega
          rw [if_pos this, List.getElem_append_right (by simpa using hl)]
          simp [List.getElem_append_right (Nat.le_of_not_lt hl)]
    · simp only [Clipper.add, h.1, List.length_append, List.length_map]; omega

/-! ## The calls of the generator -/

/-- The piece of a region after these paths. -/
def pieceOf (env : Env K) (before geometry : List Path) (context : Context K) : Piece K :=
  let g := env.library.tidy (env.library.difference geometry before)
  ⟨context, g.filter fun p => !isSmall p, g.filter isSmall⟩

/-- The pieces of regions after these paths. -/
inductive Trace (env : Env K) : List Path → List (Region K) → List (Piece K) → Prop
  | nil (before) : Trace env before [] []
  | cons {before r rs ps c} : r.context = some c → Trace env (before ++ r.geometry) rs ps →
      Trace env before (r :: rs) (pieceOf env before r.geometry c :: ps)

theorem addPolygon_eq {env : Env K} {s s' : State K} {p : Poly K} {c : Context K} (h : addPolygon env s p c = .ok s') :
    s'.pieces = s.pieces ∧ s'.foreground = s.foreground ∧ s'.background = s.background := by
  unfold addPolygon at h
  split at h
  · obtain ⟨_, _, h⟩ := bind_eq h
    obtain ⟨_, _, h⟩ := bind_eq h
    cases h; exact ⟨rfl, rfl, rfl⟩
  · obtain ⟨_, _, h⟩ := bind_eq h
    obtain ⟨_, _, h⟩ := bind_eq h
    cases h; exact ⟨rfl, rfl, rfl⟩

theorem addGeometry_eq {env : Env K} {s : State K} {geometry : List Path} {c : Context K} {r : State K × List Path}
    (h : addGeometry env s geometry c = .ok r) :
    r.1.pieces = s.pieces ++ [⟨c, r.2, (env.library.tidy geometry).filter isSmall⟩] ∧ r.2 = (env.library.tidy geometry).filter (fun p => !isSmall p) ∧
      r.1.foreground = s.foreground ∧ r.1.background = s.background := by
  unfold addGeometry at h
  obtain ⟨q, _, h⟩ := bind_eq h
  dsimp only at h
  split at h
  · cases h; exact ⟨rfl, rfl, rfl, rfl⟩
  · obtain ⟨s', hs, h⟩ := bind_eq h
    cases h
    obtain ⟨h1, h2, h3⟩ := addPolygon_eq hs
    exact ⟨h1, rfl, h2, h3⟩

theorem buildRegion_eq {env : Env K} {s s' : State K} {before kept : List Path} {r : Region K} (hf : Clips s.foreground before)
    (hb : Clips s.background kept) (h : buildRegion env s r = .ok s') :
    ∃ c, r.context = some c ∧ s'.pieces = s.pieces ++ [pieceOf env before r.geometry c] ∧ Clips s'.foreground (before ++ r.geometry) ∧
      Clips s'.background (kept ++ (pieceOf env before r.geometry c).kept) := by
  unfold buildRegion at h
  dsimp only at h
  rw [hf.clip, hf.subject] at h
  split at h
  · cases h
  · rename_i c hc
    obtain ⟨q, hq, h⟩ := bind_eq h
    cases h
    obtain ⟨h1, h2, h3, h4⟩ := addGeometry_eq hq
    refine ⟨c, hc, ?_, ?_, ?_⟩
    · rw [h1, h2]; rfl
    · dsimp only; rw [h3]; exact hf.move _
    · dsimp only; rw [h4, h2]; exact hb.add _

theorem foreground_eq {env : Env K} {s s' : State K} {before kept : List Path} (rs : List (Region K)) (hf : Clips s.foreground before)
    (hb : Clips s.background kept) (h : foldO (buildRegion env) s rs = .ok s') :
    ∃ ps, Trace env before rs ps ∧ s'.pieces = s.pieces ++ ps ∧ Clips s'.background (kept ++ ps.flatMap Piece.kept) := by
  induction rs generalizing s before kept with
  | nil => cases h; exact ⟨[], .nil _, by simp, by simpa using hb⟩
  | cons r rs ih =>
    obtain ⟨s1, h1, h⟩ := bind_eq h
    obtain ⟨c, hc, hp, hf', hb'⟩ := buildRegion_eq hf hb h1
    obtain ⟨ps, ht, hp', hb''⟩ := ih hf' hb' h
    exact ⟨_, .cons hc ht, by rw [hp', hp]; simp, by simpa using hb''⟩

/-- The pieces of a tile: those of the regions in order, and the background if something is left. -/
theorem generate_eq {env : Env K} {layers : List (Layer K)} {s : State K} (h : generateFrom env layers = .ok s) :
    ∃ ps, Trace env [] (layers.flatMap Layer.regions) ps ∧
      let left := env.library.difference [env.tileRect] (ps.flatMap Piece.kept)
      s.pieces = ps ++ if left = [] then [] else [pieceOf env (ps.flatMap Piece.kept) [env.tileRect] env.background] := by
  unfold generateFrom at h
  obtain ⟨s1, h1, h⟩ := bind_eq h
  obtain ⟨s2, h2, h⟩ := bind_eq h
  cases h
  rw [foldO_layers] at h1
  have hc : Clips (({} : State K).foreground) [] := ⟨rfl, by simp⟩
  obtain ⟨ps, ht, hp, hb⟩ := foreground_eq _ hc hc h1
  simp only [List.nil_append] at hp hb
  refine ⟨ps, ht, ?_⟩
  unfold buildBackground at h2
  dsimp only at h2
  rw [hb.clip, hb.subject] at h2
  dsimp only
  split at h2
  · rename_i he
    rw [List.isEmpty_iff] at he
    cases h2
    simp [he, hp]
  · rename_i he
    rw [List.isEmpty_iff] at he
    obtain ⟨q, hq, h2⟩ := bind_eq h2
    cases h2
    obtain ⟨h1, h2, _, _⟩ := addGeometry_eq hq
    rw [if_neg he]
    dsimp only at h1 ⊢
    rw [h1, h2, hp]; rfl

/-! ## What is shown at a point -/

section
variable {wind : Path → X → Int} {env : Env K}

/-- Without small paths around a point the piece is the difference. -/
theorem kept_eq (hx : Exact env.library wind) (x : X) (before geometry : List Path) (c : Context K)
    (hs : ∀ q ∈ (pieceOf env before geometry c).skipped, wind q x = 0) :
    around wind (pieceOf env before geometry c).kept x = if around wind geometry x ≠ 0 ∧ around wind before x = 0 then 1 else 0 := by
  have hd := hx.difference geometry before x
  have ht := hx.tidy (env.library.difference geometry before) x (by rw [hd]; split <;> simp)
  have hf := around_filter wind isSmall (env.library.tidy (env.library.difference geometry before)) x
  have hz := around_zero wind _ x hs
  simp only [pieceOf] at hz ⊢
  rw [← hd, ← ht]; omega

theorem around_kept (x : X) (ps : List (Piece K)) (h : ∀ p ∈ ps, around wind p.kept x = 0) : around wind (ps.flatMap Piece.kept) x = 0 := by
  induction ps with
  | nil => rfl
  | cons p ps ih =>
    rw [List.flatMap_cons, around_append, h p List.mem_cons_self, ih fun q hq => h q (List.mem_cons_of_mem _ hq)]; rfl

/-- Behind regions which run around the point no piece is there. -/
theorem trace_behind (hx : Exact env.library wind) (x : X) {before : List Path} {rs : List (Region K)} {ps : List (Piece K)}
    (ht : Trace env before rs ps) (hn : Oriented wind x rs) (hs : NotSkipped wind x ps) (hb : 0 < around wind before x) :
    ∀ p ∈ ps, around wind p.kept x = 0 := by
  induction ht with
  | nil => simp
  | @cons before r rs ps c hc ht ih =>
    intro p hp
    rcases List.mem_cons.1 hp with rfl | hp
    · rw [kept_eq hx x _ _ _ (hs _ List.mem_cons_self), if_neg (by omega)]
    · have := hn r List.mem_cons_self
      exact ih (fun r hr => hn r (List.mem_cons_of_mem _ hr)) (fun p hp => hs p (List.mem_cons_of_mem _ hp)) (by rw [around_append]; omega) p hp

/-- Where no region was before, the piece of the first region around the point is the only one there. -/
theorem trace_owner (hx : Exact env.library wind) (x : X) {before : List Path} {rs : List (Region K)} {ps : List (Piece K)}
    (ht : Trace env before rs ps) (hn : Oriented wind x rs) (hs : NotSkipped wind x ps) (hb : around wind before x = 0) :
    (¬ Covers wind x rs ∧ (∀ bg, owner wind bg x rs = some bg) ∧ ∀ p ∈ ps, around wind p.kept x = 0) ∨
      ∃ p, OnlyOn wind x ps p ∧ (∀ bg, owner wind bg x rs = some p.context) ∧ ∃ r ∈ rs, around wind r.geometry x ≠ 0 := by
  induction ht with
  | nil => exact .inl ⟨by simp [Covers], fun _ => rfl, by simp⟩
  | @cons before r rs ps c hc ht ih =>
    have hs0 := hs _ List.mem_cons_self
    have hs' : NotSkipped wind x ps := fun p hp => hs p (List.mem_cons_of_mem _ hp)
    have hn' : Oriented wind x rs := fun r hr => hn r (List.mem_cons_of_mem _ hr)
    have hk := kept_eq hx x _ _ _ hs0
    by_cases h0 : around wind r.geometry x = 0
    · rw [if_neg (by simp [h0])] at hk
      rcases ih hn' hs' (by rw [around_append]; omega) with ⟨h1, h2, h3⟩ | ⟨p, ⟨pre, post, e, h1, h2⟩, h3, h4⟩
      · refine .inl ⟨?_, ?_, ?_⟩
        · rintro ⟨q, hq, h⟩
          rcases List.mem_cons.1 hq with rfl | hq
          · exact h h0
          · exact h1 ⟨q, hq, h⟩
        · intro bg; rw [owner, if_neg (by simpa using h0)]; exact h2 bg
        · intro p hp
          rcases List.mem_cons.1 hp with rfl | hp
          · exact hk
          · exact h3 p hp
      · refine .inr ⟨p, ⟨_ :: pre, post, by rw [e]; rfl, h1, ?_⟩, ?_, ?_⟩
        · intro q hq
          rw [List.cons_append] at hq
          rcases List.mem_cons.1 hq with rfl | hq
          · exact hk
          · exact h2 q hq
        · intro bg; rw [owner, if_neg (by simpa using h0)]; exact h3 bg
        · obtain ⟨q, hq, h⟩ := h4
          exact ⟨q, List.mem_cons_of_mem _ hq, h⟩
    · rw [if_pos ⟨h0, hb⟩] at hk
      have := hn r List.mem_cons_self
      refine .inr ⟨_, ⟨[], ps, rfl, hk, ?_⟩, ?_, r, List.mem_cons_self, h0⟩
      · exact trace_behind hx x ht hn' hs' (by rw [around_append]; omega)
      · intro bg; rw [owner, if_pos h0, hc]; rfl

end

/-! ## Regions of elements -/

theorem withTags_eq (tags : List Tag) (e : Element (Geo K)) : withTags tags e = tagged tags e := by
  cases e <;> simp [withTags, tagged]

theorem typeOf_eq (style : Style K) (r : Region K) (h : r.context = if style.layer.isNone then some style.context else none) :
    typeOf style r = (layerOf style).1 := by
  unfold typeOf layerOf
  cases hl : style.layer <;> simp [h, hl]

theorem context_eq (style : Style K) : (if style.layer.isNone then some style.context else none) = (layerOf style).2 := by
  unfold layerOf
  cases hl : style.layer <;> simp

theorem units_eq (x : K) : toInt x = units x := by
  have e : (10 : K) ^ 7 = 10000000 := by norm_num
  have hp : (0 : K) < 10000000 := by norm_num
  unfold toInt units
  rw [e]
  by_cases h : x < 0
  · rw [if_neg (by rw [not_le]; exact mul_neg_of_neg_of_pos h hp), if_pos h, neg_mul, Int.floor_neg, neg_neg]
  · rw [if_pos (mul_nonneg (not_lt.1 h) hp.le), if_neg h]

theorem toPath_eq (cs : List (Geo K)) : toPath cs = unitsOf cs := by
  simp only [toPath, unitsOf, units_eq]

/-- Regions added one after the other. -/
def addAll (layers : Layers K) (cs : List (String × Region K)) : Layers K := cs.foldl (fun l c => addRegion l c.1 c.2) layers

theorem addAll_append (layers : Layers K) (a b : List (String × Region K)) : addAll layers (a ++ b) = addAll (addAll layers a) b := by
  simp [addAll]

mutual
theorem visit_eq (env : BuilderEnv K) (layers : Layers K) (tags : List Tag) :
    ∀ e : Element (Geo K), visit env layers tags e = addAll layers (regionsOf env tags e)
  | .node _ _ _ => rfl
  | .way id t cs => by
    simp only [visit, visitWay, withTags_eq, createRegion, toPath_eq, regionsOf, addAll, List.foldl_cons, List.foldl_nil]
    rw [typeOf_eq _ _ rfl, context_eq]
  | .area id t cs => by
    simp only [visit, visitArea, withTags_eq, createRegion, toPath_eq, regionsOf, addAll, List.foldl_cons, List.foldl_nil]
    rw [typeOf_eq _ _ rfl, context_eq]
  | .relation id t ms => by
    have h := visitMembers_eq env layers (if t = [] then tags else t) [] ms
    simp only [visit, List.isEmpty_iff, h, regionsOf, addAll_append, List.nil_append, finishRelation, withTags_eq]
    by_cases hp : outlines env (if t = [] then tags else t) ms = []
    · simp [hp, addAll]
    · simp only [if_neg hp]
      rw [typeOf_eq _ _ rfl, context_eq]
      rfl

theorem visitMembers_eq (env : BuilderEnv K) (layers : Layers K) (tags : List Tag) (geometry : List Path) :
    ∀ ms : List (Element (Geo K)),
      visitMembers env layers tags geometry ms = (addAll layers (memberRegions env tags ms), geometry ++ outlines env tags ms)
  | [] => by simp [visitMembers, memberRegions, outlines, addAll]
  | .node id t c :: ms => by
    rw [visitMembers, visitMembers_eq env layers tags geometry ms]
    simp [memberRegions, outlines]
  | .way id t cs :: ms => by
    rw [visitMembers]
    simp only [withTags_eq]
    split
    · rename_i hs
      rw [visit_eq env layers tags (.way id t cs), visitMembers_eq env _ tags geometry ms]
      simp [memberRegions, outlines, hs, addAll]
    · rename_i hs
      rw [visitMembers_eq env layers tags geometry ms]
      simp [memberRegions, outlines, hs]
  | .area id t cs :: ms => by
    rw [visitMembers]
    simp only [withTags_eq]
    split
    · rename_i hs
      rw [visitMembers_eq env layers tags _ ms, toPath_eq]
      simp [memberRegions, outlines, hs]
    · rename_i hs
      rw [visitMembers_eq env layers tags geometry ms]
      simp [memberRegions, outlines, hs]
  | .relation id t rs :: ms => by
    rw [visitMembers]
    simp only [withTags_eq]
    split
    · rename_i hs
      rw [visit_eq env layers tags (.relation id t rs), visitMembers_eq env _ tags geometry ms]
      simp [memberRegions, outlines, hs, addAll]
    · rename_i hs
      rw [visitMembers_eq env layers tags geometry ms]
      simp [memberRegions, outlines, hs]
end

theorem mem_addRegion (layers : Layers K) (type : String) (region : Region K) (name : String) (r : Region K) :
    (∃ rs, (name, rs) ∈ addRegion layers type region ∧ r ∈ rs) ↔ (∃ rs, (name, rs) ∈ layers ∧ r ∈ rs) ∨ (name = type ∧ r = region) := by
  induction layers with
  | nil => simp [addRegion]
  | cons l layers ih =>
    obtain ⟨t, rs⟩ := l
    simp only [addRegion]
    split
    · rename_i ht
      subst ht
      simp only [List.mem_cons, Prod.mk.injEq]
      constructor
      · rintro ⟨q, ⟨rfl, rfl⟩ | hq, hr⟩
        · rcases List.mem_append.1 hr with hr | hr
          · exact .inl ⟨rs, .inl ⟨rfl, rfl⟩, hr⟩
          · exact .inr ⟨rfl, by simpa using hr⟩
        · exact .inl ⟨q, .inr hq, hr⟩
      · rintro (⟨q, ⟨rfl, rfl⟩ | hq, hr⟩ | ⟨rfl, rfl⟩)
        · exact ⟨_, .inl ⟨rfl, rfl⟩, by simp [hr]⟩
        · exact ⟨q, .inr hq, hr⟩
        · exact ⟨_, .inl ⟨rfl, rfl⟩, by simp⟩
    · simp only [List.mem_cons, Prod.mk.injEq]
      constructor
      · rintro ⟨q, ⟨rfl, rfl⟩ | hq, hr⟩
        · exact .inl ⟨_, .inl ⟨rfl, rfl⟩, hr⟩
        · rcases ih.1 ⟨q, hq, hr⟩ with ⟨q, hq, hr⟩ | h
          · exact .inl ⟨q, .inr hq, hr⟩
          · exact .inr h
      · rintro (⟨q, ⟨rfl, rfl⟩ | hq, hr⟩ | h)
        · exact ⟨_, .inl ⟨rfl, rfl⟩, hr⟩
        · obtain ⟨q, hq, hr⟩ := ih.2 (.inl ⟨q, hq, hr⟩)
          exact ⟨q, .inr hq, hr⟩
        · obtain ⟨q, hq, hr⟩ := ih.2 (.inr h)
          exact ⟨q, .inr hq, hr⟩

theorem mem_addAll (layers : Layers K) (cs : List (String × Region K)) (name : String) (r : Region K) :
    (∃ rs, (name, rs) ∈ addAll layers cs ∧ r ∈ rs) ↔ (∃ rs, (name, rs) ∈ layers ∧ r ∈ rs) ∨ (name, r) ∈ cs := by
  induction cs generalizing layers with
  | nil => simp [addAll]
  | cons c cs ih =>
    have := ih (addRegion layers c.1 c.2)
    simp only [addAll, List.foldl_cons] at this ⊢
    rw [this, mem_addRegion, List.mem_cons]
    constructor
    · rintro ((h | ⟨rfl, rfl⟩) | h)
      · exact .inl h
      · exact .inr (.inl rfl)
      · exact .inr (.inr h)
    · rintro (h | rfl | h)
      · exact .inl (.inl h)
      · exact .inl (.inr ⟨rfl, rfl⟩)
      · exact .inr h

theorem visits_eq (env : BuilderEnv K) (es : List (Element (Geo K))) (layers : Layers K) :
    es.foldl (fun layers e => visit env layers [] e) layers = addAll layers (es.flatMap (regionsOf env [])) := by
  induction es generalizing layers with
  | nil => rfl
  | cons e es ih => rw [List.foldl_cons, visit_eq, ih, List.flatMap_cons, addAll_append]

/-! ## Layers -/

section
variable (wind : Path → X → Int) (x : X)

theorem around_flatMap_zero (rs : List (Region K)) (h : ∀ r ∈ rs, around wind r.geometry x = 0) : around wind (rs.flatMap Region.geometry) x = 0 := by
  induction rs with
  | nil => rfl
  | cons r rs ih =>
    rw [List.flatMap_cons, around_append, h r List.mem_cons_self, ih fun q hq => h q (List.mem_cons_of_mem _ hq)]; rfl

theorem around_flatMap_nonneg (rs : List (Region K)) (h : Oriented wind x rs) : 0 ≤ around wind (rs.flatMap Region.geometry) x := by
  induction rs with
  | nil => exact le_refl 0
  | cons r rs ih =>
    have h1 := h r List.mem_cons_self
    have h2 := ih fun q hq => h q (List.mem_cons_of_mem _ hq)
    rw [List.flatMap_cons, around_append]; omega

theorem around_flatMap_pos (rs : List (Region K)) (h : Oriented wind x rs) (hc : Covers wind x rs) : 0 < around wind (rs.flatMap Region.geometry) x := by
  induction rs with
  | nil => simp [Covers] at hc
  | cons r rs ih =>
    have h1 := h r List.mem_cons_self
    have h' : Oriented wind x rs := fun q hq => h q (List.mem_cons_of_mem _ hq)
    have h2 := around_flatMap_nonneg wind x rs h'
    rw [List.flatMap_cons, around_append]
    obtain ⟨q, hq, h0⟩ := hc
    rcases List.mem_cons.1 hq with rfl | hq
    · omega
    · have := ih h' ⟨q, hq, h0⟩; omega

end

/-- The paths of a level are those of some of the regions. -/
def IsPart (rs : List (Region K)) (m : Int × List Path) (sub : List (Region K)) : Prop := (∀ r ∈ sub, r ∈ rs) ∧ m.2 = sub.flatMap Region.geometry

theorem byLevel_sound (all : List (Region K)) (l : List (Int × List Path)) (r : Region K) (hr : r ∈ all) (h : ∀ m ∈ l, ∃ sub, IsPart all m sub) :
    ∀ m ∈ byLevel l r, ∃ sub, IsPart all m sub := by
  induction l with
  | nil =>
    intro m hm
    simp only [byLevel, List.mem_singleton] at hm
    subst hm
    exact ⟨[r], by simpa using hr, by simp⟩
  | cons a l ih =>
    obtain ⟨lv, ps⟩ := a
    intro m hm
    simp only [byLevel] at hm
    split at hm
    · rcases List.mem_cons.1 hm with rfl | hm
      · obtain ⟨sub, h1, h2⟩ := h _ List.mem_cons_self
        refine ⟨sub ++ [r], ?_, ?_⟩
        · intro q hq
          rcases List.mem_append.1 hq with hq | hq
          · exact h1 q hq
          · rw [List.mem_singleton.1 hq]; exact hr
        · dsimp only at h2 ⊢; rw [h2]; simp
      · exact h m (List.mem_cons_of_mem _ hm)
    · rcases List.mem_cons.1 hm with rfl | hm
      · exact h _ List.mem_cons_self
      · exact ih (fun m hm => h m (List.mem_cons_of_mem _ hm)) m hm

theorem byLevel_new (all : List (Region K)) (l : List (Int × List Path)) (r : Region K) (hr : r ∈ all) (h : ∀ m ∈ l, ∃ sub, IsPart all m sub) :
    ∃ m ∈ byLevel l r, ∃ sub, IsPart all m sub ∧ r ∈ sub := by
  induction l with
  | nil => exact ⟨_, List.mem_singleton_self _, [r], ⟨by simpa using hr, by simp⟩, by simp⟩
  | cons a l ih =>
    obtain ⟨lv, ps⟩ := a
    simp only [byLevel]
    split
    · obtain ⟨sub, h1, h2⟩ := h _ List.mem_cons_self
      refine ⟨_, List.mem_cons_self, sub ++ [r], ⟨?_, ?_⟩, by simp⟩
      · intro q hq
        rcases List.mem_append.1 hq with hq | hq
        · exact h1 q hq
        · rw [List.mem_singleton.1 hq]; exact hr
      · dsimp only at h2 ⊢; rw [h2]; simp
    · obtain ⟨m, hm, h'⟩ := ih fun m hm => h m (List.mem_cons_of_mem _ hm)
      exact ⟨m, List.mem_cons_of_mem _ hm, h'⟩

theorem byLevel_keep (all : List (Region K)) (l : List (Int × List Path)) (r q : Region K) (hr : r ∈ all)
    (h : ∃ m ∈ l, ∃ sub, IsPart all m sub ∧ q ∈ sub) : ∃ m ∈ byLevel l r, ∃ sub, IsPart all m sub ∧ q ∈ sub := by
  induction l with
  | nil => simp at h
  | cons a l ih =>
    obtain ⟨lv, ps⟩ := a
    obtain ⟨m, hm, sub, hp, hq⟩ := h
    simp only [byLevel]
    split
    · rcases List.mem_cons.1 hm with rfl | hm
      · refine ⟨_, List.mem_cons_self, sub ++ [r], ⟨?_, ?_⟩, by simp [hq]⟩
        · intro q hq
          rcases List.mem_append.1 hq with hq | hq
          · exact hp.1 q hq
          · rw [List.mem_singleton.1 hq]; exact hr
        · have := hp.2
          dsimp only at this ⊢; rw [this]; simp
      · exact ⟨m, List.mem_cons_of_mem _ hm, sub, hp, hq⟩
    · rcases List.mem_cons.1 hm with rfl | hm
      · exact ⟨_, List.mem_cons_self, sub, hp, hq⟩
      · obtain ⟨m, hm, h'⟩ := ih ⟨m, hm, sub, hp, hq⟩
        exact ⟨m, List.mem_cons_of_mem _ hm, h'⟩

theorem levels_sound (all rs : List (Region K)) (l : List (Int × List Path)) (hr : ∀ r ∈ rs, r ∈ all) (h : ∀ m ∈ l, ∃ sub, IsPart all m sub) :
    ∀ m ∈ rs.foldl byLevel l, ∃ sub, IsPart all m sub := by
  induction rs generalizing l with
  | nil => exact h
  | cons r rs ih => exact ih _ (fun q hq => hr q (List.mem_cons_of_mem _ hq)) (byLevel_sound all l r (hr r List.mem_cons_self) h)

theorem levels_complete (all rs : List (Region K)) (l : List (Int × List Path)) (hr : ∀ r ∈ rs, r ∈ all) (h : ∀ m ∈ l, ∃ sub, IsPart all m sub) :
    ∀ q, (q ∈ rs ∨ ∃ m ∈ l, ∃ sub, IsPart all m sub ∧ q ∈ sub) → ∃ m ∈ rs.foldl byLevel l, ∃ sub, IsPart all m sub ∧ q ∈ sub := by
  induction rs generalizing l with
  | nil => intro q hq; simpa using hq
  | cons r rs ih =>
    intro q hq
    have hr0 := hr r List.mem_cons_self
    refine ih _ (fun q hq => hr q (List.mem_cons_of_mem _ hq)) (byLevel_sound all l r hr0 h) q ?_
    rcases hq with hq | hq
    · rcases List.mem_cons.1 hq with rfl | hq
      · exact .inr (byLevel_new all l q hr0 h)
      · exact .inl hq
    · exact .inr (byLevel_keep all l r q hr0 hq)

section
variable {wind : Path → X → Int}

/-- A layer is around a point if some of its elements is. -/
theorem prepare_covers (env : BuilderEnv K) (hx : Exact env.generator.library wind) (hsort : Sorts env.sortRegions env.sortLayers) (x : X)
    (name : String) (rs : List (Region K)) (hn : Oriented wind x rs) :
    (prepareLayer env (name, rs)).sortOrder = orderOf env name ∧ Oriented wind x (prepareLayer env (name, rs)).regions ∧
      (Covers wind x rs → Covers wind x (prepareLayer env (name, rs)).regions) ∧
      ∀ r ∈ (prepareLayer env (name, rs)).regions, around wind r.geometry x ≠ 0 →
        ∃ q ∈ rs, around wind q.geometry x ≠ 0 ∧ r.context = contextOf env name q := by
  unfold prepareLayer
  by_cases h0 : name = ""
  · simp only [h0, ne_eq, not_true, if_false, orderOf, if_true, contextOf, true_and]
    have hp := hsort.regions_perm rs
    refine ⟨fun r hr => hn r (hp.mem_iff.1 hr), ?_, fun r hr h => ⟨r, hp.mem_iff.1 hr, h, rfl⟩⟩
    rintro ⟨r, hr, h⟩
    exact ⟨r, hp.mem_iff.2 hr, h⟩
  · simp only [h0, ne_eq, not_false_eq_true, if_true, orderOf, if_false, contextOf, true_and]
    have hp := hsort.regions_perm (mergeRegions env (env.layerContext name) rs)
    have hs := levels_sound rs rs [] (fun _ h => h) (by simp)
    have hc := levels_complete rs rs [] (fun _ h => h) (by simp)
    refine ⟨?_, ?_, ?_⟩
    · intro r hr
      rw [hp.mem_iff, mergeRegions, List.mem_map] at hr
      obtain ⟨m, _, rfl⟩ := hr
      dsimp only
      rw [hx.union]; split <;> simp
    · rintro ⟨q, hq, h⟩
      obtain ⟨m, hm, sub, ⟨h1, h2⟩, hqs⟩ := hc q (.inl hq)
      refine ⟨_, hp.mem_iff.2 (List.mem_map.2 ⟨m, hm, rfl⟩), ?_⟩
      dsimp only
      rw [hx.union, if_pos]
      · decide
      · have := around_flatMap_pos wind x sub (fun r hr => hn r (h1 r hr)) ⟨q, hqs, h⟩
        rw [h2]; omega
    · intro r hr h
      rw [hp.mem_iff, mergeRegions, List.mem_map] at hr
      obtain ⟨m, hm, rfl⟩ := hr
      dsimp only at h ⊢
      rw [hx.union] at h
      obtain ⟨sub, h1, h2⟩ := hs m hm
      have h3 : around wind m.2 x ≠ 0 := by
        intro h0; rw [if_neg (by simpa using h0)] at h; exact h rfl
      have : ∃ q ∈ sub, around wind q.geometry x ≠ 0 := by
        by_contra hcon
        push Not at hcon
        exact h3 (by rw [h2]; exact around_flatMap_zero wind x sub hcon)
      obtain ⟨q, hq, h⟩ := this
      exact ⟨q, h1 q hq, h, rfl⟩

theorem owner_append (bg : Context K) (x : X) (a b : List (Region K)) :
    owner wind bg x (a ++ b) = owner wind bg x b ∧ ¬ Covers wind x a ∨ ∃ r ∈ a, around wind r.geometry x ≠ 0 ∧ owner wind bg x (a ++ b) = r.context := by
  induction a with
  | nil => exact .inl ⟨rfl, by simp [Covers]⟩
  | cons r a ih =>
    by_cases h0 : around wind r.geometry x = 0
    · have e : owner wind bg x (r :: a ++ b) = owner wind bg x (a ++ b) := by
        rw [List.cons_append, owner, if_neg (by simpa using h0)]
      rcases ih with ⟨h1, h2⟩ | ⟨q, hq, h1, h2⟩
      · refine .inl ⟨e.trans h1, ?_⟩
        rintro ⟨q, hq, h⟩
        rcases List.mem_cons.1 hq with rfl | hq
        · exact h h0
        · exact h2 ⟨q, hq, h⟩
      · exact .inr ⟨q, List.mem_cons_of_mem _ hq, h1, e.trans h2⟩
    · exact .inr ⟨r, List.mem_cons_self, h0, by rw [List.cons_append, owner, if_pos h0]⟩

/-- The first region in sorted layers is in a layer of highest order. -/
theorem owner_layers (bg : Context K) (x : X) (ls : List (Layer K)) (hs : ls.Pairwise fun a b => b.sortOrder ≤ a.sortOrder) :
    (owner wind bg x (ls.flatMap Layer.regions) = some bg ∧ ∀ l ∈ ls, ¬ Covers wind x l.regions) ∨
      ∃ l ∈ ls, (∃ r ∈ l.regions, around wind r.geometry x ≠ 0 ∧ owner wind bg x (ls.flatMap Layer.regions) = r.context) ∧
        ∀ l' ∈ ls, Covers wind x l'.regions → l'.sortOrder ≤ l.sortOrder := by
  induction ls with
  | nil => exact .inl ⟨rfl, by simp⟩
  | cons l ls ih =>
    rw [List.pairwise_cons] at hs
    rw [List.flatMap_cons]
    rcases owner_append (wind := wind) bg x l.regions (ls.flatMap Layer.regions) with ⟨h1, h2⟩ | ⟨r, hr, h1, h2⟩
    · rcases ih hs.2 with ⟨h3, h4⟩ | ⟨q, hq, ⟨r, hr, h3, h4⟩, h5⟩
      · refine .inl ⟨h1.trans h3, ?_⟩
        intro q hq
        rcases List.mem_cons.1 hq with rfl | hq
        · exact h2
        · exact h4 q hq
      · refine .inr ⟨q, List.mem_cons_of_mem _ hq, ⟨r, hr, h3, h1.trans h4⟩, ?_⟩
        intro l' hl' hc
        rcases List.mem_cons.1 hl' with rfl | hl'
        · exact absurd hc h2
        · exact h5 l' hl' hc
    · refine .inr ⟨l, List.mem_cons_self, ⟨r, hr, h1, h2⟩, ?_⟩
      intro l' hl' _
      rcases List.mem_cons.1 hl' with rfl | hl'
      · exact le_refl _
      · exact hs.1 l' hl'

end
end TerrainProof

open TerrainProof
variable {K X : Type} [Field K] [LinearOrder K] [IsStrictOrderedRing K] [FloorRing K]

/-- C83: there are no gaps. A point of the tile is on some piece, whatever the regions are, unless it is in a path of the background which is too
small. -/
theorem C83_no_gaps (wind : Path → X → Int) (env : Env K) (hx : Exact env.library wind) (layers : List (Layer K)) (s : State K)
    (h : generateFrom env layers = .ok s) (x : X) (hr : wind env.tileRect x ≠ 0)
    (hs : ∀ p, s.pieces.getLast? = some p → ∀ q ∈ p.skipped, wind q x = 0) : ∃ p ∈ s.pieces, around wind p.kept x ≠ 0 := by
  obtain ⟨ps, ht, hp⟩ := generate_eq h
  dsimp only at hp
  by_cases h0 : ∀ p ∈ ps, around wind p.kept x = 0
  · have hz := around_kept (wind := wind) x ps h0
    have ht : around wind [env.tileRect] x ≠ 0 := by simpa [around] using hr
    have hd := hx.difference [env.tileRect] (ps.flatMap Piece.kept) x
    rw [if_pos ⟨ht, hz⟩] at hd
    have hne : env.library.difference [env.tileRect] (ps.flatMap Piece.kept) ≠ [] := by
      intro e; rw [e] at hd; simp [around] at hd
    rw [if_neg hne] at hp
    refine ⟨_, by rw [hp]; exact List.mem_append_right _ (List.mem_singleton_self _), ?_⟩
    rw [kept_eq hx x _ _ _ (hs _ (by rw [hp]; simp)), if_pos ⟨ht, hz⟩]; decide
  · push Not at h0
    obtain ⟨p, hm, h0⟩ := h0
    exact ⟨p, by rw [hp]; simp [hm], h0⟩

/-- C83: there are no overlaps. If regions run around their points in one direction, then a point of the tile is on exactly one piece, and that
has the context of the first region around the point, or that of the background if there is no region. -/
theorem C83_one_piece (wind : Path → X → Int) (env : Env K) (hx : Exact env.library wind) (layers : List (Layer K)) (s : State K)
    (h : generateFrom env layers = .ok s) (x : X) (hr : wind env.tileRect x ≠ 0) (hn : Oriented wind x (layers.flatMap Layer.regions))
    (hs : NotSkipped wind x s.pieces) :
    ∃ p, OnlyOn wind x s.pieces p ∧ owner wind env.background x (layers.flatMap Layer.regions) = some p.context := by
  obtain ⟨ps, ht, hp⟩ := generate_eq h
  dsimp only at hp
  have ht' : around wind [env.tileRect] x ≠ 0 := by simpa [around] using hr
  have hs' : NotSkipped wind x ps := fun p hm => hs p (by rw [hp]; simp [hm])
  rcases trace_owner hx x ht hn hs' rfl with ⟨_, h2, h0⟩ | ⟨p, ⟨pre, post, e, h1, h2⟩, h3, _⟩
  · have hz := around_kept (wind := wind) x ps h0
    have hd := hx.difference [env.tileRect] (ps.flatMap Piece.kept) x
    rw [if_pos ⟨ht', hz⟩] at hd
    have hne : env.library.difference [env.tileRect] (ps.flatMap Piece.kept) ≠ [] := by
      intro e; rw [e] at hd; simp [around] at hd
    rw [if_neg hne] at hp
    refine ⟨_, ⟨ps, [], hp, ?_, by simpa using h0⟩, h2 _⟩
    rw [kept_eq hx x _ _ _ (hs _ (by rw [hp]; simp)), if_pos ⟨ht', hz⟩]
  · refine ⟨p, ⟨pre, post ++ if env.library.difference [env.tileRect] (ps.flatMap Piece.kept) = [] then []
      else [pieceOf env (ps.flatMap Piece.kept) [env.tileRect] env.background], ?_, h1, ?_⟩, h3 _⟩
    · have key : ∀ l : List (Piece K), ps ++ l = pre ++ p :: (post ++ l) := fun l => by rw [e, List.append_assoc, List.cons_append]
      rw [hp]; exact key _
    intro q hq
    rw [← List.append_assoc] at hq
    rcases List.mem_append.1 hq with hq | hq
    · exact h2 q hq
    · split at hq
      · simp at hq
      · rename_i hne
        have hq := List.mem_singleton.1 hq
        subst hq
        rw [kept_eq hx x _ _ _ (hs _ (by rw [hp, if_neg hne]; simp)), if_neg]
        rintro ⟨_, hz⟩
        have : around wind (ps.flatMap Piece.kept) x = 1 := by
          rw [e, List.flatMap_append, List.flatMap_cons, around_append, around_append, h1,
            around_kept x pre fun q hq => h2 q (by simp [hq]), around_kept x post fun q hq => h2 q (by simp [hq])]; rfl
        omega

/-- C84: at a point of the tile the element is shown whose layer has the highest order among those which are around the point: with the context of
its layer, or with its own if it has no layer, which counts as order zero. If there is no element, then the background is shown. -/
theorem C84_owner (wind : Path → X → Int) (env : BuilderEnv K) (hx : Exact env.generator.library wind)
    (hsort : Sorts env.sortRegions env.sortLayers) (es : List (Element (Geo K))) (s : State K) (h : build env es = .ok s) (x : X)
    (hr : wind env.generator.tileRect x ≠ 0) (hn : Oriented wind x ((es.flatMap (regionsOf env [])).map Prod.snd))
    (hs : NotSkipped wind x s.pieces) :
    ∃ p, OnlyOn wind x s.pieces p ∧
      ((p.context = env.generator.background ∧ ∀ c ∈ es.flatMap (regionsOf env []), around wind c.2.geometry x = 0) ∨
        ∃ c ∈ es.flatMap (regionsOf env []), around wind c.2.geometry x ≠ 0 ∧ contextOf env c.1 c.2 = some p.context ∧
          ∀ c' ∈ es.flatMap (regionsOf env []), around wind c'.2.geometry x ≠ 0 → orderOf env c'.1 ≤ orderOf env c.1) := by
  unfold build complete at h
  rw [visits_eq] at h
  have hm := mem_addAll ([] : Layers K) (es.flatMap (regionsOf env []))
  simp only [List.not_mem_nil, false_and, exists_false, false_or] at hm
  generalize es.flatMap (regionsOf env []) = cs at h hm hn ⊢
  generalize addAll [] cs = layers at h hm
  have hperm := hsort.layers_perm (layers.map (prepareLayer env))
  have hl : ∀ name rs, (name, rs) ∈ layers → Oriented wind x rs := by
    intro name rs hmem r hr
    exact hn r (List.mem_map.2 ⟨(name, r), (hm name r).1 ⟨rs, hmem, hr⟩, rfl⟩)
  have hn' : Oriented wind x ((env.sortLayers (layers.map (prepareLayer env))).flatMap Layer.regions) := by
    intro r hr
    obtain ⟨l, hl', hr⟩ := List.mem_flatMap.1 hr
    obtain ⟨⟨name, rs⟩, hmem, rfl⟩ := List.mem_map.1 (hperm.mem_iff.1 hl')
    exact (prepare_covers env hx hsort x name rs (hl _ _ hmem)).2.1 r hr
  obtain ⟨p, hp, ho⟩ := C83_one_piece wind env.generator hx _ s h x hr hn' hs
  refine ⟨p, hp, ?_⟩
  rcases owner_layers (wind := wind) env.generator.background x _ (hsort.layers_sorted (layers.map (prepareLayer env))) with ⟨h1, h2⟩ | ⟨l, hl', ⟨r, hr', h1, h2⟩, h3⟩
  · refine .inl ⟨?_, ?_⟩
    · rw [ho] at h1; exact Option.some.inj h1
    · intro c hc
      by_contra h0
      obtain ⟨rs, hmem, hcr⟩ := (hm c.1 c.2).2 hc
      exact h2 _ (hperm.mem_iff.2 (List.mem_map.2 ⟨_, hmem, rfl⟩)) ((prepare_covers env hx hsort x c.1 rs (hl _ _ hmem)).2.2.1 ⟨c.2, hcr, h0⟩)
  · obtain ⟨⟨name, rs⟩, hmem, rfl⟩ := List.mem_map.1 (hperm.mem_iff.1 hl')
    obtain ⟨o, _, _, h4⟩ := prepare_covers env hx hsort x name rs (hl _ _ hmem)
    obtain ⟨q, hq, h5, h6⟩ := h4 r hr' h1
    refine .inr ⟨(name, q), (hm name q).1 ⟨rs, hmem, hq⟩, h5, ?_, ?_⟩
    · dsimp only; rw [← h6, ← h2, ho]
    · intro c hc h0
      obtain ⟨rs', hmem', hcr⟩ := (hm c.1 c.2).2 hc
      obtain ⟨o', _, h7, _⟩ := prepare_covers env hx hsort x c.1 rs' (hl _ _ hmem')
      have := h3 _ (hperm.mem_iff.2 (List.mem_map.2 ⟨_, hmem', rfl⟩)) (h7 ⟨c.2, hcr, h0⟩)
      rw [o, o'] at this
      exact this

/-! ## A case which meets the hypotheses

The points are the cells of a grid with cells of 100 units, all paths are rectangles. -/
namespace TerrainExample

/-- The cell is in the rectangle. -/
def within (a b c d : Int) (x : Int × Int) : Bool := a ≤ 100 * x.1 && 100 * x.1 + 100 ≤ c && b ≤ 100 * x.2 && 100 * x.2 + 100 ≤ d

/-- A counterclockwise rectangle runs once around the cells in it, a clockwise one in the other direction; other paths are not used. -/
def wind (p : Path) (x : Int × Int) : Int :=
  match p with
  | [(a, b), (c, b'), (c', d), (a', d')] =>
    if b = b' ∧ c = c' ∧ d = d' ∧ a = a' then (if within a b c d x then 1 else 0)
    else if a = c ∧ b' = d ∧ c' = a' ∧ b = d' then (if within a b c' d x then -1 else 0)
    else 0
  | _ => 0

/-- The outline of a cell. -/
def square (x : Int × Int) : Path := [(100 * x.1, 100 * x.2), (100 * x.1 + 100, 100 * x.2), (100 * x.1 + 100, 100 * x.2 + 100), (100 * x.1, 100 * x.2 + 100)]

/-- Whole numbers from `a` on. -/
def span (a b : Int) : List Int := (List.range (b - a).toNat).map fun i : Nat => a + (i : Int)

/-- The cells which may be in a rectangle. -/
def cells (p : Path) : List (Int × Int) :=
  match p with
  | [(a, b), (_, _), (c, d), (_, _)] => (span (a / 100) (c / 100)).flatMap fun i => (span (b / 100) (d / 100)).map fun j => (i, j)
  | _ => []

/-- The cells of which this is true. -/
def cut (ps : List Path) (f : Int × Int → Bool) : List Path := (((ps.flatMap cells).dedup).filter f).map square

/-- A library for rectangles: cell by cell. -/
def library : Library ℚ where
  difference s c := cut s fun x => around wind s x ≠ 0 ∧ around wind c x = 0
  union s := cut s fun x => around wind s x ≠ 0
  intersection s c := cut s fun x => around wind s x ≠ 0 ∧ around wind c x ≠ 0
  offset s _ := s
  tidy s := s

theorem wind_square (y x : Int × Int) : wind (square y) x = if y = x then 1 else 0 := by
  simp only [wind, square, and_self, if_true, within, Bool.and_eq_true, decide_eq_true_eq]
  by_cases h : y = x
  · subst h; simp
  · rw [if_neg h, if_neg]
    rintro ⟨⟨⟨h1, h2⟩, h3⟩, h4⟩
    exact h (Prod.ext (by omega) (by omega))

theorem mem_span (a b i : Int) : i ∈ span a b ↔ a ≤ i ∧ i < b := by
  simp only [span, List.mem_map, List.mem_range]
  constructor
  · rintro ⟨k, hk, rfl⟩; omega
  · rintro ⟨h1, h2⟩; exact ⟨(i - a).toNat, by omega, by omega⟩

theorem within_bounds {a b c d : Int} {x : Int × Int} (h : within a b c d x = true) :
    (a / 100 ≤ x.1 ∧ x.1 < c / 100) ∧ b / 100 ≤ x.2 ∧ x.2 < d / 100 := by
  simp only [within, Bool.and_eq_true, decide_eq_true_eq] at h
  omega

theorem mem_cells (p : Path) (x : Int × Int) (h : wind p x ≠ 0) : x ∈ cells p := by
  unfold wind at h
  split at h
  · rename_i a b c b' c' d a' d'
    simp only [cells, List.mem_flatMap, List.mem_map, mem_span]
    split at h
    · rename_i he
      obtain ⟨rfl, rfl, rfl, rfl⟩ := he
      split at h
      · rename_i hw
        obtain ⟨h1, h2⟩ := within_bounds hw
        exact ⟨x.1, h1, x.2, h2, rfl⟩
      · simp at h
    · split at h
      · rename_i he
        obtain ⟨rfl, rfl, rfl, rfl⟩ := he
        split at h
        · rename_i hw
          obtain ⟨h1, h2⟩ := within_bounds hw
          exact ⟨x.1, h1, x.2, h2, rfl⟩
        · simp at h
      · simp at h
  · simp at h

theorem around_squares (l : List (Int × Int)) (hl : l.Nodup) (x : Int × Int) : around wind (l.map square) x = if x ∈ l then 1 else 0 := by
  induction l with
  | nil => simp [around]
  | cons y l ih =>
    rw [List.nodup_cons] at hl
    have := ih hl.2
    simp only [around, List.map_cons, List.sum_cons, wind_square] at this ⊢
    rw [this]
    by_cases h : y = x
    · subst h; simp [hl.1]
    · have h' : ¬ x = y := fun e => h e.symm
      simp [h, h']

theorem around_cut (s : List Path) (f : Int × Int → Bool) (x : Int × Int) (h : f x = true → around wind s x ≠ 0) :
    around wind (cut s f) x = if f x = true then 1 else 0 := by
  unfold cut
  rw [around_squares _ ((List.nodup_dedup _).filter _)]
  by_cases hf : f x = true
  · rw [if_pos hf, if_pos]
    rw [List.mem_filter, List.mem_dedup, List.mem_flatMap]
    refine ⟨?_, hf⟩
    by_contra hcon
    push Not at hcon
    refine h hf (around_zero wind s x fun p hp => ?_)
    by_contra h0
    exact hcon p hp (mem_cells p x h0)
  · rw [if_neg hf, if_neg]
    rw [List.mem_filter]
    exact fun hm => hf hm.2

/-- The library for rectangles does what is promised. -/
theorem exact : Exact library wind where
  difference s c x := by
    have := around_cut s (fun x => around wind s x ≠ 0 ∧ around wind c x = 0) x (by simp +contextual)
    simp only [decide_eq_true_eq] at this
    exact this
  union s x := by
    have := around_cut s (fun x => around wind s x ≠ 0) x (by simp)
    simp only [decide_eq_true_eq] at this
    exact this
  tidy s x _ := rfl

/-- A context which is recognised by its color; nothing is triangulated. -/
def context (color : Int) (meshName : String := "") (heightOffset : ℚ := 0) : Context ℚ where
  heightOffset := heightOffset
  meshName := meshName
  extras := ""
  look := ⟨fun _ => color, fun _ => ⟨0, 0⟩, fun _ => color, fun _ _ _ => (1, 1), fun _ => color, fun k => k, ⟨0, 1, 1, 0, 0, 1, 1⟩⟩
  noise _ _ := 0
  triangulate _ := ⟨[], []⟩

/-- A rectangle of cells. -/
def box (a b c d : Int) : Path := [(100 * a, 100 * b), (100 * c, 100 * b), (100 * c, 100 * d), (100 * a, 100 * d)]

/-- A tile of four by four cells. -/
def env : Env ℚ where
  epsilon := 1 / 10 ^ 12
  huge := 10 ^ 9
  tiny := 0
  step := 1
  tileRect := box 0 0 4 4
  rect := ⟨0, 0, 4 / 10 ^ 5, 4 / 10 ^ 5⟩
  elevation _ := 0
  library := library
  background := context 0
  forest _ _ _ := .ok []

/-- A road of order 10 over a meadow. -/
def layers : List (Layer ℚ) := [⟨10, [⟨0, 0, some (context 1), [box 1 0 2 4]⟩]⟩, ⟨0, [⟨0, 0, some (context 2), [box 0 0 3 3]⟩, ⟨0, 0, some (context 3), [box 2 2 4 4]⟩]⟩]

/-- The colors of the pieces at a point. -/
def colorsAt (o : Outcome (State ℚ)) (x : Int × Int) : List Int :=
  match o with
  | .ok s => (s.pieces.filter fun p => around wind p.kept x ≠ 0).map fun p => p.context.look.pointColor ⟨0, 0⟩
  | _ => []

/-- The run ends, and no path was too small. -/
def fine (o : Outcome (State ℚ)) : Bool :=
  match o with
  | .ok s => s.pieces.all fun p => p.skipped.isEmpty
  | _ => false

theorem fine_ok {o : Outcome (State ℚ)} (h : fine o = true) : ∃ s, o = .ok s ∧ ∀ x, NotSkipped wind x s.pieces := by
  unfold fine at h
  split at h
  · rename_i s
    refine ⟨s, rfl, ?_⟩
    intro x p hp q hq
    rw [List.all_eq_true] at h
    have := h p hp
    rw [List.isEmpty_iff] at this
    rw [this] at hq
    simp at hq
  · simp at h

theorem box_nonneg (a b c d : Int) (hac : a < c) (x : Int × Int) : 0 ≤ around wind [box a b c d] x := by
  have : ¬ 100 * a = 100 * c := by omega
  simp [around, box, wind]
  split <;> simp

/-- The hypotheses of C83 are met by the road over the meadow, at all points of the tile. -/
example : ∃ s, generateFrom env layers = .ok s ∧ (∀ x, NotSkipped wind x s.pieces) ∧ (∀ x, Oriented wind x (layers.flatMap Layer.regions)) ∧
    wind env.tileRect (1, 1) ≠ 0 := by
  obtain ⟨s, h1, h2⟩ := fine_ok (o := generateFrom env layers) (by decide +kernel)
  refine ⟨s, h1, h2, ?_, by decide +kernel⟩
  intro x r hr
  simp only [layers, List.flatMap_cons, List.flatMap_nil, List.append_nil, List.mem_append, List.mem_cons, List.not_mem_nil, or_false] at hr
  rcases hr with rfl | rfl | rfl <;> exact box_nonneg _ _ _ _ (by decide) _

example : [(0, 0), (1, 1), (2, 2), (3, 3), (3, 0)].map (colorsAt (generateFrom env layers)) = [[2], [1], [2], [3], [0]] := by decide +kernel

/-- A rectangle of cells as coordinates. -/
def ring (a b c d : Int) : List (Geo ℚ) :=
  [⟨b / 10 ^ 5, a / 10 ^ 5⟩, ⟨b / 10 ^ 5, c / 10 ^ 5⟩, ⟨d / 10 ^ 5, c / 10 ^ 5⟩, ⟨d / 10 ^ 5, a / 10 ^ 5⟩]

/-- The style is given by the id: roads and water have layers, other elements have their own context. -/
def builder : BuilderEnv ℚ where
  generator := env
  style e := ⟨if e.id = 1 then some "road" else if e.id = 2 then some "water" else if e.id = 9 then some "" else none, 0, 1, context e.id.toNat⟩
  hasStyle _ := true
  layerOrder name := if name = "road" then 10 else -5
  layerContext name := context (if name = "road" then 101 else 102)
  sortRegions l := l.insertionSort fun a b => a.area ≤ b.area
  sortLayers l := l.insertionSort fun a b => b.sortOrder ≤ a.sortOrder

theorem sorts : Sorts builder.sortRegions builder.sortLayers where
  regions_perm l := List.perm_insertionSort _ l
  regions_sorted l := by
    have : Std.Total fun a b : Region ℚ => a.area ≤ b.area := ⟨fun a b => le_total _ _⟩
    have : IsTrans (Region ℚ) fun a b => a.area ≤ b.area := ⟨fun a b c => le_trans⟩
    exact List.pairwise_insertionSort _ l
  layers_perm l := List.perm_insertionSort _ l
  layers_sorted l := by
    have : Std.Total fun a b : Layer ℚ => b.sortOrder ≤ a.sortOrder := ⟨fun a b => le_total _ _⟩
    have : IsTrans (Layer ℚ) fun a b => b.sortOrder ≤ a.sortOrder := ⟨fun a b c h1 h2 => le_trans h2 h1⟩
    exact List.pairwise_insertionSort _ l

/-- Water, a meadow, a road made of two areas, and a relation. -/
def elements : List (Element (Geo ℚ)) :=
  [.area 2 [] (ring 0 0 4 2), .area 3 [] (ring 1 0 2 4), .area 1 [] (ring 0 1 1 2), .area 1 [] (ring 1 1 2 2), .relation 4 [] [.area 5 [] (ring 3 3 4 4)]]

/-- The hypotheses of C84 are met, at all points of the tile. -/
example : ∃ s, build builder elements = .ok s ∧ (∀ x, NotSkipped wind x s.pieces) ∧
    (∀ x, Oriented wind x ((elements.flatMap (regionsOf builder [])).map Prod.snd)) ∧ wind builder.generator.tileRect (1, 1) ≠ 0 := by
  obtain ⟨s, h1, h2⟩ := fine_ok (o := build builder elements) (by decide +kernel)
  refine ⟨s, h1, h2, ?_, by decide +kernel⟩
  have hg : ((elements.flatMap (regionsOf builder [])).map fun c => c.2.geometry) =
      [[box 0 0 4 2], [box 1 0 2 4], [box 0 1 1 2], [box 1 1 2 2], [box 3 3 4 4]] := by decide +kernel
  intro x r hr
  obtain ⟨c, hc, rfl⟩ := List.mem_map.1 hr
  have hm : c.2.geometry ∈ (elements.flatMap (regionsOf builder [])).map fun c => c.2.geometry := List.mem_map.2 ⟨c, hc, rfl⟩
  rw [hg] at hm
  simp only [List.mem_cons, List.not_mem_nil, or_false] at hm
  rcases hm with h | h | h | h | h <;> rw [h] <;> exact box_nonneg _ _ _ _ (by decide) _

example : [(0, 0), (1, 0), (0, 1), (1, 1), (3, 3), (0, 3)].map (colorsAt (build builder elements)) = [[102], [3], [101], [101], [4], [0]] := by
  decide +kernel

end TerrainExample

open TerrainExample

/-- C83 is violated if regions run around their points in different directions: their windings cancel, and a later region is shown in addition. -/
theorem C83_violated_direction : ∃ (layers : List (Layer ℚ)) (s : State ℚ), generateFrom env layers = .ok s ∧
    (∀ x, NotSkipped wind x s.pieces) ∧ wind env.tileRect (1, 1) ≠ 0 ∧ 2 ≤ (s.pieces.filter fun p => around wind p.kept (1, 1) = 1).length := by
  let layers : List (Layer ℚ) := [⟨0, [⟨0, 0, some (context 1), [box 0 0 2 2]⟩, ⟨0, 0, some (context 2), [[(100, 100), (100, 200), (200, 200), (200, 100)]]⟩,
    ⟨0, 0, some (context 3), [box 0 0 2 2]⟩]⟩]
  obtain ⟨s, h1, h2⟩ := fine_ok (o := generateFrom env layers) (by decide +kernel)
  refine ⟨layers, s, h1, h2, by decide +kernel, ?_⟩
  have h : (match generateFrom env layers with | .ok s => decide (2 ≤ (s.pieces.filter fun p => around wind p.kept (1, 1) = 1).length) | _ => false) = true := by
    decide +kernel
  rw [h1] at h
  simpa using h

/-- C84 is violated within elements without layer, which are sorted by an area which is never computed: a small area on a large one is not shown if the
large one comes first. -/
theorem C84_violated_area : ∃ (large small : List (Geo ℚ)) (s : State ℚ), build builder [.area 3 [] large, .area 4 [] small] = .ok s ∧
    |Osm.getArea small| < |Osm.getArea large| ∧ ∀ p ∈ s.pieces, p.context.look.pointColor ⟨0, 0⟩ = 4 → p.kept = [] := by
  obtain ⟨s, h1, h2⟩ := fine_ok (o := build builder [.area 3 [] (ring 0 0 4 4), .area 4 [] (ring 1 1 2 2)]) (by decide +kernel)
  refine ⟨ring 0 0 4 4, ring 1 1 2 2, s, h1, by decide +kernel, ?_⟩
  have h : (match build builder [.area 3 [] (ring 0 0 4 4), .area 4 [] (ring 1 1 2 2)] with
      | .ok s => decide (∀ p ∈ s.pieces, p.context.look.pointColor ⟨0, 0⟩ = 4 → p.kept = []) | _ => false) = true := by
    decide +kernel
  rw [h1] at h
  simpa using h

/-- C84 is violated if the layer of an element has an empty name: such a region has no context, which is undefined behaviour. -/
theorem C84_violated_empty_name (env : BuilderEnv K) (id : UInt64) (tags : List Tag) (cs : List (Geo K)) (h : (env.style (.area id tags cs)).layer = some "")
    (hr : ∀ r, env.sortRegions [r] = [r]) (hl : ∀ l, env.sortLayers [l] = [l]) : build env [.area id tags cs] = .ub "null context" := by
  have ht : withTags [] (.area id tags cs : Element (Geo K)) = .area id tags cs := by
    simp only [withTags]; cases tags <;> rfl
  simp only [build, complete, List.foldl_cons, List.foldl_nil, visit, visitArea, ht, createRegion, h, typeOf, addRegion, List.map_cons, List.map_nil,
    prepareLayer, hl, generateFrom, foldO, Option.isNone_some, Option.isNone_none, Option.getD_some, Bool.false_eq_true, if_false, if_true, ne_eq,
    not_true, hr, buildRegion, Outcome.bind]

end Verif.Props
