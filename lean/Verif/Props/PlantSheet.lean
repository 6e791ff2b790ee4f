import Verif.Props.BarrierSheet
import Verif.Props.LsysDraw
import Verif.Props.LsysText
import Verif.Props.PlantSheetSpec

/-! # C115: trees and lamps look as the stylesheet and its L-systems say -/
namespace Verif.Props
open Verif.Clipper (El)
open Verif.Style (Declaration FilterCollection Str)
open Verif.StyleSpec Verif.ShownSpec Verif.LoadTileSpec Verif.PlantSheet Verif.PlantSheetSpec
open Verif.StyleEval (Arith)
open Verif.BuildingSheetSpec (Amount Word)
open Verif.TerrainSheetSpec (Degrees)
open Verif.Lsys (Op Shape State Turtle ruleLt)
open Verif.LsysSpec (RewritesN Rewrites Balanced Frame PicksOne)
open Verif.PaletteSpec (AtlasTexts)
open Verif.GradientSpec (Reads)
open Verif.Palette (palette)

namespace PlantSheetProof

theorem sincos (x : ℝ) : Real.sin (x * (1 / 2)) ^ 2 + Real.cos (x * (1 / 2)) ^ 2 = 1 := Real.sin_sq_add_cos_sq _

theorem turned_toward {angle : ℝ} {v w u : Quaternion.Vec3 ℝ} (h : TurtleSpec.Turned (Real.sin (angle * (1 / 2))) (Real.cos (angle * (1 / 2))) v w u) : u = toward angle v w := by
  have h1 := Real.cos_two_mul' (angle * (1 / 2))
  have h2 := Real.sin_two_mul (angle * (1 / 2))
  rw [show 2 * (angle * (1 / 2)) = angle by ring] at h1 h2
  obtain ⟨a, b, c⟩ := h
  obtain ⟨x, y, z⟩ := u
  simp only at a b c
  rw [toward, h1, h2, a, b, c]

theorem turned_away {angle : ℝ} {v w u : Quaternion.Vec3 ℝ} (h : TurtleSpec.Turned (-Real.sin (angle * (1 / 2))) (Real.cos (angle * (1 / 2))) v w u) : u = toward (-angle) v w := by
  apply turned_toward
  rwa [show -angle * (1 / 2) = -(angle * (1 / 2)) by ring, Real.sin_neg, Real.cos_neg]

theorem opposite_eq {v u : Quaternion.Vec3 ℝ} (h : TurtleSpec.Opposite v u) : u = opposite v := by
  obtain ⟨a, b, c⟩ := h
  obtain ⟨x, y, z⟩ := u
  simp only at a b c
  rw [opposite, a, b, c]

theorem ahead_eq (s : State ℝ) : Lsys.jump s = { s with position := ahead s } := by
  simp only [Lsys.jump, ahead, Quaternion.Vec3.add, Quaternion.Vec3.scale]
  congr 2 <;> ring

/-- The settings of a drawing. -/
noncomputable def set (angle scale : ℝ) (n : Nat) : Lsys.Settings ℝ := LsysDraw.settings library angle scale n

theorem turns (angle scale : ℝ) (n : Nat) (t t' : Turtle ℝ) (o : Op) (ho : o ∈ turning) (h : Lsys.step (set angle scale n) t o = .ok t') :
    ∃ d r, t' = { t with state := { t.state with direction := d, right := r } } ∧
      (Frame t.state.direction t.state.right → Turns (Real.pi * angle / 180) o (t.state.direction, t.state.right) (d, r)) := by
  have e := sincos (Real.pi * angle / 180)
  have hs : (set angle scale n).sinHalf = Real.sin (Real.pi * angle / 180 * (1 / 2)) := rfl
  have hc : (set angle scale n).cosHalf = Real.cos (Real.pi * angle / 180 * (1 / 2)) := rfl
  have e' : (set angle scale n).sinHalf ^ 2 + (set angle scale n).cosHalf ^ 2 = 1 := e
  simp only [turning, List.mem_cons, List.not_mem_nil, or_false] at ho
  rcases ho with rfl | rfl | rfl | rfl | rfl | rfl | rfl
  all_goals
    simp only [Lsys.step, Outcome.ok.injEq] at h
    refine ⟨t'.state.direction, t'.state.right, by first | (rw [← h]; done) | (rw [← h]; rfl), fun hf => ?_⟩
  · obtain ⟨⟨u, h1, h2, h3⟩, -, -⟩ := C71_turn_angle (set angle scale n) e' t hf
    simp only [Lsys.step, Outcome.ok.injEq] at h1
    rw [← h, h1, turned_toward h2, turned_away h3]
    exact .right _ _
  · obtain ⟨-, ⟨u, h1, h2, h3⟩, -⟩ := C71_turn_angle (set angle scale n) e' t hf
    simp only [Lsys.step, Outcome.ok.injEq] at h1
    rw [← h, h1, turned_away h2, turned_toward h3]
    exact .left _ _
  · obtain ⟨-, -, ⟨u, h1, h2, h3⟩⟩ := C71_turn_angle (set angle scale n) e' t hf
    simp only [Lsys.step, Outcome.ok.injEq] at h1
    rw [← h, h1, opposite_eq h2, opposite_eq h3]
    exact .around _ _
  · obtain ⟨⟨v, h1, h2⟩, -⟩ := C71_pitch_roll_angle (set angle scale n) e' t hf
    simp only [Lsys.step, Outcome.ok.injEq] at h1
    rw [← h, h1, turned_toward h2]
    exact .up _ _
  · obtain ⟨-, ⟨v, h1, h2⟩, -⟩ := C71_pitch_roll_angle (set angle scale n) e' t hf
    simp only [Lsys.step, Outcome.ok.injEq] at h1
    rw [← h, h1, turned_away h2]
    exact .down _ _
  · obtain ⟨-, -, ⟨v, h1, h2⟩, -⟩ := C71_pitch_roll_angle (set angle scale n) e' t hf
    simp only [Lsys.step, Outcome.ok.injEq] at h1
    rw [← h, h1, turned_away h2]
    exact .rollRight _ _
  · obtain ⟨-, -, -, ⟨v, h1, h2⟩⟩ := C71_pitch_roll_angle (set angle scale n) e' t hf
    simp only [Lsys.step, Outcome.ok.injEq] at h1
    rw [← h, h1, turned_toward h2]
    exact .rollLeft _ _

theorem draws (angle scale : ℝ) (n : Nat) (rs : List Lsys.Rule) : ∀ t t' : Turtle ℝ, Lsys.runRules (set angle scale n) t rs = .ok t' →
    ∃ ds, t'.drawn = t.drawn ++ ds ∧ Draws (Real.pi * angle / 180) scale n t.state t.stack t.style rs ds := by
  induction rs with
  | nil =>
    intro t t' h
    simp only [Lsys.runRules, Outcome.ok.injEq] at h
    subst h
    exact ⟨[], by simp, .done _ _ _⟩
  | cons r rs ih =>
    intro t t' h
    rw [Lsys.runRules] at h
    obtain ⟨u, hu, h⟩ := TerrainSheetProof.bind_ok h
    obtain ⟨ds, h1, h2⟩ := ih u t' h
    have body : ∀ shape, (r, shape) ∈ bodies → u = Lsys.draw (set angle scale n) shape t → ∃ ds, t'.drawn = t.drawn ++ ds ∧
        Draws (Real.pi * angle / 180) scale n t.state t.stack t.style (r :: rs) ds := by
      intro shape hb e
      subst e
      refine ⟨(shape, t.state, (if shape = .sphere then t.style + 1 else t.style) % n) :: ds, ?_, .body _ _ _ _ _ _ _ hb ?_⟩
      · rw [h1]
        simp [Lsys.draw, set, LsysDraw.settings]
      · rw [← ahead_eq]
        exact h2
    cases r with
    | word w =>
      simp only [Lsys.apply, Lsys.say] at hu
      split_ifs at hu with a b c
      · exact body .cone (by rw [a]; decide) (by injection hu with hu; exact hu.symm)
      · exact body .sphere (by rw [b]; decide) (by injection hu with hu; exact hu.symm)
      · exact body .cylinder (by rw [c]; decide) (by injection hu with hu; exact hu.symm)
    | op o =>
      simp only [Lsys.apply] at hu
      have turn : o ∈ turning → ∃ ds, t'.drawn = t.drawn ++ ds ∧ Draws (Real.pi * angle / 180) scale n t.state t.stack t.style (.op o :: rs) ds := by
        intro ho
        obtain ⟨d, r, e, h3⟩ := turns angle scale n t u o ho hu
        subst e
        exact ⟨ds, h1, .turn _ _ _ _ _ _ _ _ ho h3 h2⟩
      cases o
      case moveForward => exact body .cylinder (by decide) (by injection hu with hu; exact hu.symm)
      case restore =>
        simp only [Lsys.step] at hu
        split at hu
        · cases hu
        · rename_i s stack hst
          injection hu with hu
          subst hu
          refine ⟨ds, h1, ?_⟩
          rw [hst]
          exact .restore _ _ _ _ _ _ h2
      case turnLeft => exact turn (by decide)
      case turnRight => exact turn (by decide)
      case turnAround => exact turn (by decide)
      case pitchUp => exact turn (by decide)
      case pitchDown => exact turn (by decide)
      case rollLeft => exact turn (by decide)
      case rollRight => exact turn (by decide)
      all_goals
        injection hu with hu
        subst hu
        refine ⟨ds, h1, ?_⟩
      · exact .jump _ _ _ _ _ (by rw [← ahead_eq]; exact h2)
      · exact .wider _ _ _ _ _ h2
      · exact .thinner _ _ _ _ _ h2
      · exact .switch _ _ _ _ _ h2
      · exact .longer _ _ _ _ _ h2
      · exact .shorter _ _ _ _ _ h2
      · exact .save _ _ _ _ _ h2

/-- Only unknown words throw. -/
theorem throws (s : Lsys.Settings ℝ) (rs : List Lsys.Rule) : ∀ t e, Lsys.runRules s t rs = .throw e →
    ∃ w, Lsys.Rule.word w ∈ rs ∧ ¬ (w = "cone".toList ∨ w = "sphere".toList ∨ w = "cylinder".toList) := by
  induction rs with
  | nil => intro t e h; cases h
  | cons r rs ih =>
    intro t e h
    rw [Lsys.runRules] at h
    cases hu : Lsys.apply s t r with
    | ok u =>
      rw [hu] at h
      obtain ⟨w, h1, h2⟩ := ih u e h
      exact ⟨w, List.mem_cons_of_mem _ h1, h2⟩
    | throw e' =>
      cases r with
      | word w =>
        simp only [Lsys.apply, Lsys.say] at hu
        split_ifs at hu with a b c
        refine ⟨w, List.mem_cons_self, fun hw => ?_⟩
        rcases hw with hw | hw | hw
        exacts [a hw, b hw, c hw]
      | op o =>
        simp only [Lsys.apply] at hu
        cases o <;> simp only [Lsys.step] at hu <;> first | cases hu | skip
        split at hu <;> cases hu
    | ub e' => rw [hu] at h; cases h

theorem rewritesN_balanced {grammar : List (Lsys.Rule × ℚ × List Lsys.Rule)} (hb : ∀ p ∈ grammar, Balanced p.2.2 ∧ p.1 ≠ .op .save ∧ p.1 ≠ .op .restore) {n : Nat}
    {a b : List Lsys.Rule} (h : RewritesN grammar n a b) (ha : Balanced a) : Balanced b := by
  induction h with
  | zero => exact ha
  | succ n a b c h1 _ ih => exact ih (LsysProof.rewrites_balanced (fun p hp => (hb p hp).1) (fun p hp => (hb p hp).2.1) (fun p hp => (hb p hp).2.2) ha h1)

/-- A system which can be drawn is drawn. -/
theorem grows {G : Type} {s : LsysText.System} (hs : Growable s) (rank : Option Op → Nat) (hr : ∀ a b, rank a = rank b → a = b) (pick : G → List ℚ → Nat × G)
    (hp : PicksOne pick) (g : G) (size : ℝ) (n : Nat) :
    ∃ t rs, Lsys.run (ruleLt rank) pick (set s.angle s.scale n) (s.toLSystem (ruleLt rank)) g (Lsys.initial size) = .ok t ∧
      RewritesN s.grammar s.generations.toNat s.start rs ∧ Draws (Real.pi * s.angle / 180) s.scale n (start size) [] 0 rs t.drawn := by
  obtain ⟨rs, h1, h2⟩ := C38_rewriting rank hr pick hp s.grammar s.generations s.start g
  have h3 := rewritesN_balanced hs.sides h2 hs.start
  obtain ⟨t, h4⟩ : ∃ t, Lsys.runRules (set s.angle s.scale n) (Lsys.initial size) rs = .ok t := by
    rcases LsysProof.run_balanced (set s.angle s.scale n) rs h3 (Lsys.initial size) with ⟨e, he⟩ | ⟨t, ht, -⟩
    · obtain ⟨w, w1, w2⟩ := throws _ _ _ _ he
      exact absurd (hs.words rs h2 w w1) w2
    · exact ⟨t, ht⟩
  obtain ⟨ds, h5, h6⟩ := draws _ _ _ _ _ _ h4
  refine ⟨t, rs, ?_, h2, ?_⟩
  · simp only [Lsys.run, LsysText.System.toLSystem, h1, Outcome.bind, h4]
  · rw [h5]
    exact h6

open PaletteProof in
theorem looks_of {G : Type} {n : Nursery G} {cast : List Char → Option ℝ} (hc : Reads cast) {outside : Nat × Nat × Nat × Nat} {xs : List Atlas.Text} {texts : List (List Char)}
    (hx : AtlasTexts xs texts) {tile : QuadKey} (hp : palette cast outside texts tile = .ok n.palette) : ∀ es : List PlantSheetSpec.Entry, (∀ e ∈ es, e.Good n) →
    ∃ ls : List (LsysDrawSpec.Entry ℝ), ls.map (·.color) = es.map (·.color) ∧ ls.map (·.index) = es.map (·.indexText) ∧ ls.map (·.type) = es.map (·.type) ∧
      ls.map (·.scale) = es.map (·.scale) ∧ (∀ l ∈ ls, LsysDrawSpec.Understood (providerOf n) l) ∧ List.Forall₂ (LooksLike xs) es (ls.map (·.look)) := by
  intro es
  induction es with
  | nil => intro _; exact ⟨[], rfl, rfl, rfl, rfl, by simp, .nil⟩
  | cons e es ih =>
    intro hg
    obtain ⟨ls, a1, a2, a3, a4, a5, a6⟩ := ih fun e he => hg e (List.mem_cons_of_mem _ he)
    obtain ⟨⟨b1, b2, b3, b4⟩, hcol, ⟨hi, hlt⟩, v, hv⟩ := hg e List.mem_cons_self
    obtain ⟨as, h2, h3⟩ := atlases_of outside hx
    obtain ⟨g, c, h4, h5, h6⟩ := hue_of hc hcol
    obtain ⟨group, r, h7, h8, h9⟩ := texture_of (outside := outside) h3 e.index hlt e.type 0
    have hpal : n.palette = ⟨cast, Atlas.provide outside as, tile⟩ := by
      rw [palette, h2] at hp
      injection hp with hp
      exact hp.symm
    have hcreate : appearanceOf n.palette e.color e.index e.type v = .ok (Palette.lookOf tile ⟨g, 0, !r.isEmpty, v⟩ (Palette.textureOf e.index r)) := by
      simp only [appearanceOf, hpal, Outcome.bind, h4, h7, h8]
    have hcolor := color_still ⟨g, 0, !r.isEmpty, v⟩ rfl h5
    refine ⟨⟨e.color, e.indexText, e.type, e.scale, Palette.lookOf tile ⟨g, 0, !r.isEmpty, v⟩ (Palette.textureOf e.index r)⟩ :: ls, by simp [a1], by simp [a2], by simp [a3], by simp [a4], ?_, .cons ⟨c, Surface.toInt c, h6, SurfaceProof.packed_toInt c, ?_, h9⟩ a6⟩
    · intro l hl
      rcases List.mem_cons.1 hl with rfl | hl
      · exact ⟨b1, b2, b3, b4, _, _, hi, hv, hcreate⟩
      · exact a5 l hl
    · exact ⟨fun q => by simp only [TerrainSheet.orElse, Palette.lookOf, hcolor], fun q => by simp only [TerrainSheet.orElse, Palette.lookOf, hcolor],
        fun q => by simp only [TerrainSheet.orElse, Palette.lookOf, hcolor]⟩

theorem tree_key : "tree-step".toList ∈ keys := by decide
theorem lamp_key : "lamp-step".toList ∈ keys := by decide
theorem width_key : "width".toList ∈ keys := by decide

end PlantSheetProof
open PlantSheetProof

/-- C115 (partial): what is drawn for a style which names an L-system. The rules of the stylesheet describe a plant: then the generator draws it at every place. Missing: styles
which cannot be read, and L-systems which cannot be drawn. -/
theorem C115_style_partial (cast : List Char → Option ℝ) (hc : Reads cast) (outside : Nat × Nat × Nat × Nat) {xs : List Atlas.Text} {texts : List (List Char)}
    (hx : AtlasTexts xs texts) (ar : Arith ℝ) (hz : ar.zero = 0) (hs : StyleEvalSpec.Sane ar) (senv : Style.Env ℝ) {rules : List Style.Rule} {fc : FilterCollection}
    (hok : Style.build senv rules = .ok fc) {P : Str → Prop} (hm : Mentions rules P) (hk : ∀ k ∈ keys, P k) {epsilon : ℝ} (hpos : 0 < epsilon) (heps : epsilon ≤ 1 / 2)
    (q : QuadKey) {G : Type} (n : Nursery G) (hp : palette cast outside texts q = .ok n.palette) (rank : Option Op → Nat) (hr : ∀ a b, rank a = rank b → a = b)
    (hlt : n.lt = ruleLt rank) (hpick : PicksOne n.pick) (e : El) (hread : Readable senv P e) (p : Plant) (ht : Told ar senv n (decls senv rules q.lod e) e.tags p)
    (hg : Growable p.system) (kind : Along.Kind) (place : Geo ℝ) (elevation : ℝ) :
    ∃ m, (styleOf ar senv n epsilon (Mercator.tileBox q) fc q.lod kind e).generate place elevation = .ok m ∧ Stands xs epsilon p place elevation m := by
  obtain ⟨h1, -, -, -⟩ := LoadTileProof.style_of hok hm hread q.lod
  have hst : ∀ k ∈ keys, (Style.forElement senv fc e q.lod.toNat).declarations.find (senv.getId k) = lastValue (decls senv rules q.lod e) k := fun k hk' => h1 k (hk k hk')
  obtain ⟨⟨name, w1, w2⟩, hsize, hne, hgood, t1, ⟨m2, c2, t2⟩, ⟨m3, c3, t3⟩, ⟨m4, c4, t4⟩⟩ := ht
  obtain ⟨ls, a1, a2, a3, a4, a5, a6⟩ := looks_of hc hx hp p.entries hgood
  have hls : ls ≠ [] := by
    rintro rfl
    simp only [List.map_nil] at a1
    exact hne (List.map_eq_nil_iff.1 a1.symm)
  have happ := C90_appearances (providerOf n) ls hls a5 m2 m3 m4 (by
    intro x hx
    simp only [List.mem_append] at hx
    rcases hx with (hx | hx) | hx
    exacts [c2 x hx, c3 x hx, c4 x hx])
  rw [a1, a2, a3, a4] at happ
  have hlen : (ls.map (·.look)).length = p.entries.length := a6.length_eq.symm
  obtain ⟨t, rs, g1, g2, g3⟩ := grows hg rank hr n.pick hpick (n.random e) p.size (ls.map (·.look)).length
  obtain ⟨m, m1, m2⟩ := (C90_generate_partial library (C86_library _ _ _) (CurvedProof.circular _ _ _) epsilon hpos heps (providerOf n) n.lt n.pick _ _ happ p.size
    (p.system.angle : ℝ) (p.system.scale : ℝ) (p.system.toLSystem n.lt) (n.random e) place elevation {} [] .empty TerrainProof.empty_paints).1 t (by rw [hlt]; exact g1)
  refine ⟨m, ?_, rs, t.drawn, ls.map (·.look), g2, by rw [← hlen]; exact g3, a6, m2⟩
  simp only [styleOf, draw, BuildingSheetProof.string_of hs w1 (hst _ (by decide)), Outcome.bind, getLsystem, w2, readTexts, BuildingSheetProof.string_of hs t1 (hst _ (by decide)),
    BuildingSheetProof.string_of hs t2 (hst _ (by decide)), BuildingSheetProof.string_of hs t3 (hst _ (by decide)), BuildingSheetProof.string_of hs t4 (hst _ (by decide)),
    BuildingSheetProof.value_of hz hs hsize (hst _ (by decide)), m1]

/-- C115 (partial): the builder of trees or lamps gets some elements. Then the callback gets the meshes of the plants which the rules of the stylesheet describe for the nodes
and ways in the elements, in order, and nothing else. Missing: styles which cannot be read, L-systems which cannot be drawn, and steps of less than a centimetre. -/
theorem C115_meshes_partial (cast : List Char → Option ℝ) (hc : Reads cast) (outside : Nat × Nat × Nat × Nat) {xs : List Atlas.Text} {texts : List (List Char)}
    (hx : AtlasTexts xs texts) (ar : Arith ℝ) (hz : ar.zero = 0) (hs : StyleEvalSpec.Sane ar) (senv : Style.Env ℝ) {rules : List Style.Rule} {fc : FilterCollection}
    (hok : Style.build senv rules = .ok fc) {P : Str → Prop} (hm : Mentions rules P) (hk : ∀ k ∈ keys, P k) (elevation : Geo ℝ → ℝ) {epsilon : ℝ} (hpos : 0 < epsilon)
    (heps : epsilon ≤ 1 / 2) (q : QuadKey) {G : Type} (n : Nursery G) (hp : palette cast outside texts q = .ok n.palette) (rank : Option Op → Nat)
    (hr : ∀ a b, rank a = rank b → a = b) (hlt : n.lt = ruleLt rank) (hpick : PicksOne n.pick) (kind : Along.Kind) (calls : List El) (plant : El → Plant)
    (hread : ∀ e ∈ AlongSpec.leavesIn calls, Readable senv P e ∧ Clear ar senv n (Mercator.tileBox q) (decls senv rules q.lod e) kind e (plant e)) :
    ∃ style : El → Along.PlantStyle ℝ, (∀ e ∈ AlongSpec.leavesIn calls, IsWay e → Spaced ar senv (Mercator.tileBox q) (decls senv rules q.lod e) e.tags kind (style e)) ∧
      ((∀ e ∈ AlongSpec.leavesIn calls, PlantSheetSpec.Sensible (worldOf elevation epsilon q) kind (style e) e) →
        ∃ dss, deliver ar senv n elevation epsilon fc q kind calls = .ok dss.flatten ∧
          List.Forall₂ (fun e out => Grown xs epsilon (worldOf elevation epsilon q) kind (plant e) (style e) e out) (AlongSpec.leavesIn calls) dss) := by
  have hstand : ∀ e ∈ AlongSpec.leavesIn calls, ∀ place h, ∃ m, (styleOf ar senv n epsilon (Mercator.tileBox q) fc q.lod kind e).generate place h = .ok m ∧
      Stands xs epsilon (plant e) place h m := fun e he place h =>
    C115_style_partial cast hc outside hx ar hz hs senv hok hm hk hpos heps q n hp rank hr hlt hpick e (hread e he).1 (plant e) (hread e he).2.1 (hread e he).2.2.1 kind place h
  refine ⟨styleOf ar senv n epsilon (Mercator.tileBox q) fc q.lod kind, fun e he hw => ?_, fun h => ?_⟩
  · obtain ⟨s, hsp⟩ := (hread e he).2.2.2 hw
    obtain ⟨h1, -, -, -⟩ := LoadTileProof.style_of hok hm (hread e he).1 q.lod
    have hst : ∀ k ∈ keys, (Style.forElement senv fc e q.lod.toNat).declarations.find (senv.getId k) = lastValue (decls senv rules q.lod e) k := fun k hk' => h1 k (hk k hk')
    clear hstand
    cases kind with
    | tree =>
      have e1 : StyleValue.value ar senv e.tags (Style.forElement senv fc e q.lod.toNat) (stepKey .tree) = .ok s.step :=
        BuildingSheetProof.value_of hz hs hsp (hst _ tree_key)
      have e3 : (styleOf ar senv n epsilon (Mercator.tileBox q) fc q.lod .tree e).step = s.step := by simp only [styleOf, e1, TerrainSheet.orElse]
      show Amount ar senv e.tags _ (styleOf ar senv n epsilon (Mercator.tileBox q) fc q.lod .tree e).step
      rw [e3]
      exact hsp
    | lamp =>
      have e1 : StyleValue.value ar senv e.tags (Style.forElement senv fc e q.lod.toNat) (stepKey .lamp) = .ok s.step :=
        BuildingSheetProof.value_of hz hs hsp.1 (hst _ lamp_key)
      have e2 := TerrainSheetProof.degrees_of hz hs hsp.2 (hst _ width_key)
      have e3 : (styleOf ar senv n epsilon (Mercator.tileBox q) fc q.lod .lamp e).step = s.step := by simp only [styleOf, e1, TerrainSheet.orElse]
      have e4 : (styleOf ar senv n epsilon (Mercator.tileBox q) fc q.lod .lamp e).width = s.width := by simp only [styleOf, e2, TerrainSheet.orElse]
      show Amount ar senv e.tags _ (styleOf ar senv n epsilon (Mercator.tileBox q) fc q.lod .lamp e).step ∧
        Degrees ar senv e.tags _ _ (styleOf ar senv n epsilon (Mercator.tileBox q) fc q.lod .lamp e).width
      rw [e3, e4]
      exact hsp
  · obtain ⟨dss, h1, h2⟩ := C80_delivered_partial (worldOf elevation epsilon q) (fun x hx => ⟨Real.sqrt_nonneg x, Real.mul_self_sqrt hx⟩) hpos.le kind
      (styleOf ar senv n epsilon (Mercator.tileBox q) fc q.lod kind) calls fun e he => by
        have hsen := h e he
        have hst := hstand e he
        cases e with
        | node id tags c =>
          obtain ⟨m, m1, -⟩ := hst c (elevation c)
          exact ⟨m, m1⟩
        | way id tags cs =>
          obtain ⟨m, m1, m2⟩ := hst (worldOf elevation epsilon q).center 0
          obtain ⟨s1, s2, s3⟩ := hsen
          refine ⟨s1, by linarith, ⟨m, m1, ?_⟩, fun p _ => ?_, fun a b p hp hd => ?_⟩
          · obtain ⟨rs, ds, looks, -, -, -, blocks, -, hb, -⟩ := m2
            exact hb
          · have hd := BarrierSheetProof.distance_range p.1 p.2
            exact ⟨hd.1, lt_of_lt_of_le hd.2 (by linarith)⟩
          · have := s3 a b p hp hd
            simp only [pow_two] at this
            exact this
        | area id tags cs => trivial
        | relation id tags ms => trivial
    refine ⟨dss, h1, ?_⟩
    clear h1 h
    generalize AlongSpec.leavesIn calls = ls at h2 hstand
    induction h2 with
    | nil => exact .nil
    | @cons e out _ _ hd _ ih =>
      refine .cons ?_ (ih fun e he => hstand e (List.mem_cons_of_mem _ he))
      have hst := hstand e List.mem_cons_self
      cases e with
      | node id tags c =>
        obtain ⟨m, m1, m2⟩ := hd
        obtain ⟨m', m3, m4⟩ := hst c ((worldOf elevation epsilon q).elevation c)
        rw [m1] at m3
        injection m3 with m3
        subst m3
        exact ⟨m, m4, m2⟩
      | way id tags cs =>
        obtain ⟨single, m, ts, rows, m1, -, m2, -, m3, -, m4⟩ := hd
        obtain ⟨m', m5, m6⟩ := hst (worldOf elevation epsilon q).center 0
        rw [m1] at m5
        injection m5 with m5
        subst m5
        have hpaint : ∃ faces, Paints single faces [] := by
          obtain ⟨rs, ds, looks, -, -, -, blocks, -, -, hb⟩ := m6
          exact ⟨_, hb⟩
        obtain ⟨faces, hf⟩ := hpaint
        exact ⟨single, m, faces, rows, m6, hf, m2, m3 faces hf, m4⟩
      | area id tags cs => exact hd
      | relation id tags ms => exact hd

namespace PlantSheetProof

mutual
theorem leaves_within (x : El) : ∀ e : El, x ∈ AlongSpec.leaves e → BuildingSheetSpec.Within x e
  | .node _ _ _, h => by simp only [AlongSpec.leaves, List.mem_singleton] at h; rw [h]; exact .self _
  | .way _ _ _, h => by simp only [AlongSpec.leaves, List.mem_singleton] at h; rw [h]; exact .self _
  | .area _ _ _, h => by simp [AlongSpec.leaves] at h
  | .relation _ _ ms, h => by
    simp only [AlongSpec.leaves] at h
    obtain ⟨m, h1, h2⟩ := leavesIn_within x ms h
    exact .member h1 h2
theorem leavesIn_within (x : El) : ∀ es : List El, x ∈ AlongSpec.leavesIn es → ∃ e ∈ es, BuildingSheetSpec.Within x e
  | [], h => by simp [AlongSpec.leavesIn] at h
  | e :: es, h => by
    simp only [AlongSpec.leavesIn, List.mem_append] at h
    rcases h with h | h
    · exact ⟨e, List.mem_cons_self, leaves_within x e h⟩
    · obtain ⟨m, h1, h2⟩ := leavesIn_within x es h
      exact ⟨m, List.mem_cons_of_mem _ h1, h2⟩
end

theorem leavesIn_mem (x : El) (es : List El) : x ∈ AlongSpec.leavesIn es ↔ ∃ e ∈ es, x ∈ AlongSpec.leaves e := by
  induction es with
  | nil => simp [AlongSpec.leavesIn]
  | cons e es ih => simp [AlongSpec.leavesIn, ih]

/-- The texts of the L-systems of a stylesheet. -/
theorem sheet_systems {A : Type} {T : MapCss.Tools A LsysText.System} (hL : T.lsystem = LsysText.parse) {css g : List Char}
    {entries : List (MapCssSpec.Entry A LsysText.System)} (h : MapCssSpec.Reads T css g entries) :
    ∀ name s, .lsystem name s ∈ entries → Described T.file name s := by
  induction h with
  | done t => intro name s h; cases h
  | rule r w t u es hr ht ih =>
    intro name s h
    rcases List.mem_cons.1 h with h | h
    · cases h
    · exact ih name s h
  | imported f w c g fs t u es hf hc hi hg ht ih1 ih2 =>
    intro name s h
    rcases List.mem_append.1 h with h | h
    exacts [ih1 name s h, ih2 name s h]
  | texture f w c a t u es hf hc ha ht ih =>
    intro name s h
    rcases List.mem_cons.1 h with h | h
    · cases h
    · exact ih name s h
  | lsystem f w c l t u es hf hc hl ht ih =>
    intro name s h
    rcases List.mem_cons.1 h with h | h
    · injection h with h1 h2
      subst h1 h2
      rw [hL] at hl
      obtain ⟨w', u', e, h3, h4⟩ := (C91_read c s).1 hl
      exact ⟨f, w', u', rfl, by rw [hc, e], h3, h4⟩
    · exact ih name s h

theorem found_in {A L : Type} (name : Str) (l : L) : ∀ entries : List (MapCssSpec.Entry A L), entries.findSome? (MapCssSpec.Entry.lsystem? name) = some l →
    .lsystem name l ∈ entries := by
  intro entries h
  obtain ⟨e, h1, h2⟩ := List.exists_of_findSome?_eq_some h
  cases e <;> simp only [MapCssSpec.Entry.lsystem?] at h2 <;> try cases h2
  split_ifs at h2 with hn
  injection h2 with h2
  rwa [hn, h2] at h1

end PlantSheetProof

open Verif.LoadTile Verif.QuadKeyBuilderSpec Verif.ImportSpec Verif.ImportRelationsSpec Verif.GeoStoreSpec GeoStoreProof
open Verif.OsmXmlSpec (Doc Head PrintsBody)
open Verif.BuildingSheetSpec (Within)

/-- C115 (partial): a stylesheet with the texts of its atlases and L-systems and an OSM file are read, the file is imported, and a tile is loaded. Then the callback gets the
meshes of the trees (or lamps) which are to be seen in the tile, as the rules of the stylesheet describe them. The L-systems are those of the texts; of several with the same
name it is the first one. Missing: what C98 and `C115_meshes_partial` leave open. -/
theorem C115_file_partial {K : Type} [LinearOrder K] (outside : Nat × Nat × Nat × Nat) (T : MapCss.Tools Atlas.TextureAtlas LsysText.System) (hT : T.atlas = Atlas.parse outside)
    (hL : T.lsystem = LsysText.parse) {css g : List Char} {entries : List (MapCssSpec.Entry Atlas.TextureAtlas LsysText.System)}
    (hcss : MapCssSpec.Reads T css g entries) (hg : MapCssSpec.Gap g) (senv : Style.Env ℝ) (hacc : (Style.build senv (rulesOf entries)).isOk = true)
    {P : Str → Prop} (hm : Mentions (rulesOf entries) P) (hskip : P "skip".toList) (hclip : P "clip".toList) (hkeys : ∀ k ∈ keys, P k)
    (ar : Arith ℝ) (hz : ar.zero = 0) (hs : StyleEvalSpec.Sane ar) (cast : List Char → Option ℝ) (hc : Reads cast) (elevation : QuadKey → Geo ℝ → ℝ) {epsilon : ℝ}
    (hpos : 0 < epsilon) (heps : epsilon ≤ 1 / 2) (rank : Option Op → Nat) (hrank : ∀ a b, rank a = rank b → a = b) (kind : Along.Kind)
    (env : Import.Env) (hsort : OsmSpec.Sorts env.sort) (tokens : El → List UInt32) {m : GeoStore.Map K (MemStore.Store El)}
    {B : Stores K (MemStore.Store El)} (hB : Abs m B) (hu : Used tokens B) {k : K} {s : MemStore.Store El} (hk : B k = some s) {target : Import.Target}
    (ht : ImportSpec.Sensible target) {h w u : List Char} {d : Doc} (hh : Head h) (hw : PrintsBody d w) (hf : ∃ v, w = '<' :: v) (hb : d.bounds ≠ none ∨ d.nodes ≠ [])
    (hd : ImportSpec.Sound d) (hr : (d.relations.map (·.id)).Nodup) :
    ∃ fc sheet texts xs, (∃ depth, ∀ n ≥ depth, openSheet T senv n css = .ok fc) ∧ (∃ depth, MapCss.parse T depth css = .ok sheet) ∧
      (∀ name, sheet.lsystems.find name = entries.findSome? (MapCssSpec.Entry.lsystem? name)) ∧
      (∀ name s, sheet.lsystems.find name = some s → Described T.file name s) ∧ (∀ t ∈ texts, ∃ f, T.file f = some t) ∧ AtlasTexts xs texts ∧
      ∃ x, ImportRelationsSpec.Describes env.eps (fun s => senv.getId s.toList) d x ∧ (ResolveSpec.Sound (withSheet env senv fc).resolver x →
        ∃ es, List.Forall₂ (fun key e => ResolveSpec.Becomes (withSheet env senv fc).resolver x (.old key) e) (ResolveSpec.All x) es ∧ ((∀ e ∈ es, Readable senv P e) →
          ∀ order : List UInt64 → List UInt64, (∀ l, (order l).Perm l) → ∃ N, ∀ n ≥ N,
            ∃ m', Import.importXml (GeoStore.memIface tokens) { withSheet env senv fc with order := order, stack := n } m k target (h ++ (w ++ u)) = (m', .done) ∧
              ∀ q, ∃ old pal, (GeoStore.step (GeoStore.memIface tokens) m (.tile q)).2 = .elements old ∧ palette cast outside texts q = .ok pal ∧
                pal.textures = Atlas.provide outside (entries.filterMap MapCssSpec.Entry.texture?) ∧
                ∀ l, l = old ++ es.filterMap (seen env.eng (wanted senv (rulesOf entries)) target q) →
                  (∀ e ∈ l.flatMap QuadKeyBuilderSpec.parts, ∀ x, Within x e → Readable senv P x) →
                  ∀ (G : Type) (n : Nursery G), n.palette = pal → n.systems = sheet.lsystems → n.lt = ruleLt rank → PicksOne n.pick → ∀ plant : El → Plant,
                  (∀ e ∈ AlongSpec.leavesIn (buildWith senv (rulesOf entries) q.lod (builderName kind) l),
                    Clear ar senv n (Mercator.tileBox q) (decls senv (rulesOf entries) q.lod e) kind e (plant e)) →
                  DistinctIds senv (rulesOf entries) q.lod l →
                  ∀ sorted order : List (List Char) → List (List Char), (∀ l, (sorted l).Perm l) → (∀ l, (order l).Perm l) →
                    ∃ (t : _) (style : El → Along.PlantStyle ℝ) (shown : List El), loadTile (GeoStore.memIface tokens) senv fc sorted order m' q = .ok t ∧
                      shown.Perm (buildWith senv (rulesOf entries) q.lod (builderName kind) l) ∧
                      (∀ e ∈ AlongSpec.leavesIn shown, IsWay e → Spaced ar senv (Mercator.tileBox q) (decls senv (rulesOf entries) q.lod e) e.tags kind (style e)) ∧
                      ((∀ e ∈ AlongSpec.leavesIn shown, PlantSheetSpec.Sensible (worldOf (elevation q) epsilon q) kind (style e) e) →
                        ∃ dss, deliver ar senv n (elevation q) epsilon fc q kind (visited (builderName kind) t) = .ok dss.flatten ∧
                          List.Forall₂ (fun e out => Grown xs epsilon (worldOf (elevation q) epsilon q) kind (plant e) (style e) e out) (AlongSpec.leavesIn shown) dss))) := by
  obtain ⟨texts, xs, t1, t2, t3⟩ := PaletteProof.sheet_atlases hT hcss
  obtain ⟨fc, ⟨depth, hopen⟩, x, hx, h1⟩ := C98_load_partial T hcss hg senv hacc hm hskip hclip env hsort tokens hB hu hk ht hh hw hf hb hd hr (u := u)
  obtain ⟨depth', hdepth⟩ := C60_parse_partial T css g entries hcss hg
  obtain ⟨sheet, a1, a2⟩ := hdepth (max depth depth') (le_max_right _ _)
  have hok : Style.build senv (rulesOf entries) = .ok fc := by
    have := hopen (max depth depth') (le_max_left _ _)
    rw [openSheet, a1] at this
    simp only [Outcome.bind] at this
    rwa [a2.1, LoadTileProof.toRule_rulesOf] at this
  refine ⟨fc, sheet, texts, xs, ⟨depth, hopen⟩, ⟨_, a1⟩, a2.2.2, fun name s hn => ?_, t1, t2, x, hx, fun hsound => ?_⟩
  · rw [a2.2.2] at hn
    exact sheet_systems hL hcss name s (found_in name s entries hn)
  obtain ⟨es, h2, h3⟩ := h1 hsound
  refine ⟨es, h2, fun hread order horder => ?_⟩
  obtain ⟨N, h4⟩ := h3 hread order horder
  refine ⟨N, fun n hn => ?_⟩
  obtain ⟨m', h5, h6⟩ := h4 n hn
  refine ⟨m', h5, fun q => ?_⟩
  obtain ⟨old, h7, h8⟩ := h6 q
  have hpal : palette cast outside texts q = .ok ⟨cast, Atlas.provide outside (entries.filterMap MapCssSpec.Entry.texture?), q⟩ := by
    rw [palette, t3]
    rfl
  refine ⟨old, _, h7, hpal, rfl, fun l hl hread' G n hn1 hn2 hn3 hn4 plant hclear hdis sorted order' hsorted horder' => ?_⟩
  obtain ⟨t, h9, h10⟩ := h8 l hl (fun e he => hread' e he e (.self e)) hdis sorted order' hsorted horder'
  have hp := (h10 (builderName kind)).2
  have hin : ∀ e ∈ visited (builderName kind) t, e ∈ l.flatMap QuadKeyBuilderSpec.parts := fun e he => List.mem_of_mem_filter (hp.mem_iff.1 he)
  obtain ⟨style, h11, h12⟩ := C115_meshes_partial cast hc outside t2 ar hz hs senv hok hm hkeys (elevation q) hpos heps q n (by rw [hn1]; exact hpal) rank hrank hn3 hn4 kind
    (visited (builderName kind) t) plant fun e he => by
      refine ⟨?_, hclear e ?_⟩
      · obtain ⟨e', he', hw⟩ := leavesIn_within e _ he
        exact hread' e' (hin e' he') e hw
      · rw [leavesIn_mem] at he ⊢
        obtain ⟨e', he', hw⟩ := he
        exact ⟨e', hp.mem_iff.1 he', hw⟩
  exact ⟨t, style, visited (builderName kind) t, h9, hp, h11, h12⟩

/-- C115 is violated for colors with commas: a gradient of several colors cannot be used for a tree or a lamp, because the texts are divided at commas
(LSystemGenerator.cpp:25-28). If there is a comma in the colors but only one number of a texture, nothing can be drawn. -/
theorem C115_violated_gradient (ar : Arith ℝ) (hs : StyleEvalSpec.Sane ar) (senv : Style.Env ℝ) {rules : List Style.Rule} {fc : FilterCollection}
    (hok : Style.build senv rules = .ok fc) {P : Str → Prop} (hm : Mentions rules P) (hk : ∀ k ∈ keys, P k) (epsilon : ℝ) (q : QuadKey) {G : Type} (n : Nursery G) (e : El)
    (hread : Readable senv P e) {colors indices : Str} (h1 : Word ar senv e.tags (lastValue (decls senv rules q.lod e) "lsys-colors".toList) colors)
    (h2 : Word ar senv e.tags (lastValue (decls senv rules q.lod e) "lsys-texture-indices".toList) indices) (hc : ',' ∈ colors) (hi : ',' ∉ indices)
    (kind : Along.Kind) (place : Geo ℝ) (elevation : ℝ) (m : MeshBuilder.Mesh ℝ) :
    (styleOf ar senv n epsilon (Mercator.tileBox q) fc q.lod kind e).generate place elevation ≠ .ok m := by
  obtain ⟨h3, -, -, -⟩ := LoadTileProof.style_of hok hm hread q.lod
  have hst : ∀ k ∈ keys, (Style.forElement senv fc e q.lod.toNat).declarations.find (senv.getId k) = lastValue (decls senv rules q.lod e) k := fun k hk' => h3 k (hk k hk')
  intro h
  simp only [styleOf, draw] at h
  obtain ⟨key, -, h⟩ := TerrainSheetProof.bind_ok h
  obtain ⟨s, -, h⟩ := TerrainSheetProof.bind_ok h
  obtain ⟨texts, ht, h⟩ := TerrainSheetProof.bind_ok h
  obtain ⟨size, -, h⟩ := TerrainSheetProof.bind_ok h
  simp only [LsysDraw.generate] at h
  obtain ⟨looks, hl, -⟩ := TerrainSheetProof.bind_ok h
  simp only [readTexts, BuildingSheetProof.string_of hs h1 (hst _ (by decide)), BuildingSheetProof.string_of hs h2 (hst _ (by decide)), Outcome.bind] at ht
  obtain ⟨types, -, ht⟩ := TerrainSheetProof.bind_ok ht
  obtain ⟨scales, -, ht⟩ := TerrainSheetProof.bind_ok ht
  injection ht with ht
  obtain ⟨-, -, h4, -, -⟩ := C90_lists (providerOf n) texts looks hl
  rw [← ht] at h4
  simp only [LsysDrawSpec.parts, List.count_eq_zero_of_not_mem hi] at h4
  have := List.count_pos_iff.2 hc
  omega

namespace PlantSheetProof.Sample
open Verif.PaletteSpec PaletteProof.Sample

/-- The strings which have a number. -/
def table : List Str := [['a'], ['b'], "builder".toList] ++ keys

/-- A string table which knows the numbers of the stylesheet. -/
noncomputable def strings : Style.Env ℝ := ⟨fun s => UInt32.ofNat (table.idxOf s), fun i => table.getD i.toNat [],
  fun s => if s = ['1', '2'] then 12 else if s = ['2'] then 2 else 0, fun _ _ => false, fun _ => none⟩

/-- Arithmetic without numerals in expressions. -/
noncomputable def arith : Arith ℝ := ⟨0, (· + ·), (· - ·), (· * ·), (· / ·), (- ·), fun _ => [], fun _ => none⟩

/-- `way|z1-16[a=b] { ... }` -/
def rule (ds : List Declaration) : Style.Rule := ⟨[⟨["way".toList], ⟨1, 16⟩, [⟨['a'], ['='], ['b']⟩]⟩], ds⟩

/-- `builder: lamp; lsys: lamp; lsys-size: 2m; lsys-colors: black,yellow; lsys-texture-indices: 2,2; lsys-texture-types: a,a; lsys-texture-scales: 2,2; lamp-step: 12m; width: 2m;` -/
def lamps : List Declaration := [⟨"builder".toList, "lamp".toList⟩, ⟨"lsys".toList, "lamp".toList⟩, ⟨"lsys-size".toList, ['2', 'm']⟩, ⟨"lsys-colors".toList, "black,yellow".toList⟩,
  ⟨"lsys-texture-indices".toList, ['2', ',', '2']⟩, ⟨"lsys-texture-types".toList, ['a', ',', 'a']⟩, ⟨"lsys-texture-scales".toList, ['2', ',', '2']⟩,
  ⟨"lamp-step".toList, ['1', '2', 'm']⟩, ⟨"width".toList, ['2', 'm']⟩]

/-- The same with one color, which is a gradient. -/
def wrong : List Declaration := [⟨"builder".toList, "lamp".toList⟩, ⟨"lsys".toList, "lamp".toList⟩, ⟨"lsys-size".toList, ['2', 'm']⟩,
  ⟨"lsys-colors".toList, "gradient(red, blue)".toList⟩, ⟨"lsys-texture-indices".toList, ['2']⟩, ⟨"lsys-texture-types".toList, ['a']⟩, ⟨"lsys-texture-scales".toList, ['2']⟩]

/-- A street. -/
def street : El := .way 7 [⟨0, 1⟩] [⟨0, 0⟩, ⟨0, 4⟩, ⟨3, 4⟩]

theorem back : ∀ s ∈ table, strings.getString (strings.getId s) = s := by
  show ∀ s ∈ table, table.getD (UInt32.ofNat (table.idxOf s)).toNat [] = s
  decide

theorem readable : Readable strings (· ∈ table) street := by
  refine ⟨⟨back, ?_⟩, by simp [street, Element.tags], ?_⟩
  · intro t ht _ _
    simp only [street, Element.tags, List.mem_singleton] at ht
    subst ht
    show UInt32.ofNat (table.idxOf (table.getD (0 : UInt32).toNat [])) = 0 ∧ UInt32.ofNat (table.idxOf (table.getD (1 : UInt32).toNat [])) = 1
    decide
  · intro k _ a ha b hb _ _
    simp only [street, Element.tags, List.mem_singleton] at ha hb
    rw [ha, hb]

theorem street_decls (ds : List Declaration) : decls strings [rule ds] 1 street = ds := by
  have h : idRules strings (1 : ℤ).toNat street.id [rule ds] = [] := by
    simp [idRules, rule]
  have ha : Applies strings (1 : ℤ).toNat street.tags ⟨["way".toList], ⟨1, 16⟩, [⟨['a'], ['='], ['b']⟩]⟩ := by
    refine ⟨by unfold InZoom; decide, fun c hc => ?_⟩
    rw [List.mem_singleton.1 hc]
    refine ⟨⟨0, 1⟩, by simp [street, Element.tags], ?_, .inr (.inl ⟨rfl, ?_⟩)⟩
    · show table.getD (0 : UInt32).toNat [] = ['a']
      decide
    · show table.getD (1 : UInt32).toNat [] = ['b']
      decide
  have hk : kindName (Style.kindOfElement street) = "way".toList := rfl
  unfold decls
  rw [h]
  simp only [declared, applied, List.flatMap_cons, List.flatMap_nil, List.append_nil]
  conv_lhs => unfold rule
  simp only [List.flatMap_cons, List.flatMap_nil, List.append_nil]
  rw [if_pos ⟨hk.symm, ha⟩]
  exact List.flatten_singleton

/-- The L-system of /repo/unity/demo/Assets/StreamingAssets/mapcss/default/lamp.lsys. -/
def lamp : LsysText.System := ⟨1, 0, 3, [.word "root".toList], [(.word "root".toList, 1,
  [.op .decrement, .op .decrement, .op .scaleUp, .op .scaleUp, .word "cylinder".toList, .op .scaleDown, .op .scaleDown, .op .scaleDown, .op .increment, .word "sphere".toList])]⟩

theorem lamp_text : Described (fun _ => some "generations: 1\nangle: 0\nscale: 3\naxiom: root\nroot -> ! ! > > cylinder < < < $ sphere".toList) "lamp".toList lamp := by
  have h : LsysText.parse "generations: 1\nangle: 0\nscale: 3\naxiom: root\nroot -> ! ! > > cylinder < < < $ sphere".toList = .ok lamp := by decide +kernel
  obtain ⟨w, u, e, h1, h2⟩ := (C91_read _ _).1 h
  exact ⟨"lamp.lsys".toList, w, u, by decide +kernel, by rw [e], h1, h2⟩

theorem growable : Growable lamp := by
  refine ⟨by norm_num [lamp], .other _ _ (by decide) (by decide) .nil, fun p hp => ?_, fun rs hrs w hw => ?_⟩
  · simp only [lamp, List.mem_singleton] at hp
    subst hp
    refine ⟨?_, by decide, by decide⟩
    repeat first | exact .nil | refine .other _ _ (by decide) (by decide) ?_
  · have h1 : lamp.generations.toNat = 1 := rfl
    rw [h1] at hrs
    cases hrs with
    | succ n a b c h2 h3 =>
      cases h3
      have h4 : lamp.start = [.word "root".toList] := rfl
      rw [h4] at h2
      cases h2 with
      | keep r rs rs' h5 h6 => exact absurd rfl (h5 (.word "root".toList, 1, _) List.mem_cons_self)
      | replace r w' succ rs rs' h5 h6 =>
        cases h6
        simp only [lamp, List.mem_singleton, Prod.mk.injEq] at h5
        obtain ⟨-, -, rfl⟩ := h5
        simp only [List.append_nil, List.mem_cons, reduceCtorEq, List.not_mem_nil, or_false, false_or, Lsys.Rule.word.injEq] at hw
        rcases hw with hw | hw
        · exact .inr (.inr hw)
        · exact .inr (.inl hw)

/-- The order of the classes of rules. -/
def rank : Option Op → Nat
  | none => 0
  | some o => o.ctorIdx + 1

theorem rank_inj : ∀ a b, rank a = rank b → a = b := by
  intro a b h
  cases a <;> cases b <;> simp only [rank] at h <;> first | rfl | omega | skip
  rename_i a b
  cases a <;> cases b <;> first | rfl | exact absurd h (by decide)

/-- A style provider with this L-system. -/
noncomputable def nursery (p : Palette.Palette) : Nursery Unit :=
  ⟨p, [("lamp".toList, lamp)], fun s => if s = ['2'] then .ok 2 else .throw "bad_lexical_cast", fun s => if s = ['2'] then .ok 2 else .throw "bad_lexical_cast", ruleLt rank,
    fun g _ => (0, g), fun _ => ()⟩

theorem picks (p : Palette.Palette) : PicksOne (nursery p).pick := fun _ _ h => List.length_pos_iff.2 h

/-- A black post with a yellow ball. -/
def post : Plant := ⟨lamp, 2, [⟨"black".toList, 2, ['2'], ['a'], ['2']⟩, ⟨"yellow".toList, 2, ['2'], ['a'], ['2']⟩]⟩

open BuildingSheetProof.Sample (plain)

theorem good (p : Palette.Palette) : ∀ e ∈ post.entries, e.Good (nursery p) := by
  intro e he
  simp only [post, List.mem_cons, List.not_mem_nil, or_false] at he
  rcases he with rfl | rfl
  · exact ⟨by decide, .inl ⟨⟨"black".toList, ⟨0, 0, 0, 255⟩, none⟩, ⟨.name _ _ (by decide +kernel), by simp⟩, by decide, rfl⟩, ⟨rfl, by norm_num⟩, 2, rfl⟩
  · exact ⟨by decide, .inl ⟨⟨"yellow".toList, ⟨255, 255, 0, 255⟩, none⟩, ⟨.name _ _ (by decide +kernel), by simp⟩, by decide, rfl⟩, ⟨rfl, by norm_num⟩, 2, rfl⟩

theorem two : Amount arith strings street.tags (some ['2', 'm']) 2 := by
  have := Amount.metres (ar := arith) (senv := strings) (tags := street.tags) ['2']
  simpa [strings] using this

theorem told (p : Palette.Palette) : Told arith strings (nursery p) lamps street.tags post := by
  refine ⟨⟨"lamp".toList, .plain _ (plain 'l' "amp".toList (by decide) (by decide)), rfl⟩, ?_, by simp [post], good p,
    .plain _ (plain 'b' "lack,yellow".toList (by decide) (by decide)), ⟨[], by simp, .plain _ (plain '2' [',', '2'] (by decide) (by decide))⟩,
    ⟨[], by simp, .plain _ (plain 'a' [',', 'a'] (by decide) (by decide))⟩, ⟨[], by simp, .plain _ (plain '2' [',', '2'] (by decide) (by decide))⟩⟩
  exact two

theorem twelve : Amount arith strings street.tags (some ['1', '2', 'm']) 12 := by
  have := Amount.metres (ar := arith) (senv := strings) (tags := street.tags) ['1', '2']
  simpa [strings] using this

theorem clear (p : Palette.Palette) (box : Bbox ℝ) : Clear arith strings (nursery p) box lamps .lamp street post :=
  ⟨told p, growable, fun _ => ⟨⟨12, _, fun _ _ => .ub ""⟩, twelve, .metres ['2']⟩⟩

theorem sensible (q : QuadKey) (style : Along.PlantStyle ℝ) (h : Spaced arith strings (Mercator.tileBox q) lamps street.tags .lamp style) :
    PlantSheetSpec.Sensible (worldOf (fun _ => 100) (1 / 2 ^ 52) q) .lamp style street := by
  have e1 : style.step = 12 := (C111_unique_partial arith rfl (fun _ => ⟨rfl, rfl⟩) strings street.tags _).1 _ _ h.1 twelve
  refine ⟨by simp, by rw [e1]; norm_num, fun _ _ p hp _ => ?_⟩
  simp only [AlongSpec.parts, List.tail_cons, List.zip_cons_cons, List.zip_nil_right, List.mem_cons, List.not_mem_nil, or_false] at hp
  show (1 : ℝ) / 2 ^ 52 < _
  rcases hp with rfl | rfl
  · rw [Real.lt_sqrt (by norm_num)]
    norm_num
  · rw [Real.lt_sqrt (by norm_num)]
    norm_num

end PlantSheetProof.Sample
open PlantSheetProof.Sample PaletteProof.Sample

/-- Lamps on both sides of a street, black posts with yellow balls: one mesh with copies of a lamp is made for it. -/
example (outside : Nat × Nat × Nat × Nat) (q : QuadKey) (hq : q.lod = 1) : ∃ pal fc style out,
    Style.build PlantSheetProof.Sample.strings [PlantSheetProof.Sample.rule lamps] = .ok fc ∧ palette PaletteProof.Sample.cast outside [atlas] q = .ok pal ∧
    deliver PlantSheetProof.Sample.arith PlantSheetProof.Sample.strings (nursery pal) (fun _ => 100) (1 / 2 ^ 52) fc q .lamp [street] = .ok out ∧
    Grown [⟨2, 8, 8, [⟨['a'], 0, 0, 4, 4⟩]⟩] (1 / 2 ^ 52) (worldOf (fun _ => 100) (1 / 2 ^ 52) q) .lamp post style street out := by
  open PlantSheetProof.Sample in
  obtain ⟨fc, hok⟩ : ∃ fc, Style.build strings [rule lamps] = .ok fc := ⟨_, rfl⟩
  have hs : StyleEvalSpec.Sane arith := fun _ => ⟨rfl, rfl⟩
  have hdecls : decls strings [rule lamps] q.lod street = lamps := by
    rw [hq]
    exact street_decls lamps
  obtain ⟨as, h1, -⟩ := PaletteProof.atlases_of outside atlas_text
  obtain ⟨pal, hp⟩ : ∃ pal, palette PaletteProof.Sample.cast outside [atlas] q = .ok pal := ⟨_, by rw [palette, h1]; rfl⟩
  have hl : AlongSpec.leavesIn [street] = [street] := rfl
  obtain ⟨style, h2, h3⟩ := C115_meshes_partial PaletteProof.Sample.cast PaletteProof.Sample.cast_reads outside atlas_text arith rfl hs strings hok (P := (· ∈ table))
    (by unfold Mentions; decide) (by decide) (fun _ => 100) (epsilon := 1 / 2 ^ 52) (by norm_num) (by norm_num) q (nursery pal) hp PlantSheetProof.Sample.rank rank_inj rfl (picks pal) .lamp
    [street] (fun _ => post) (by
      intro e he
      rw [hl] at he
      rw [List.mem_singleton.1 he, hdecls]
      exact ⟨readable, clear pal _⟩)
  rw [hl] at h2 h3
  have h4 := h2 street List.mem_cons_self ⟨_, _, _, rfl⟩
  rw [hdecls] at h4
  obtain ⟨dss, h5, h6⟩ := h3 (by
    intro e he
    rw [List.mem_singleton.1 he]
    exact sensible q _ h4)
  cases h6 with
  | cons a b =>
    cases b
    refine ⟨pal, fc, style street, _, hok, hp, h5, ?_⟩
    simpa using a

/-- A lamp of the gradient from red to blue, which is legible, is not drawn. -/
example (q : QuadKey) (hq : q.lod = 1) (pal : Palette.Palette) : PaletteSpec.Legible 100 "gradient(red, blue)".toList ∧ ∃ fc,
    Style.build PlantSheetProof.Sample.strings [PlantSheetProof.Sample.rule wrong] = .ok fc ∧ ∀ m,
      (styleOf PlantSheetProof.Sample.arith PlantSheetProof.Sample.strings (nursery pal) (1 / 2 ^ 52) (Mercator.tileBox q) fc q.lod .lamp street).generate ⟨0, 0⟩ 0 ≠ .ok m := by
  open PlantSheetProof.Sample in
  refine ⟨purple, _, rfl, fun m => ?_⟩
  have hs : StyleEvalSpec.Sane arith := fun _ => ⟨rfl, rfl⟩
  have hdecls : decls strings [rule wrong] q.lod street = wrong := by
    rw [hq]
    exact street_decls wrong
  refine C115_violated_gradient arith hs strings (rules := [rule wrong]) rfl (P := (· ∈ table)) (by unfold Mentions; decide) (by decide) _ q (nursery pal) street readable
    (colors := "gradient(red, blue)".toList) (indices := ['2']) ?_ ?_ (by decide) (by decide) _ _ _ m
  · rw [hdecls]
    exact .plain _ purple_plain
  · rw [hdecls]
    exact .plain _ (BuildingSheetProof.Sample.plain '2' [] (by decide) (by decide))

end Verif.Props
