import Verif.Props.BuildingSpec
import Verif.Props.Shown
import Verif.Props.Painted
import Verif.Props.Polygon

/-! # C74 to C77: buildings -/
namespace Verif.Props
open Verif.MeshBuilder Verif.MeshSpec Verif.ShownSpec Verif.PolygonSpec Verif.Building Verif.BuildingSpec
open Verif.Polygon (Vec Poly addAll)

namespace BuildingProof
variable {K : Type} [Field K] [LinearOrder K]

theorem bind_assoc {α β γ : Type} (x : Outcome α) (f : α → Outcome β) (g : β → Outcome γ) : (x.bind f).bind g = x.bind fun a => (f a).bind g := by
  cases x <;> rfl

theorem bind_okl {α β : Type} (a : α) (f : α → Outcome β) : (Outcome.ok a).bind f = f a := rfl

theorem bind_ok {α : Type} (x : Outcome α) : (x.bind fun a => .ok a) = x := by cases x <;> rfl

/-- Nothing was collected so far. -/
def Fresh (env : Env K) (q : Option (Poly K)) : Prop := q = none ∨ q = some (newPolygon env)

theorem toPoints_eq (cs : List (Geo K)) : toPoints cs = cs.map ground := rfl

theorem addAll_append (a b c : K) (p : Poly K) (l r : List (List (Vec K) × Bool)) :
    addAll a b c p (l ++ r) = (addAll a b c p l).bind fun p => addAll a b c p r := by
  induction l generalizing p with
  | nil => rfl
  | cons x l ih => simp only [List.cons_append, addAll, bind_assoc, ih]

mutual
theorem collect_eq (env : Env K) (s : State K) (p : Poly K) (hp : s.polygon = some p) : (e : Element (Geo K)) → OnlyAreas e →
    collect env s e = (addAll env.epsilon env.huge env.tiny p (rings e)).bind fun p => .ok { s with polygon := some p }
  | .node .., h => by simp [OnlyAreas] at h
  | .way .., h => by simp [OnlyAreas] at h
  | .area _ _ cs, _ => by
    simp only [collect, addRing, hp, rings, addAll, toPoints_eq, Osm.isClockwise, bind_ok]
  | .relation _ _ ms, h => by
    simp only [collect, rings]
    exact collectAll_eq env s p hp ms (by simpa [OnlyAreas] using h)

theorem collectAll_eq (env : Env K) (s : State K) (p : Poly K) (hp : s.polygon = some p) : (ms : List (Element (Geo K))) → OnlyAreasIn ms →
    collectAll env s ms = (addAll env.epsilon env.huge env.tiny p (ringsOf ms)).bind fun p => .ok { s with polygon := some p }
  | [], _ => by
    simp only [collectAll, ringsOf, addAll, Outcome.bind]
    rw [← hp]
  | m :: ms, h => by
    simp only [OnlyAreasIn] at h
    simp only [collectAll, ringsOf, addAll_append, bind_assoc, collect_eq env s p hp m h.1]
    cases addAll env.epsilon env.huge env.tiny p (rings m) with
    | ok q => exact collectAll_eq env { s with polygon := some q } q rfl ms h.2
    | throw e => rfl
    | ub w => rfl
end

theorem drawParts_append (env : Env K) (id : UInt64) (m : Mesh K) (l r : List (Part K)) :
    drawParts env id m (l ++ r) = (drawParts env id m l).bind fun m => drawParts env id m r := by
  induction l generalizing m with
  | nil => rfl
  | cons x l ih => simp only [List.cons_append, drawParts, bind_assoc, ih]

/-- While a mesh exists, its context is kept. -/
theorem ensure_some (env : Env K) (s : State K) (id : UInt64) (hf : Fresh env s.polygon) (m : Mesh K) (hm : s.mesh = some m) :
    ensureContext env s id = ({ s with polygon := some (newPolygon env) }, false) := by
  unfold ensureContext
  rcases hf with h | h
  · simp only [h, hm]
  · simp only [h, hm]; rw [← h, ← hm]

theorem ensure_none (env : Env K) (s : State K) (id : UInt64) (hf : Fresh env s.polygon) (hm : s.mesh = none) :
    ensureContext env s id = ({ s with polygon := some (newPolygon env), mesh := some {}, id := id }, true) := by
  unfold ensureContext
  rcases hf with h | h <;> simp only [h, hm]

/-- The state after drawing. -/
theorem build_eq (env : Env K) (s : State K) (style : Style K) (p : Poly K) (m : Mesh K) (hp : s.polygon = some p) (hm : s.mesh = some m) :
    build env s style = (draw env style s.id p m).bind fun m => .ok { s with polygon := none, mesh := some m } := by
  unfold build; rw [hp, hm]

/-- What a visit does to a state with a fresh polygon and a mesh. -/
def Visited (env : Env K) (s : State K) (m : Mesh K) (ps : List (Part K)) (r : Outcome (State K)) : Prop :=
  ∃ q, Fresh env q ∧ r = (drawParts env s.id m ps).bind fun m => .ok { s with polygon := q, mesh := some m }

theorem area_eq (env : Env K) (s : State K) (m : Mesh K) (hm : s.mesh = some m) (hp : s.polygon = some (newPolygon env)) (cs : List (Geo K)) (style : Style K) :
    ((addRing env s cs false).bind fun s => build env s style) =
      (drawParts env s.id m [⟨style, [(cs.map ground, false)]⟩]).bind fun m => .ok { s with polygon := none, mesh := some m } := by
  simp only [addRing, hp, drawParts, drawPart, addAll, bind_ok, bind_assoc, toPoints_eq]
  rw [show ({ rectangle := .empty env.huge env.tiny } : Poly K) = newPolygon env from rfl]
  cases Polygon.addContour env.epsilon env.huge env.tiny (newPolygon env) (cs.map ground) false with
  | ok p => simp only [Outcome.bind]; exact build_eq env { s with polygon := some p } style p m rfl hm
  | throw e => rfl
  | ub w => rfl

theorem multi_eq (env : Env K) (s : State K) (m : Mesh K) (hm : s.mesh = some m) (hp : s.polygon = some (newPolygon env)) (ms : List (Element (Geo K)))
    (ho : OnlyAreasIn ms) (style : Style K) :
    ((collectAll env s ms).bind fun s => build env s style) =
      (drawParts env s.id m [⟨style, ringsOf ms⟩]).bind fun m => .ok { s with polygon := none, mesh := some m } := by
  rw [collectAll_eq env s _ hp ms ho]
  simp only [drawParts, drawPart, bind_ok, bind_assoc]
  rw [show ({ rectangle := .empty env.huge env.tiny } : Poly K) = newPolygon env from rfl]
  cases addAll env.epsilon env.huge env.tiny (newPolygon env) (ringsOf ms) with
  | ok p => simp only [Outcome.bind]; exact build_eq env { s with polygon := some p } style p m rfl hm
  | throw e => rfl
  | ub w => rfl

theorem Visited.cons {env : Env K} {s : State K} {m : Mesh K} {a b : List (Part K)} {r : Outcome (State K)} {f : State K → Outcome (State K)}
    (h : Visited env s m a r) (hn : ∀ m' q, Fresh env q → Visited env { s with polygon := q, mesh := some m' } m' b (f { s with polygon := q, mesh := some m' })) :
    Visited env s m (a ++ b) (r.bind f) := by
  obtain ⟨q, hq, rfl⟩ := h
  rw [Visited, drawParts_append]
  cases hd : drawParts env s.id m a with
  | ok m' =>
    obtain ⟨q', hq', h'⟩ := hn m' q hq
    exact ⟨q', hq', h'⟩
  | throw e => exact ⟨q, hq, rfl⟩
  | ub w => exact ⟨q, hq, rfl⟩

mutual
theorem visit_eq (env : Env K) (s : State K) (m : Mesh K) (hm : s.mesh = some m) (hf : Fresh env s.polygon) : (e : Element (Geo K)) → Fine env.style e →
    Visited env s m (parts env.style e) (visit env s e)
  | .node .., _ => ⟨s.polygon, hf, by simp only [visit, parts, drawParts, Outcome.bind]; rw [← hm]⟩
  | .way .., _ => ⟨s.polygon, hf, by simp only [visit, parts, drawParts, Outcome.bind]; rw [← hm]⟩
  | .area id tags cs, _ => by
    simp only [visit, parts]
    split
    · rw [ensure_some env s id hf m hm]
      refine ⟨none, .inl rfl, ?_⟩
      simp only [← bind_assoc]
      rw [area_eq env { s with polygon := some (newPolygon env) } m hm rfl]
      simp only [completeIfNecessary, Bool.false_eq_true, if_false, bind_ok]
    · exact ⟨s.polygon, hf, by simp only [drawParts, Outcome.bind]; rw [← hm]⟩
  | .relation id tags [], _ => ⟨s.polygon, hf, by simp only [visit, parts, if_true, drawParts, Outcome.bind]; rw [← hm]⟩
  | .relation id tags (e :: es), h => by
    simp only [Fine] at h
    simp only [visit, parts, ensure_some env s id hf m hm, reduceCtorEq, if_false, completeIfNecessary, Bool.false_eq_true, bind_ok]
    by_cases hM : IsMultipolygon env.style (.relation id tags (e :: es))
    · rw [if_pos hM, if_pos (by simpa [IsMultipolygon] using hM)]
      exact ⟨none, .inl rfl, multi_eq env { s with polygon := some (newPolygon env) } m hm rfl _ (h.1 hM) _⟩
    · rw [if_neg hM, if_neg (by simpa [IsMultipolygon] using hM)]
      have := visitAll_eq env { s with polygon := some (newPolygon env) } m hm (.inr rfl) (e :: es) h.2
      obtain ⟨q, hq, hv⟩ := this
      exact ⟨q, hq, by simp only [visitAll] at hv; exact hv⟩

theorem visitAll_eq (env : Env K) (s : State K) (m : Mesh K) (hm : s.mesh = some m) (hf : Fresh env s.polygon) : (ms : List (Element (Geo K))) →
    FineAll env.style ms → Visited env s m (partsOf env.style ms) (visitAll env s ms)
  | [], _ => ⟨s.polygon, hf, by simp only [visitAll, partsOf, drawParts, Outcome.bind]; rw [← hm]⟩
  | e :: es, h => by
    simp only [FineAll] at h
    simp only [visitAll, partsOf]
    exact (visit_eq env s m hm hf e h.1).cons fun m' q hq => visitAll_eq env { s with polygon := q, mesh := some m' } m' rfl hq es h.2
end

theorem top_eq (env : Env K) (s : State K) (hm : s.mesh = none) (hf : Fresh env s.polygon) (e : Element (Geo K)) (h : Fine env.style e) :
    ∃ q, Fresh env q ∧ top env s e = if Delivered env.style e then (drawParts env e.id {} (parts env.style e)).bind fun m =>
      .ok ⟨q, none, e.id, s.delivered ++ [(e.id, m)]⟩ else .ok { s with polygon := q } := by
  cases e with
  | node => exact ⟨s.polygon, hf, by simp [top, Delivered]⟩
  | way => exact ⟨s.polygon, hf, by simp [top, Delivered]⟩
  | area id tags cs =>
    simp only [top, Element.tags, Delivered, Element.id]
    by_cases hi : hasIgnore tags = true
    · exact ⟨s.polygon, hf, by simp [hi]⟩
    · simp only [hi, if_false, Bool.not_false, Bool.true_and, visit]
      by_cases hb : (env.style (.area id tags cs)).building = true
      · refine ⟨none, .inl rfl, ?_⟩
        simp only [hb, if_true, ensure_none env s id hf hm, parts]
        simp only [← bind_assoc]
        rw [area_eq env { s with polygon := some (newPolygon env), mesh := some {}, id := id } {} rfl rfl]
        simp only [bind_assoc, completeIfNecessary, if_true, Bool.false_eq_true, if_false]
        cases drawParts env id {} [⟨env.style (.area id tags cs), [(cs.map ground, false)]⟩] <;> simp [Outcome.bind]
      · exact ⟨s.polygon, hf, by simp [hb]⟩
  | relation id tags ms =>
    simp only [top, Element.tags, Delivered, Element.id]
    by_cases hi : hasIgnore tags = true
    · exact ⟨s.polygon, hf, by simp [hi]⟩
    · simp only [hi, if_false, Bool.not_false, Bool.true_and]
      cases ms with
      | nil => exact ⟨s.polygon, hf, by simp [visit]⟩
      | cons e es =>
        have hv := visit_eq env { s with polygon := some (newPolygon env), mesh := some {}, id := id } {} rfl (.inr rfl) (.relation id tags (e :: es)) h
        obtain ⟨q, hq, hv⟩ := hv
        refine ⟨q, hq, ?_⟩
        simp only [List.isEmpty_cons, Bool.not_false, if_true]
        have key : visit env s (.relation id tags (e :: es)) =
            (visit env { s with polygon := some (newPolygon env), mesh := some {}, id := id } (.relation id tags (e :: es))).bind fun s =>
              completeIfNecessary s true := by
          simp only [visit]
          rw [ensure_none env s id hf hm, ensure_some env _ id (.inr rfl) {} rfl]
          simp only [completeIfNecessary, Bool.false_eq_true, if_false, bind_ok]
        rw [key, hv, bind_assoc]
        simp only [completeIfNecessary, if_true, Bool.false_eq_true, if_false]
        cases drawParts env id {} (parts env.style (.relation id tags (e :: es))) <;> simp [Outcome.bind]

/-! ### Faces -/

/-- A well formed mesh and what it shows. -/
def Good (m : Mesh K) (ts : List (Triangle K)) : Prop := Built m ∧ Shows m ts

theorem Good.texture {m : Mesh K} {ts : List (Triangle K)} (h : Good m ts) (t : Texture) : ∃ m', writeTexture m t = .ok m' ∧ Good m' ts := by
  obtain ⟨rs, hrs⟩ := C44_map m h.1
  obtain ⟨m', rs', hw, -⟩ := C44_write m rs hrs t
  exact ⟨m', hw, .texture t h.1 hw, C73_texture m m' ts h.2 t hw⟩

/-- A well formed mesh which showed `done` before and now shows `ts`, too: some of them with this texture, the others without any so far. -/
def Drawn (t : Texture) (done : List (Triangle K × Texture)) (m : Mesh K) (ts : List (Triangle K)) : Prop :=
  Built m ∧ ∃ old new, ts = old ++ new ∧ Paints m (done ++ old.map fun x => (x, t)) new

theorem Drawn.start {t : Texture} {done : List (Triangle K × Texture)} {m : Mesh K} (hb : Built m) (h : Paints m done []) : Drawn t done m [] :=
  ⟨hb, [], [], rfl, by simpa using h⟩

theorem Drawn.add {t : Texture} {done : List (Triangle K × Texture)} {m m' : Mesh K} {n : Nat} {ts new : List (Triangle K)} (h : Drawn t done m ts)
    (hw : WellFormed m n) (ha : ShownProof.Adds m m' n new) (hb : Built m') : Drawn t done m' (ts ++ new) := by
  obtain ⟨-, a, b, rfl, hp⟩ := h
  exact ⟨hb, a, b ++ new, by rw [List.append_assoc], ha.paints hw hp⟩

theorem Drawn.wall (look : Look K) (elevation height : K) {t : Texture} {done : List (Triangle K × Texture)} {m : Mesh K} {ts : List (Triangle K)}
    (h : Drawn t done m ts) (a b : Vec K) :
    Drawn t done (addWall look elevation height m a b) (ts ++ wallFaces look elevation (elevation + height) a b) := by
  obtain ⟨n, hn⟩ := C43_well_formed m h.1
  have := h.add hn (ShownProof.addPlane_adds hn ⟨a.x, elevation, a.y⟩ ⟨b.x, elevation, b.y⟩ height (look.planeColor ⟨a.x, elevation, a.y⟩)
    (look.planeScale ⟨a.x, elevation, a.y⟩ ⟨b.x, elevation, b.y⟩ height).1 (look.planeScale ⟨a.x, elevation, a.y⟩ ⟨b.x, elevation, b.y⟩ height).2)
    (.plane _ _ _ _ _ _ h.1)
  simpa only [addWall, wallFaces, ShownSpec.wall, add_sub_cancel_left] using this

theorem Drawn.triangle {t : Texture} {done : List (Triangle K × Texture)} {m : Mesh K} {ts : List (Triangle K)} (h : Drawn t done m ts)
    (v0 v1 v2 : Vec3 K) (a b c : Vec2 K) (color : Int) :
    Drawn t done (addTriangle m v0 v1 v2 a b c false color) (ts ++ [(⟨v0, color, a⟩, ⟨v1, color, b⟩, ⟨v2, color, c⟩)]) := by
  obtain ⟨n, hn⟩ := C43_well_formed m h.1
  exact h.add hn (ShownProof.addTriangle_adds hn v0 v1 v2 a b c color) (.triangle _ _ _ _ _ _ _ _ h.1)

/-- After writing the texture all of them have it. -/
theorem Drawn.texture {t : Texture} {done : List (Triangle K × Texture)} {m : Mesh K} {ts : List (Triangle K)} (h : Drawn t done m ts) :
    ∃ m', writeTexture m t = .ok m' ∧ Built m' ∧ Paints m' (done ++ ts.map fun x => (x, t)) [] := by
  obtain ⟨hb, a, b, rfl, hp⟩ := h
  obtain ⟨rs, hrs⟩ := C44_map m hb
  obtain ⟨m', rs', hw, -⟩ := C44_write m rs hrs t
  refine ⟨m', hw, .texture t hb hw, ?_⟩
  have := C73_paints_texture m m' _ _ hp t hw
  rwa [List.append_assoc, ← List.map_append] at this

theorem Drawn.textured {t : Texture} {done : List (Triangle K × Texture)} {m : Mesh K} {ts : List (Triangle K)} (h : Drawn t done m ts) :
    ∃ m', writeTexture m t = .ok m' ∧ Drawn t done m' ts := by
  obtain ⟨m', h1, h2, h3⟩ := h.texture
  exact ⟨m', h1, h2, ts, [], by simp, h3⟩

/-- A loop which adds triangles in each step. -/
theorem Drawn.fold {β : Type} {t : Texture} {done : List (Triangle K × Texture)} (step : Mesh K → β → Outcome (Mesh K)) (new : β → List (Triangle K)) (l : List β)
    (hstep : ∀ b ∈ l, ∀ m ts, Drawn t done m ts → ∃ m', step m b = .ok m' ∧ Drawn t done m' (ts ++ new b)) {m : Mesh K} {ts : List (Triangle K)} (h : Drawn t done m ts) :
    ∃ m', foldO step m l = .ok m' ∧ Drawn t done m' (ts ++ l.flatMap new) := by
  induction l generalizing m ts with
  | nil => exact ⟨m, rfl, by simpa using h⟩
  | cons b l ih =>
    obtain ⟨m1, h1, g1⟩ := hstep b (List.mem_cons_self ..) m ts h
    obtain ⟨m2, h2, g2⟩ := ih (fun b hb => hstep b (List.mem_cons_of_mem _ hb)) g1
    refine ⟨m2, by simp only [foldO, h1, Outcome.bind, h2], ?_⟩
    rwa [List.flatMap_cons, ← List.append_assoc]

/-- The same, where the triangles belong to another list. -/
theorem Drawn.fold₂ {β γ : Type} {t : Texture} {done : List (Triangle K × Texture)} (step : Mesh K → β → Outcome (Mesh K)) (new : γ → List (Triangle K)) (R : γ → β → Prop)
    (hstep : ∀ c b, R c b → ∀ m ts, Drawn t done m ts → ∃ m', step m b = .ok m' ∧ Drawn t done m' (ts ++ new c)) {l : List β} {k : List γ}
    (hl : List.Forall₂ R k l) {m : Mesh K} {ts : List (Triangle K)} (h : Drawn t done m ts) :
    ∃ m', foldO step m l = .ok m' ∧ Drawn t done m' (ts ++ k.flatMap new) := by
  induction hl generalizing m ts with
  | nil => exact ⟨m, rfl, by simpa using h⟩
  | @cons c b k l hr _ ih =>
    obtain ⟨m1, h1, g1⟩ := hstep c b hr m ts h
    obtain ⟨m2, h2, g2⟩ := ih g1
    refine ⟨m2, by simp only [foldO, h1, Outcome.bind, h2], ?_⟩
    rwa [List.flatMap_cons, ← List.append_assoc]

theorem vecAt_eq {β : Type} {l : List β} {i : Nat} {b : β} (h : l[i]? = some b) : vecAt l (i : Int) = .ok b := by
  simp [vecAt, h]

theorem pointAt_eq {p : Poly K} {ring : List (Vec K)} {lo : Nat}
    (h : ∀ i v, ring[i]? = some v → p.points[2 * (lo + i)]? = some v.x ∧ p.points[2 * (lo + i) + 1]? = some v.y) {j : Nat} (hj : j < ring.length)
    {i : Int} (hi : i = 2 * ((lo : Int) + j)) : pointAt p i = .ok ring[j] := by
  obtain ⟨h1, h2⟩ := h j ring[j] (List.getElem?_eq_getElem hj)
  have e1 : i = ((2 * (lo + j) : Nat) : Int) := by push_cast; omega
  have e2 : i + 1 = ((2 * (lo + j) + 1 : Nat) : Int) := by push_cast; omega
  rw [pointAt, e2, e1, vecAt_eq h1, vecAt_eq h2]
  rfl

theorem backward_eq (lo k fuel : Nat) (hf : k ≤ fuel) :
    backward (2 * (lo : Int)) fuel (2 * ((lo : Int) + k) - 2) = (List.range k).reverse.map fun j => 2 * ((lo : Int) + (j : Nat)) := by
  induction k generalizing fuel with
  | zero =>
    cases fuel with
    | zero => rfl
    | succ fuel => rw [backward, if_neg (by push_cast; omega)]; rfl
  | succ k ih =>
    obtain ⟨fuel, rfl⟩ : ∃ f, fuel = f + 1 := ⟨fuel - 1, by omega⟩
    rw [backward, if_pos (by push_cast; omega)]
    have e : (2 * ((lo : Int) + ((k + 1 : Nat) : Int)) - 2) = 2 * ((lo : Int) + (k : Nat)) := by push_cast; ring
    rw [e, ih fuel (by omega), List.range_succ, List.reverse_append]
    rfl

theorem visited_eq (lo k fuel : Nat) (hf : k ≤ fuel) :
    visited (2 * lo) (2 * (lo + k)) 2 fuel = (List.range k).map fun j => 2 * (lo + j) := by
  induction k generalizing fuel lo with
  | zero =>
    cases fuel with
    | zero => rfl
    | succ fuel => rw [visited, if_neg (by omega)]; rfl
  | succ k ih =>
    obtain ⟨fuel, rfl⟩ : ∃ f, fuel = f + 1 := ⟨fuel - 1, by omega⟩
    rw [visited, if_pos (by omega), List.range_succ_eq_map, List.map_cons, List.map_map]
    have e1 : 2 * lo + 2 = 2 * (lo + 1) := by omega
    have e2 : lo + (k + 1) = lo + 1 + k := by omega
    rw [e1, e2, ih (lo + 1) fuel (by omega)]
    congr 1
    apply List.map_congr_left
    intro j _
    simp only [Function.comp]; omega

theorem getD_eq {β : Type} (l : List β) (d : β) {i : Nat} (h : i < l.length) : l.getD i d = l[i] := by simp [List.getD, h]

theorem ringEdges_eq {β : Type} (d : β) (ring : List β) :
    ringEdges ring = (List.range ring.length).map fun j => (ring.getD (if j = 0 then ring.length - 1 else j - 1) d, ring.getD j d) := by
  unfold ringEdges
  cases hr : ring.getLast? with
  | none => rw [List.getLast?_eq_none_iff] at hr; subst hr; rfl
  | some last =>
    have hne : ring ≠ [] := by rintro rfl; simp at hr
    have hpos : 0 < ring.length := List.length_pos_iff.2 hne
    have hlen : ((last :: ring.dropLast).zip ring).length = ring.length := by simp; omega
    apply List.ext_getElem
    · simp; omega
    · intro j h1 h2
      rw [hlen] at h1
      simp only [List.getElem_zip, List.getElem_map, List.getElem_range]
      rw [getD_eq _ _ h1]
      cases j with
      | zero =>
        rw [List.getLast?_eq_getElem?, List.getElem?_eq_getElem (by omega)] at hr
        simp only [List.getElem_cons_zero, if_true]
        rw [getD_eq _ _ (by omega)]
        simp only [Option.some.injEq] at hr
        rw [hr]
      | succ j =>
        simp only [List.getElem_cons_succ, List.getElem_dropLast, Nat.add_one_ne_zero, if_false, Nat.add_sub_cancel]
        rw [getD_eq _ _ (by omega)]

/-- The walls of a range are those of its ring. -/
theorem facadeRange_drawn (look : Look K) (elevation height : K) (p : Poly K) (ring : List (Vec K)) (range : Nat × Nat) (hst : Stored p ring range)
    (m : Mesh K) {t : Texture} {done : List (Triangle K × Texture)} (ts : List (Triangle K)) (h : Drawn t done m ts) :
    ∃ m', facadeRange look elevation height p m range = .ok m' ∧ Drawn t done m' (ts ++ ringWalls look elevation (elevation + height) ring) := by
  obtain ⟨lo, rfl, -, -, hp⟩ := hst
  have hb := backward_eq lo ring.length (2 * (lo + ring.length)) (by omega)
  unfold facadeRange
  simp only
  have e1 : ((2 * (lo + ring.length) : Nat) : Int) - 2 = 2 * ((lo : Int) + ring.length) - 2 := by push_cast; ring
  have e2 : ((2 * lo : Nat) : Int) = 2 * (lo : Int) := by push_cast; ring
  rw [e1, e2, hb]
  have key := Drawn.fold (fun m (j : Nat) => facadeEdge look elevation height p (2 * (lo : Int)) (2 * ((lo : Int) + ring.length) - 2) m (2 * ((lo : Int) + j)))
    (fun j => wallFaces look elevation (elevation + height) (ring.getD (if j = 0 then ring.length - 1 else j - 1) ⟨0, 0⟩) (ring.getD j ⟨0, 0⟩))
    (List.range ring.length).reverse (by
      intro j hj m ts h
      have hj : j < ring.length := by simpa using hj
      refine ⟨_, ?_, h.wall look elevation height _ _⟩
      have hprev : (if j = 0 then ring.length - 1 else j - 1) < ring.length := by split <;> omega
      rw [getD_eq _ _ hj, getD_eq _ _ hprev, facadeEdge, pointAt_eq hp hj rfl,
        pointAt_eq hp hprev (by split <;> split <;> omega)]
      rfl) h
  obtain ⟨m', h1, h2⟩ := key
  refine ⟨m', ?_, ?_⟩
  · rw [← h1]
    generalize (List.range ring.length).reverse = l
    clear h1 h2 hb h
    induction l generalizing m with
    | nil => rfl
    | cons j l ih =>
      simp only [List.map_cons, foldO]
      congr 1
      funext m
      exact ih m
  · rw [ringWalls, ringEdges_eq ⟨0, 0⟩, ← List.map_reverse, List.flatMap_map]
    exact h2

theorem flatFacade_drawn (look : Look K) (height elevation : K) (p : Poly K) (outs ins : List (List (Vec K))) (ho : List.Forall₂ (Stored p) outs p.outers)
    (hi : List.Forall₂ (Stored p) ins p.inners) (m : Mesh K) {t : Texture} {done : List (Triangle K × Texture)} (ts : List (Triangle K)) (h : Drawn t done m ts) :
    ∃ m', flatFacade look height elevation p m = .ok m' ∧ Drawn t done m' (ts ++ (outs ++ ins).flatMap (ringWalls look elevation (elevation + height))) := by
  have step := fun ring range hst m ts => facadeRange_drawn look elevation height p ring range hst m (t := t) (done := done) ts
  obtain ⟨m1, h1, g1⟩ := Drawn.fold₂ _ _ _ step ho h
  obtain ⟨m2, h2, g2⟩ := Drawn.fold₂ _ _ _ step hi g1
  refine ⟨m2, by simp only [flatFacade, h1, Outcome.bind, h2], ?_⟩
  rwa [List.flatMap_append, ← List.append_assoc]

theorem flatRoof_drawn (triangulate : Poly K → TriangleIo K) (flip : Bool) (look : Look K) (height : K) (p : Poly K) (hio : InRange (triangulate p))
    (m : Mesh K) {t : Texture} {done : List (Triangle K × Texture)} (ts : List (Triangle K)) (h : Drawn t done m ts) :
    ∃ new, Drawn t done (flatRoof triangulate flip look height p m) (ts ++ new) ∧ FlatFaces look height flip (triangulate p) new := by
  obtain ⟨n, hn⟩ := C43_well_formed m h.1
  obtain ⟨new, h1, h2⟩ := ShownProof.fillMesh_adds hn (triangulate p) (fun _ q => (0 + height, look.pointColor q, look.pointUv q)) flip hio
  refine ⟨new, h.add hn h1 (.polygon _ _ h.1 hio), ?_⟩
  unfold FlatFaces
  simpa only [zero_add] using h2

theorem rangePoints_eq (p : Poly K) (ring : List (Vec K)) (range : Nat × Nat) (hst : Stored p ring range) : rangePoints p range = .ok ring := by
  obtain ⟨lo, rfl, -, -, hp⟩ := hst
  unfold rangePoints
  simp only
  rw [visited_eq lo ring.length _ (by omega)]
  have gen : ∀ k, k ≤ ring.length → ∀ l : List (Vec K), foldO (fun l (i : Nat) => (pointAt p i).bind fun v => .ok (l ++ [v])) l
      ((List.range' (ring.length - k) k).map fun j => 2 * (lo + j)) = .ok (l ++ ring.drop (ring.length - k)) := by
    intro k
    induction k with
    | zero => intro _ l; simp [foldO]
    | succ k ih =>
      intro hk l
      rw [List.range'_succ, List.map_cons]
      unfold foldO
      rw [pointAt_eq hp (show ring.length - (k + 1) < ring.length by omega) (by push_cast; omega)]
      have e : ring.length - (k + 1) + 1 = ring.length - k := by omega
      rw [e]
      show foldO _ (l ++ [ring[ring.length - (k + 1)]]) _ = _
      rw [ih (by omega), List.append_assoc]
      congr 2
      rw [List.drop_eq_getElem_cons (show ring.length - (k + 1) < ring.length by omega), e]
      rfl
  have := gen ring.length (Nat.le_refl _) []
  rw [Nat.sub_self] at this
  rw [List.range_eq_range', this]; rfl

theorem centroid_eq (ring : List (Vec K)) : Geometry.getCentroid ring = mean ring := by
  have gen : ∀ (l : List (Vec K)) (a : Vec K), l.foldl (fun (s : Vec K) p => (⟨s.x + p.x, s.y + p.y⟩ : Vec K)) a =
      ⟨a.x + (l.map Vec.x).sum, a.y + (l.map Vec.y).sum⟩ := by
    intro l
    induction l with
    | nil => intro a; simp
    | cons v l ih => intro a; rw [List.foldl_cons, ih]; simp [add_assoc]
  simp only [Geometry.getCentroid, mean, gen, zero_add]

theorem pyramid_eq (look : Look K) (bottom height : K) (ring : List (Vec K)) :
    pyramid look bottom height ring = (List.range ring.length).flatMap fun j =>
      let a := ring.getD j ⟨0, 0⟩
      let b := ring.getD (if j = ring.length - 1 then 0 else j + 1) ⟨0, 0⟩
      let color := look.triangleColor ⟨a.x, bottom, a.y⟩
      [(⟨⟨a.x, bottom, a.y⟩, color, ⟨0, 0⟩⟩, ⟨⟨(mean ring).x, bottom + height, (mean ring).y⟩, color, ⟨look.scaled height, 0⟩⟩,
        ⟨⟨b.x, bottom, b.y⟩, color, ⟨look.scaled height, look.scaled height⟩⟩)] := by
  have hz : ring.zip (ring.tail ++ ring.take 1) = (List.range ring.length).map fun j =>
      (ring.getD j ⟨0, 0⟩, ring.getD (if j = ring.length - 1 then 0 else j + 1) ⟨0, 0⟩) := by
    apply List.ext_getElem
    · simp; omega
    · intro j h1 h2
      have hj : j < ring.length := by simpa using h2
      simp only [List.getElem_zip, List.getElem_map, List.getElem_range]
      rw [getD_eq _ _ hj]
      congr 1
      by_cases hl : j = ring.length - 1
      · rw [if_pos hl, getD_eq _ _ (by omega), List.getElem_append_right (by simp; omega)]
        simp only [List.length_tail, hl, Nat.sub_self, List.getElem_take]
      · rw [if_neg hl, getD_eq _ _ (by omega), List.getElem_append_left (by simp; omega), List.getElem_tail]
  rw [pyramid, hz, List.map_map, ← List.flatMap_pure_eq_map]
  rfl

theorem pyramidalRange_drawn (look : Look K) (height bottom : K) (p : Poly K) (ring : List (Vec K)) (range : Nat × Nat) (hst : Stored p ring range)
    (m : Mesh K) {t : Texture} {done : List (Triangle K × Texture)} (ts : List (Triangle K)) (h : Drawn t done m ts) :
    ∃ m', pyramidalRange look height bottom p m range = .ok m' ∧ Drawn t done m' (ts ++ pyramid look bottom height ring) := by
  unfold pyramidalRange
  rw [rangePoints_eq p ring range hst, pyramid_eq]
  obtain ⟨lo, rfl, -, -, hp⟩ := hst
  simp only [Outcome.bind, centroid_eq]
  rw [visited_eq lo ring.length _ (by omega)]
  obtain ⟨m', h1, h2⟩ := Drawn.fold (fun m (j : Nat) => pyramidalEdge look height bottom p (2 * lo, 2 * (lo + ring.length)) (mean ring) m (2 * (lo + j)))
    (fun j =>
      let a := ring.getD j ⟨0, 0⟩
      let b := ring.getD (if j = ring.length - 1 then 0 else j + 1) ⟨0, 0⟩
      let color := look.triangleColor ⟨a.x, bottom, a.y⟩
      [(⟨⟨a.x, bottom, a.y⟩, color, ⟨0, 0⟩⟩, ⟨⟨(mean ring).x, bottom + height, (mean ring).y⟩, color, ⟨look.scaled height, 0⟩⟩,
        ⟨⟨b.x, bottom, b.y⟩, color, ⟨look.scaled height, look.scaled height⟩⟩)]) (List.range ring.length) (by
      intro j hj m ts h
      have hj : j < ring.length := by simpa using hj
      have hn : (if j = ring.length - 1 then 0 else j + 1) < ring.length := by split <;> omega
      simp only
      rw [getD_eq _ _ hj, getD_eq _ _ hn]
      refine ⟨_, ?_, h.triangle _ _ _ _ _ _ _⟩
      unfold pyramidalEdge
      simp only
      rw [pointAt_eq hp hj (by push_cast; ring), pointAt_eq hp hn (by split <;> split <;> push_cast <;> omega)]
      rfl) h
  refine ⟨m', ?_, h2⟩
  rw [← h1]
  generalize List.range ring.length = l
  clear h1 h2 h
  induction l generalizing m with
  | nil => rfl
  | cons j l ih =>
    simp only [List.map_cons, foldO]
    congr 1
    funext m
    exact ih m

/-- What adds triangles with `F` to a mesh, without a texture or with this one. -/
def Draws (t : Texture) (face : Mesh K → Outcome (Mesh K)) (F : List (Triangle K) → Prop) : Prop :=
  ∀ (m : Mesh K) (done : List (Triangle K × Texture)) (ts : List (Triangle K)), Drawn t done m ts →
    ∃ m' new, face m = .ok m' ∧ Drawn t done m' (ts ++ new) ∧ F new

theorem Draws.texture {t : Texture} {face : Mesh K → Outcome (Mesh K)} {F : List (Triangle K) → Prop} (h : Draws t face F) {m : Mesh K}
    {done : List (Triangle K × Texture)} (hb : Built m) (hp : Paints m done []) :
    ∃ m' new, ((face m).bind fun m => writeTexture m t) = .ok m' ∧ Built m' ∧ Paints m' (done ++ new.map fun x => (x, t)) [] ∧ F new := by
  obtain ⟨m1, new, h1, g1, hF⟩ := h m done [] (.start hb hp)
  rw [List.nil_append] at g1
  obtain ⟨m2, h2, b2, g2⟩ := g1.texture
  exact ⟨m2, new, by rw [h1]; exact h2, b2, g2, hF⟩

theorem flatRoof_draws (triangulate : Poly K → TriangleIo K) (flip : Bool) (t : Texture) (look : Look K) (height : K) (p : Poly K)
    (hio : InRange (triangulate p)) :
    Draws t (fun m => .ok (flatRoof triangulate flip look height p m)) (FlatFaces look height flip (triangulate p)) := by
  intro m done ts h
  obtain ⟨new, g, hn⟩ := flatRoof_drawn triangulate flip look height p hio m ts h
  exact ⟨_, new, rfl, g, hn⟩

theorem pyramidalRoof_draws (look : Look K) (height bottom : K) (p : Poly K) (outs : List (List (Vec K))) (ho : List.Forall₂ (Stored p) outs p.outers) :
    Draws look.texture (pyramidalRoof look height bottom p) (fun new => new = outs.flatMap (pyramid look bottom height)) := by
  intro m done ts h
  obtain ⟨m1, h1, g1⟩ := Drawn.fold₂ _ _ _ (fun ring range hst m ts => pyramidalRange_drawn look height bottom p ring range hst m ts) ho h
  obtain ⟨m2, h2, g2⟩ := g1.textured
  exact ⟨m2, _, by simp only [pyramidalRoof, h1, Outcome.bind, h2], g2, rfl⟩

theorem flatFacade_draws (t : Texture) (look : Look K) (height elevation : K) (p : Poly K) (outs ins : List (List (Vec K)))
    (ho : List.Forall₂ (Stored p) outs p.outers) (hi : List.Forall₂ (Stored p) ins p.inners) :
    Draws t (flatFacade look height elevation p) (fun new => new = (outs ++ ins).flatMap (ringWalls look elevation (elevation + height))) := by
  intro m done ts h
  obtain ⟨m', h1, h2⟩ := flatFacade_drawn look height elevation p outs ins ho hi m ts h
  exact ⟨m', _, h1, h2, rfl⟩

/-- The roofs which are not parameters. -/
theorem roof_draws (env : Env K) (style : Style K) (id : UInt64) (top : K) (p : Poly K) (outs : List (List (Vec K)))
    (ho : List.Forall₂ (Stored p) outs p.outers) (hio : InRange (env.triangulate p)) (hr : style.roofType ∈ ["none", "flat", "pyramidal"]) :
    ∃ face, roofOf env style.roofType = some face ∧
      Draws (style.roofLook id).texture (face (style.roofLook id) style.roofDirection style.roofHeight top p)
        (RoofFaces (style.roofLook id) style.roofType style.roofHeight top (env.triangulate p) outs) := by
  simp only [List.mem_cons, List.not_mem_nil, or_false] at hr
  rcases hr with hr | hr | hr
  · exact ⟨fun _ _ _ _ _ m => .ok m, by simp only [roofOf, hr, if_true], fun m done ts h => ⟨m, [], rfl, by simpa using h, .inl ⟨hr, rfl⟩⟩⟩
  · refine ⟨_, by simp only [roofOf, hr, if_true, if_neg (show ¬ "flat" = "none" by decide)]; rfl, fun m done ts h => ?_⟩
    obtain ⟨m', new, h1, h2, h3⟩ := flatRoof_draws env.triangulate false _ (style.roofLook id) top p hio m done ts h
    exact ⟨m', new, h1, h2, .inr (.inl ⟨hr, h3⟩)⟩
  · refine ⟨_, by simp only [roofOf, hr, if_true, if_neg (show ¬ "pyramidal" = "none" by decide), if_neg (show ¬ "pyramidal" = "flat" by decide)]; rfl,
      fun m done ts h => ?_⟩
    obtain ⟨m', new, h1, h2, h3⟩ := pyramidalRoof_draws (style.roofLook id) style.roofHeight top p outs ho m done ts h
    exact ⟨m', new, h1, h2, .inr (.inr ⟨hr, h3⟩)⟩

/-- The polygon begins with its first ring. -/
theorem addAll_first (epsilon huge tiny : K) (rings : List (List (Vec K) × Bool)) (p q : Poly K) (h : Polygon.addAll epsilon huge tiny p rings = .ok q) :
    ∃ rest, q.points = p.points ++ rest := by
  induction rings generalizing p with
  | nil => simp only [Polygon.addAll, Outcome.ok.injEq] at h; subst h; exact ⟨[], by simp⟩
  | cons r rings ih =>
    simp only [Polygon.addAll] at h
    cases hc : Polygon.addContour epsilon huge tiny p r.1 r.2 with
    | throw e => rw [hc] at h; cases h
    | ub e => rw [hc] at h; cases h
    | ok p1 =>
      rw [hc] at h
      obtain ⟨rest, hq⟩ := ih p1 h
      have : ∃ rest, p1.points = p.points ++ rest := by
        unfold Polygon.addContour at hc
        split at hc
        · simp only at hc
          split at hc
          · split at hc
            · cases hc; exact ⟨[], by simp⟩
            · simp only [PolygonProof.addPoints_eq] at hc; cases hc; exact ⟨_, rfl⟩
          · simp only [PolygonProof.addPoints_eq] at hc; cases hc; exact ⟨_, rfl⟩
        · cases hc
      obtain ⟨rest', hp⟩ := this
      exact ⟨rest' ++ rest, by rw [hq, hp, List.append_assoc]⟩

/-- The first point of the polygon is the first point of the first ring. -/
theorem first_point (env : Env K) (part : Part K) (p : Poly K) (hp : polygonOf env part = .ok p) (start : Geo K) (ring : List (Vec K))
    (rest : List (List (Vec K) × Bool)) (hf : part.rings = (ground start :: ring, false) :: rest)
    (hrings : ∀ r ∈ part.rings, opened env.epsilon r.1 ≠ []) : pointAt p 0 = .ok (ground start) := by
  unfold polygonOf at hp
  have ho1 : opened env.epsilon (ground start :: ring) ≠ [] := hrings (ground start :: ring, false) (by rw [hf]; exact List.mem_cons_self ..)
  have hh : (opened env.epsilon (ground start :: ring))[0]? = some (ground start) := by
    unfold opened at ho1 ⊢
    split
    · rename_i a b ha hb
      rw [ha, hb] at ho1
      simp only at ho1
      split
      · rename_i hc
        rw [if_pos hc] at ho1
        cases ring with
        | nil => simp at ho1
        | cons b ring => simp
      · rfl
    · rfl
  rw [hf] at hp
  simp only [Polygon.addAll] at hp
  obtain ⟨n1, n2⟩ := PolygonProof.near_opened env.epsilon (ground start :: ring) (ground start) ((ground start :: ring).getLast (by simp)) rfl
    (List.getLast?_eq_some_getLast (by simp))
  unfold Polygon.addContour at hp
  rw [List.head?_cons, List.getLast?_eq_some_getLast (by simp : ground start :: ring ≠ [])] at hp
  simp only [Bool.false_eq_true, if_false, n1, PolygonProof.addPoints_eq, Outcome.bind, List.nil_append] at hp
  obtain ⟨more, hq⟩ := addAll_first _ _ _ _ _ _ hp
  cases hopen : opened env.epsilon (ground start :: ring) with
  | nil => exact absurd hopen ho1
  | cons v l =>
    rw [hopen] at hh hq
    simp only [List.getElem?_cons_zero, Option.some.injEq] at hh
    subst hh
    simp [pointAt, vecAt, hq, Outcome.bind]

/-- A part is drawn with any roof and facade which draw something. -/
theorem part_drawn (env : Env K) (part : Part K) (id : UInt64) (m : Mesh K) (done : List (Triangle K × Texture)) (hm : Built m) (hs : Paints m done [])
    (p : Poly K) (hp : polygonOf env part = .ok p) (start : Geo K) (hfirst : pointAt p 0 = .ok (ground start)) (hio : InRange (env.triangulate p))
    (roof facade : Face K) (R F : List (Triangle K) → Prop) (hr : roofOf env part.style.roofType = some roof) (hf : facadeOf env part.style.facadeType = some facade)
    (hR : Draws (part.style.roofLook id).texture (roof (part.style.roofLook id) part.style.roofDirection part.style.roofHeight
      (env.elevation start + (if part.style.height = 0 then 10 else part.style.height)) p) R)
    (hF : Draws (part.style.facadeLook id).texture (facade (part.style.facadeLook id) "" ((if part.style.height = 0 then 10 else part.style.height) - part.style.minHeight)
      (env.elevation start + part.style.minHeight) p) F) :
    ∃ (m' : Mesh K) (top floor walls : List (Triangle K)), drawPart env id m part = .ok m' ∧ Built m' ∧
      Paints m' (done ++ (top ++ floor).map (fun x => (x, (part.style.roofLook id).texture)) ++ walls.map fun x => (x, (part.style.facadeLook id).texture)) [] ∧
      R top ∧ (if part.style.minHeight > 0 then FlatFaces (part.style.roofLook id) (env.elevation start + part.style.minHeight) true (env.triangulate p) floor
        else floor = []) ∧ F walls := by
  have hbt : env.elevation start + part.style.minHeight + ((if part.style.height = 0 then 10 else part.style.height) - part.style.minHeight) =
    env.elevation start + (if part.style.height = 0 then 10 else part.style.height) := by ring
  obtain ⟨m1, top, h1, b1, g1, r1⟩ := hR.texture hm hs
  have hfloor : ∃ m2 floor, (if part.style.minHeight > 0 then attachFloors env part.style id (env.elevation start + part.style.minHeight) p m1 else .ok m1) = .ok m2 ∧
      Built m2 ∧ Paints m2 (done ++ (top ++ floor).map fun x => (x, (part.style.roofLook id).texture)) [] ∧
      if part.style.minHeight > 0 then FlatFaces (part.style.roofLook id) (env.elevation start + part.style.minHeight) true (env.triangulate p) floor else floor = [] := by
    by_cases hmin : part.style.minHeight > 0
    · obtain ⟨m2, floor, h2, b2, g2, f2⟩ := (flatRoof_draws env.triangulate true (part.style.roofLook id).texture (part.style.roofLook id)
        (env.elevation start + part.style.minHeight) p hio).texture b1 g1
      exact ⟨m2, floor, by rw [if_pos hmin]; exact h2, b2, by rwa [List.append_assoc, ← List.map_append] at g2, by rw [if_pos hmin]; exact f2⟩
    · exact ⟨m1, [], by rw [if_neg hmin], b1, by simpa using g1, by rw [if_neg hmin]⟩
  obtain ⟨m2, floor, h2, b2, g2, f2⟩ := hfloor
  obtain ⟨m3, walls, h3, b3, g3, w3⟩ := hF.texture b2 g2
  refine ⟨m3, top, floor, walls, ?_, b3, g3, r1, f2, w3⟩
  have hp' : Polygon.addAll env.epsilon env.huge env.tiny { rectangle := .empty env.huge env.tiny } part.rings = .ok p := hp
  simp only [drawPart, hp', draw, hfirst, BuildingProof.bind_okl]
  have e : (⟨(ground start).y, (ground start).x⟩ : Geo K) = start := rfl
  simp only [attachRoof, hr, e, hbt, h1, BuildingProof.bind_okl, h2, attachFacade, hf, h3]

end BuildingProof

open BuildingProof
variable {K : Type} [Field K] [LinearOrder K]

/-- C74: from all elements of a tile the callback gets one mesh for each building which is not part of another one, in order, with all of its parts and
nothing else; every part is drawn with a polygon of its own, whatever was drawn before. The multipolygons consist of areas. -/
theorem C74_meshes_partial (env : Env K) (es : List (Element (Geo K))) (h : ∀ e ∈ es, Fine env.style e) :
    ((topAll env {} es).bind fun s => .ok s.delivered) = meshesOf env (es.filter (Delivered env.style)) := by
  have gen : ∀ (es : List (Element (Geo K))) (s : State K), (∀ e ∈ es, Fine env.style e) → s.mesh = none → Fresh env s.polygon →
      ((topAll env s es).bind fun s => .ok s.delivered) = (meshesOf env (es.filter (Delivered env.style))).bind fun l => .ok (s.delivered ++ l) := by
    intro es
    induction es with
    | nil => intro s _ _ _; simp [topAll, meshesOf, Outcome.bind]
    | cons e es ih =>
      intro s hes hm hf
      obtain ⟨q, hq, ht⟩ := top_eq env s hm hf e (hes e (List.mem_cons_self ..))
      have ih' := fun s => ih s fun e he => hes e (List.mem_cons_of_mem _ he)
      simp only [topAll, ht, bind_assoc]
      by_cases hd : Delivered env.style e = true
      · simp only [hd, if_true, List.filter_cons_of_pos, meshesOf, bind_assoc]
        cases drawParts env e.id {} (parts env.style e) with
        | ok m =>
          simp only [Outcome.bind]
          have := ih' ⟨q, none, e.id, s.delivered ++ [(e.id, m)]⟩ rfl hq
          simp only [Outcome.bind] at this
          rw [this]
          cases meshesOf env (es.filter (Delivered env.style)) <;> simp
        | throw x => rfl
        | ub w => rfl
      · simp only [hd, if_false, Bool.false_eq_true, not_false_eq_true, List.filter_cons_of_neg]
        exact ih' { s with polygon := q } hm hq
  have := gen es {} h rfl (.inl rfl)
  rw [this]
  cases meshesOf env (es.filter (Delivered env.style)) <;> simp [Outcome.bind]

/-- C75: a part whose first ring is an outline is drawn as its roof and its floor (if it begins above the ground) with the texture of the roof, and a
wall for each edge of each of its outlines and holes, from the bottom to the top, with the texture of the facade. The ground is that below its first
point. What the mesh showed before stays as it was. Partial: only for flat, pyramidal and no roofs and flat facades, holes without a point inside are left
out, and the rings are not empty. -/
theorem C75_part_partial (env : Env K) (part : Part K) (id : UInt64) (m : Mesh K) (done : List (Triangle K × Texture)) (hm : Built m) (hs : Paints m done [])
    (start : Geo K) (ring : List (Vec K)) (rest : List (List (Vec K) × Bool)) (hf : part.rings = (ground start :: ring, false) :: rest)
    (hrings : ∀ r ∈ part.rings, opened env.epsilon r.1 ≠ []) (htri : ∀ p, polygonOf env part = .ok p → InRange (env.triangulate p))
    (hroof : part.style.roofType ∈ ["none", "flat", "pyramidal"]) (hfacade : part.style.facadeType = "flat") :
    ∃ (p : Poly K) (holes : List (List (Vec K))) (m' : Mesh K) (roof floor : List (Triangle K)),
      let outlines := (part.rings.filter fun r => !r.2).map fun r => opened env.epsilon r.1
      let bottom := env.elevation start + part.style.minHeight
      let top := env.elevation start + (if part.style.height = 0 then 10 else part.style.height)
      polygonOf env part = .ok p ∧ List.Forall₂ (Stored p) outlines p.outers ∧ List.Forall₂ (Stored p) holes p.inners ∧
      holes.Sublist ((part.rings.filter fun r => r.2).map fun r => opened env.epsilon r.1) ∧
      drawPart env id m part = .ok m' ∧ Built m' ∧
      Paints m' (done ++ (roof ++ floor).map (fun x => (x, (part.style.roofLook id).texture)) ++
        ((outlines ++ holes).flatMap (ringWalls (part.style.facadeLook id) bottom top)).map fun x => (x, (part.style.facadeLook id).texture)) [] ∧
      RoofFaces (part.style.roofLook id) part.style.roofType part.style.roofHeight top (env.triangulate p) outlines roof ∧
      if part.style.minHeight > 0 then FlatFaces (part.style.roofLook id) bottom true (env.triangulate p) floor else floor = [] := by
  obtain ⟨p, holes, hp, ho, hk, hi, -⟩ := C45_closed_partial env.epsilon env.huge env.tiny part.rings (by
    intro r hr hc; exact hrings r hr (by rw [hc]; rfl))
  have hfirst := first_point env part p hp start ring rest hf hrings
  obtain ⟨face, hface, hR⟩ := roof_draws env part.style id (env.elevation start + (if part.style.height = 0 then 10 else part.style.height)) p _ ho
    (htri p hp) hroof
  obtain ⟨m', top, floor, walls, h1, h2, h3, h4, h5, rfl⟩ := part_drawn env part id m done hm hs p hp start hfirst (htri p hp) face _ _ _ hface
    (by simp only [facadeOf, hfacade, if_true]; rfl) hR (flatFacade_draws _ _ _ _ p _ holes ho hi)
  refine ⟨p, holes, m', top, floor, hp, ho, hi, hk, h1, h2, ?_, h4, h5⟩
  rw [show env.elevation start + part.style.minHeight + ((if part.style.height = 0 then 10 else part.style.height) - part.style.minHeight) =
    env.elevation start + (if part.style.height = 0 then 10 else part.style.height) by ring] at h3
  exact h3

end Verif.Props
