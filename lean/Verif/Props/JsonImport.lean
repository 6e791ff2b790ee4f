import Verif.Props.JsonImportSpec
import Verif.Props.Json
import Verif.Props.Import

/-! # C104: imported GeoJSON files -/
namespace Verif.Props
open Verif.Json Verif.JsonSpec Verif.JsonImportSpec Verif.DirectImport
open Verif.Clipper (El)
open Verif.Import (Env Target collect)
open Verif.ImportSpec (Used Sensible seen)
open Verif.GeoStoreSpec (Stores update)
open Verif.GeoStore (memIface)
open Verif.BboxSpec Verif.ElementStoreSpec
open Verif.Props.ImportProof
open Verif.Props.GeoStoreProof (Abs)

namespace DirectProof

/-- What was handed on is stored, however the parser ends. -/
theorem told_mem {K : Type} [LinearOrder K] (env : Env) (tokens : El → List UInt32) {m : GeoStore.Map K (MemStore.Store El)} {A : Stores K (MemStore.Store El)} (hm : Abs m A)
    (hu : Used tokens A) {k : K} {s : MemStore.Store El} (hk : A k = some s) {target : Target} (ht : Sensible target) (told : Told El)
    (hg : ∀ e ∈ told.1, ∀ p ∈ ClipperSpec.points e, OnGlobe p) :
    ∃ m' s', importTold (memIface tokens) env m k target told = (m', finish told.2) ∧ Abs m' (update A k s') ∧
      Used tokens (update A k s') ∧
      ∀ q, ∃ old new, (GeoStore.step (memIface tokens) m (.tile q)).2 = .elements old ∧ (GeoStore.step (memIface tokens) m' (.tile q)).2 = .elements new ∧
        new.Perm (old ++ told.1.filterMap (seen env.eng env.style target q)) := by
  obtain ⟨l, h1, h2⟩ := collect_seen env ht told.1 hg
  obtain ⟨m', s', a1, a2, a3, a4⟩ := addFile_mem hm hu hk l
  refine ⟨m', s', by simp only [importTold, h1, a1], a2, a3, fun q => ?_⟩
  obtain ⟨old, new, b1, b2, b3⟩ := a4 q
  exact ⟨old, new, b1, b2, b3.trans (by rw [h2])⟩

end DirectProof

namespace JsonImportProof
open Verif.Props.JsonProof

variable {D : Type} (T : Tools D)

/-! ## What is told for features which are written as they should be -/

theorem has_iff {t k v} : t.child k = .ok v → Has t k v := by
  obtain ⟨d, ch⟩ := t
  unfold Tree.child
  simp only [Tree.children]
  intro h
  cases hf : ch.find? fun c => decide (c.1 = k) with
  | none => rw [hf] at h; cases h
  | some c =>
    rw [hf] at h
    obtain ⟨h1, as, bs, rfl, h3⟩ := List.find?_eq_some_iff_append.1 hf
    obtain rfl := of_decide_eq_true h1
    rw [← Outcome.ok.inj h]
    exact .mk d as c.1 c.2 bs (by simpa using h3)

/-- The loop over the first features of a collection. -/
theorem features_append (hid : ∀ k, T.getId k = T.getId "id" → k = "id") (hsort : OsmSpec.Sorts T.sort) (name : String) {gs : List (String × Tree)} {fs : List (Feature D)}
    (h : List.Forall₂ (fun c f => IsFeature T.toDouble c.2 f) gs fs) (hi : ∀ f ∈ fs, ∃ id, IdOf T.toId f.properties id) (rest : List (String × Tree)) :
    ∃ es, DirectImport.each (featureTold T (T.getId name)) (gs ++ rest) =
        (es ++ (DirectImport.each (featureTold T (T.getId name)) rest).1,
          (DirectImport.each (featureTold T (T.getId name)) rest).2) ∧
      List.Forall₂ (fun (x : String × Feature D) e => ∃ id tags, IdOf T.toId x.2.properties id ∧
        TagsOf T.getId x.1 x.2.properties tags ∧ Delivered T.same id tags x.2.geometry e) (fs.map fun f => (name, f)) es := by
  induction h with
  | nil => exact ⟨[], by simp, .nil⟩
  | @cons c f gs fs h1 _ ih =>
    obtain ⟨id, hid'⟩ := hi f (by simp)
    obtain ⟨e, tags, a, b, d⟩ := feature T hid hsort name c.2 f h1 id hid'
    obtain ⟨es, h2, h3⟩ := ih fun f hf => hi f (List.mem_cons_of_mem _ hf)
    refine ⟨e :: es, ?_, .cons ⟨id, tags, hid', b, d⟩ h3⟩
    have ha : featureTold T (T.getId name) c = .ok [e] := by simp only [featureTold, a, Outcome.bind]
    rw [List.cons_append, DirectImport.each, ha]
    simp only [after, Told.andThen, h2]
    rfl

/-- The loop over the first collections. -/
theorem collections_append (hid : ∀ k, T.getId k = T.getId "id" → k = "id") (hsort : OsmSpec.Sorts T.sort) (t : Tree) :
    ∀ (before after rest : List (String × Tree)) (cs : List (String × List (Feature D))), t.children = before ++ (after ++ rest) →
      List.Forall₂ (fun c x => c.1 = x.1 ∧ ∃ fs, Has c.2 "features" fs ∧ IsArray (IsFeature T.toDouble) fs x.2) after cs →
      (∀ c ∈ cs, Plain c.1) → (cs.map Prod.fst).Nodup → (∀ b ∈ before, b.1 ∉ cs.map Prod.fst) →
      (∀ c ∈ cs, ∀ f ∈ c.2, ∃ id, IdOf T.toId f.properties id) →
      ∃ es, collections T t (after ++ rest) = (es ++ (collections T t rest).1, (collections T t rest).2) ∧
        List.Forall₂ (fun (x : String × Feature D) e => ∃ id tags, IdOf T.toId x.2.properties id ∧
          TagsOf T.getId x.1 x.2.properties tags ∧ Delivered T.same id tags x.2.geometry e) (cs.flatMap fun c => c.2.map fun f => (c.1, f)) es := by
  intro before after rest cs hb hf
  induction hf generalizing before with
  | nil => intros; exact ⟨[], by simp, .nil⟩
  | @cons c x after cs hcx _ ih =>
    intro hp hn hbef hi
    obtain ⟨name, sub⟩ := c
    obtain ⟨hname, fs, hfs, harr⟩ := hcx
    simp only at hname
    subst hname
    have hhas : Has t x.1 sub := by
      obtain ⟨d, ch⟩ := t
      simp only [Tree.children] at hb
      rw [hb]
      exact .mk d before x.1 sub (after ++ rest) fun b hb' e => hbef b hb' (by rw [e]; simp)
    obtain ⟨es2, h2, f2⟩ := ih (before ++ [(x.1, sub)]) (by simp [hb]) (fun c hc => hp c (List.mem_cons_of_mem _ hc)) (by simp at hn; exact hn.2)
      (by
        intro b hb'
        rcases List.mem_append.1 hb' with h | h
        · exact fun e => hbef b h (List.mem_cons_of_mem _ e)
        · simp only [List.mem_singleton] at h
          rw [h]
          exact (List.nodup_cons.1 hn).1) (fun c hc => hi c (List.mem_cons_of_mem _ hc))
    obtain ⟨es1, h1, f1⟩ := features_append T hid hsort x.1 harr (hi x List.mem_cons_self) []
    simp only [List.append_nil, DirectImport.each] at h1
    refine ⟨es1 ++ es2, ?_, ?_⟩
    · rw [List.cons_append, collections, segments_plain (hp x List.mem_cons_self), path_one hhas]
      simp only [DirectImport.after, path_one hfs, h1, Told.andThen, h2, List.append_assoc]
    · rw [List.flatMap_cons]
      exact List.rel_append f1 f2

/-! ## What is no feature -/

/-- A step which fails with an exception if it fails. -/
def Throws {α : Type} (o : Outcome α) : Prop := (∃ a, o = .ok a) ∨ ∃ e, o = .throw e

theorem Throws.bind {α β : Type} {o : Outcome α} (h : Throws o) {f : α → Outcome β} (hf : ∀ a, o = .ok a → Throws (f a)) : Throws (o.bind f) := by
  rcases h with ⟨a, h⟩ | ⟨e, h⟩
  · rw [h]; exact hf a h
  · rw [h]; exact .inr ⟨e, rfl⟩

theorem throws_ok {α : Type} (a : α) : Throws (Outcome.ok a) := .inl ⟨a, rfl⟩

theorem throws_throw {α : Type} (e : String) : Throws (Outcome.throw e : Outcome α) := .inr ⟨e, rfl⟩

theorem throws_child (t : Tree) (k : String) : Throws (t.child k) := by
  unfold Tree.child
  split
  · exact throws_ok _
  · exact throws_throw _

theorem throws_path (ks : List String) : ∀ t : Tree, Throws (t.path ks) := by
  induction ks with
  | nil => exact fun t => throws_ok t
  | cons k ks ih => exact fun t => (throws_child t k).bind fun c _ => ih c

theorem throws_each {α : Type} {f : Tree → Outcome α} (h : ∀ t, Throws (f t)) (cs : List (String × Tree)) : Throws (Json.each f cs) := by
  induction cs with
  | nil => exact throws_ok _
  | cons c cs ih => exact (h c.2).bind fun a _ => ih.bind fun as _ => throws_ok _

theorem throws_number (t : Tree) : Throws (number T t) := by
  unfold number
  split
  · exact throws_ok _
  · exact throws_throw _

theorem throws_coordinate (t : Tree) : Throws (parseCoordinate T t) := by
  unfold parseCoordinate
  split
  · exact (throws_number T _).bind fun _ _ => (throws_number T _).bind fun _ _ => throws_ok _
  · exact throws_throw _

theorem throws_coordinates (t : Tree) : Throws (parseCoordinates T t) := (throws_each (throws_coordinate T) _).bind fun _ _ => throws_ok _

theorem throws_relation (t : Tree) : Throws (parseRelation T t) := throws_each (fun t => (throws_coordinates T t).bind fun _ _ => throws_ok _) _

theorem throws_id (v : List Char) : Throws (parseId T v) := by
  unfold parseId
  split
  · exact throws_ok _
  · split
    · exact throws_ok _
    · exact throws_throw _

theorem throws_loop (ps : List (String × Tree)) : ∀ id tags, Throws (propertyLoop T id tags ps) := by
  induction ps with
  | nil => exact fun _ _ => throws_ok _
  | cons p ps ih =>
    obtain ⟨name, v⟩ := p
    intro id tags
    unfold propertyLoop
    split
    · exact (throws_id T _).bind fun _ _ => ih _ _
    · exact ih _ _

theorem throws_properties (n : UInt32) (t : Tree) : Throws (parseProperties T n t) := (throws_loop T _ _ _).bind fun _ _ => throws_ok _

theorem throws_feature (n : UInt32) (t : Tree) : Throws (parseFeature T n t) := by
  refine (throws_path _ t).bind fun ty _ => ?_
  have hs : Throws (processSimpleRelation T n t) := (throws_path _ t).bind fun c _ => (throws_relation T c).bind fun _ _ => (throws_path _ t).bind fun p _ =>
    (throws_properties T n p).bind fun _ _ => throws_ok _
  split_ifs
  · exact (throws_path _ t).bind fun p _ => (throws_properties T n p).bind fun _ _ => (throws_path _ t).bind fun c _ => (throws_coordinate T c).bind fun _ _ => throws_ok _
  · exact (throws_path _ t).bind fun p _ => (throws_properties T n p).bind fun _ _ => (throws_path _ t).bind fun c _ => (throws_coordinates T c).bind fun _ _ => throws_ok _
  · exact hs
  · exact hs
  · exact (throws_path _ t).bind fun p _ => (throws_properties T n p).bind fun _ _ => (throws_path _ t).bind fun c _ => (throws_each (throws_relation T) _).bind fun _ _ => throws_ok _
  · exact throws_throw _

theorem bind_ok {α β : Type} {o : Outcome α} {f : α → Outcome β} {b : β} (h : o.bind f = .ok b) : ∃ a, o = .ok a ∧ f a = .ok b := by
  cases o with
  | ok a => exact ⟨a, rfl, h⟩
  | throw e => cases h
  | ub w => cases h

theorem path_has_one {t a : Tree} {k : String} (h : t.path [k] = .ok a) : Has t k a := by
  obtain ⟨c, h1, h2⟩ := bind_ok h
  cases h2
  exact has_iff h1

theorem path_has_two {t a : Tree} {k l : String} (h : t.path [k, l] = .ok a) : ∃ g, Has t k g ∧ Has g l a := by
  obtain ⟨c, h1, h2⟩ := bind_ok h
  exact ⟨c, has_iff h1, path_has_one h2⟩

theorem each_array {α β : Type} {f : Tree → Outcome α} {R : Tree → β → Prop} (h : ∀ t a, f t = .ok a → ∃ b, R t b) {cs : List (String × Tree)} :
    ∀ {as : List α}, Json.each f cs = .ok as → ∃ bs : List β, List.Forall₂ (fun c b => R c.2 b) cs bs := by
  induction cs with
  | nil => exact fun _ => ⟨[], .nil⟩
  | cons c cs ih =>
    intro as has
    obtain ⟨a, h1, h2⟩ := bind_ok has
    obtain ⟨as, h3, -⟩ := bind_ok h2
    obtain ⟨b, hb⟩ := h _ _ h1
    obtain ⟨bs, hbs⟩ := ih h3
    exact ⟨b :: bs, .cons hb hbs⟩

theorem number_is {t : Tree} {d : D} (h : number T t = .ok d) : IsNumber T.toDouble t d := by
  unfold number at h
  split at h
  · rename_i x hx; cases h; exact hx
  · cases h

theorem coordinate_is {t : Tree} {c : D × D} (h : parseCoordinate T t = .ok c) : ∃ p, IsPosition T.toDouble t p := by
  unfold parseCoordinate at h
  split at h
  · rename_i a b hab
    obtain ⟨x, h1, h2⟩ := bind_ok h
    obtain ⟨y, h3, -⟩ := bind_ok h2
    refine ⟨(x, y), ?_⟩
    unfold IsPosition IsArray
    rw [hab]
    exact .cons (number_is T h1) (.cons (number_is T h3) .nil)
  · cases h

theorem coordinates_is {t : Tree} {cs : List (D × D)} (h : parseCoordinates T t = .ok cs) : ∃ ps, IsArray (IsPosition T.toDouble) t ps := by
  obtain ⟨l, h1, -⟩ := bind_ok h
  exact each_array (fun _ _ => coordinate_is T) h1

theorem relation_is {t : Tree} {es : List (Element (D × D))} (h : parseRelation T t = .ok es) : ∃ rs, IsArray (IsArray (IsPosition T.toDouble)) t rs := by
  refine each_array (R := IsArray (IsPosition T.toDouble)) (fun t e h => ?_) h
  obtain ⟨cs, h1, -⟩ := bind_ok h
  exact coordinates_is T h1

/-- Whatever is accepted is a feature. -/
theorem feature_is {n : UInt32} {t : Tree} {e : Element (D × D)} (h : parseFeature T n t = .ok e) : ∃ f, IsFeature T.toDouble t f := by
  obtain ⟨ty, h1, h2⟩ := bind_ok h
  suffices hs : ∃ p g, t.path ["properties"] = .ok p ∧ ∃ c, t.path ["geometry", "coordinates"] = .ok c ∧ IsGeometry T.toDouble ty.data c g by
    obtain ⟨p, g, hp, c, hc, hg⟩ := hs
    obtain ⟨g1, a1, a2⟩ := path_has_two h1
    obtain ⟨g2, b1, b2⟩ := path_has_two hc
    have he : g1 = g2 := by
      have := (has_child a1).symm.trans (has_child b1)
      exact Outcome.ok.inj this
    subst he
    exact ⟨⟨g, _⟩, ⟨g1, a1, ty, c, a2, b2, hg⟩, p, path_has_one hp, rfl⟩
  have hs : ∀ e, processSimpleRelation T n t = .ok e → ∃ p rs, t.path ["properties"] = .ok p ∧ ∃ c, t.path ["geometry", "coordinates"] = .ok c ∧
      IsArray (IsArray (IsPosition T.toDouble)) c rs := by
    intro e h
    obtain ⟨c, hc, h⟩ := bind_ok h
    obtain ⟨es, he, h⟩ := bind_ok h
    obtain ⟨p, hp, -⟩ := bind_ok h
    obtain ⟨rs, hr⟩ := relation_is T he
    exact ⟨p, rs, hp, c, hc, hr⟩
  split_ifs at h2 with e1 e2 e3 e4 e5
  · obtain ⟨p, hp, h2⟩ := bind_ok h2
    obtain ⟨_, -, h2⟩ := bind_ok h2
    obtain ⟨c, hc, h2⟩ := bind_ok h2
    obtain ⟨x, hx, -⟩ := bind_ok h2
    obtain ⟨q, hq⟩ := coordinate_is T hx
    exact ⟨p, .point q, hp, c, hc, e1, hq⟩
  · obtain ⟨p, hp, h2⟩ := bind_ok h2
    obtain ⟨_, -, h2⟩ := bind_ok h2
    obtain ⟨c, hc, h2⟩ := bind_ok h2
    obtain ⟨x, hx, -⟩ := bind_ok h2
    obtain ⟨q, hq⟩ := coordinates_is T hx
    exact ⟨p, .line q, hp, c, hc, e2, hq⟩
  · obtain ⟨p, rs, hp, c, hc, hr⟩ := hs _ h2
    exact ⟨p, .polygon rs, hp, c, hc, e3, hr⟩
  · obtain ⟨p, rs, hp, c, hc, hr⟩ := hs _ h2
    exact ⟨p, .multiLine rs, hp, c, hc, e4, hr⟩
  · obtain ⟨p, hp, h2⟩ := bind_ok h2
    obtain ⟨_, -, h2⟩ := bind_ok h2
    obtain ⟨c, hc, h2⟩ := bind_ok h2
    obtain ⟨x, hx, -⟩ := bind_ok h2
    obtain ⟨q, hq⟩ := each_array (R := IsArray (IsArray (IsPosition T.toDouble))) (fun _ _ => relation_is T) hx
    exact ⟨p, .multiPolygon q, hp, c, hc, e5, hq⟩

theorem no_feature {t : Tree} (h : ¬ ∃ f, IsFeature T.toDouble t f) (n : UInt32) : ∃ e, parseFeature T n t = .throw e := by
  rcases throws_feature T n t with ⟨e, he⟩ | h'
  · exact absurd (feature_is T he) h
  · exact h'

/-! ## Coordinates -/

theorem points_all (ms : List (Element (ℝ × ℝ))) : ∀ x ∈ ClipperSpec.leavesAll (DiskImport.mapAll geo ms), ∃ m ∈ ms, x ∈ ClipperSpec.leaves (toEl m) := by
  induction ms with
  | nil => simp [DiskImport.mapAll, ClipperSpec.leavesAll]
  | cons m ms ih =>
    intro x hx
    simp only [DiskImport.mapAll, ClipperSpec.leavesAll, List.mem_append] at hx
    rcases hx with hx | hx
    · exact ⟨m, by simp, hx⟩
    · obtain ⟨y, h1, h2⟩ := ih x hx
      exact ⟨y, by simp [h1], h2⟩

theorem points_relation {i t} {ms : List (Element (ℝ × ℝ))} {p : Geo ℝ} (h : p ∈ ClipperSpec.points (toEl (.relation i t ms))) : ∃ m ∈ ms, p ∈ ClipperSpec.points (toEl m) := by
  unfold ClipperSpec.points at h
  simp only [toEl, DiskImport.mapCoords, ClipperSpec.leaves, List.mem_flatMap] at h
  obtain ⟨x, h1, h2⟩ := h
  obtain ⟨m, h3, h4⟩ := points_all ms x h1
  exact ⟨m, h3, List.mem_flatMap.2 ⟨x, h4, h2⟩⟩

theorem swapped {ps : List (ℝ × ℝ)} {p : Geo ℝ} (h : p ∈ (ps.reverse.map Prod.swap).map geo) : ∃ c ∈ ps, p = ⟨c.2, c.1⟩ := by
  simp only [List.map_map, List.mem_map, List.mem_reverse] at h
  obtain ⟨c, h1, h2⟩ := h
  exact ⟨c, h1, h2.symm⟩

theorem piece_points {same id tags ps} {e : Element (ℝ × ℝ)} (h : Piece same id tags ps e) {p : Geo ℝ} (hp : p ∈ ClipperSpec.points (toEl e)) : ∃ c ∈ ps, p = ⟨c.2, c.1⟩ := by
  cases h <;> exact swapped (by simpa [ClipperSpec.points, toEl, DiskImport.mapCoords, ClipperSpec.leaves, ClipperSpec.coords] using hp)

theorem forall₂_right {α β : Type} {R : α → β → Prop} {as : List α} {bs : List β} (h : List.Forall₂ R as bs) : ∀ b ∈ bs, ∃ a ∈ as, R a b := by
  induction h with
  | nil => simp
  | cons h _ ih =>
    intro b hb
    rcases List.mem_cons.1 hb with rfl | hb
    · exact ⟨_, by simp, h⟩
    · obtain ⟨a, h1, h2⟩ := ih b hb
      exact ⟨a, by simp [h1], h2⟩

theorem group_points {same id tags rings} {e : Element (ℝ × ℝ)} (h : Group same id tags rings e) {p : Geo ℝ} (hp : p ∈ ClipperSpec.points (toEl e)) :
    ∃ c ∈ rings.flatten, p = ⟨c.2, c.1⟩ := by
  cases h with
  | single ps e h => simpa using piece_points h hp
  | several rings members h hm =>
    obtain ⟨m, h1, h2⟩ := points_relation hp
    obtain ⟨ps, h3, h4⟩ := forall₂_right hm m h1
    obtain ⟨c, h5, h6⟩ := piece_points h4 h2
    exact ⟨c, List.mem_flatten.2 ⟨ps, h3, h5⟩, h6⟩

theorem delivered_points {same id tags g} {e : Element (ℝ × ℝ)} (h : Delivered same id tags g e) {p : Geo ℝ} (hp : p ∈ ClipperSpec.points (toEl e)) :
    ∃ c ∈ positions g, p = ⟨c.2, c.1⟩ := by
  cases h with
  | point q => exact ⟨q, by simp [positions], by simpa [ClipperSpec.points, toEl, DiskImport.mapCoords, ClipperSpec.leaves, ClipperSpec.coords, geo] using hp⟩
  | line ps => exact swapped (ps := ps) (by simpa [ClipperSpec.points, toEl, DiskImport.mapCoords, ClipperSpec.leaves, ClipperSpec.coords] using hp)
  | polygon rings e h => exact group_points h hp
  | multiLine rings e h => exact group_points h hp
  | multiPolygon polygons members h =>
    obtain ⟨m, h1, h2⟩ := points_relation hp
    obtain ⟨ps, h3, h4⟩ := forall₂_right h m h1
    obtain ⟨c, h5, h6⟩ := group_points h4 h2
    refine ⟨c, ?_, h6⟩
    obtain ⟨r, h7, h8⟩ := List.mem_flatten.1 h5
    exact List.mem_flatten.2 ⟨r, List.mem_flatten.2 ⟨ps, h3, h7⟩, h8⟩

/-- What is delivered for features on the globe. -/
theorem shows_of {T : Tools ℝ} {xs : List (String × Feature ℝ)} {ds : List (Element (ℝ × ℝ))} (h : List.Forall₂ (fun (x : String × Feature ℝ) e => ∃ id tags, IdOf T.toId x.2.properties id ∧
      TagsOf T.getId x.1 x.2.properties tags ∧ Delivered T.same id tags x.2.geometry e) xs ds) (hx : ∀ x ∈ xs, OnEarth x.2) :
    List.Forall₂ (Shows T) xs (ds.map toEl) ∧ ∀ e ∈ ds.map toEl, ∀ p ∈ ClipperSpec.points e, OnGlobe p := by
  constructor
  · rw [List.forall₂_map_right_iff]
    exact h.imp fun x d ⟨id, tags, h1, h2, h3⟩ => ⟨id, tags, d, h1, h2, h3, rfl⟩
  · intro e he p hp
    obtain ⟨d, hd, rfl⟩ := List.mem_map.1 he
    obtain ⟨x, h1, id, tags, -, -, h2⟩ := forall₂_right h d hd
    obtain ⟨c, h3, rfl⟩ := delivered_points h2 hp
    exact hx x h1 c h3

end JsonImportProof

open JsonImportProof DirectProof

variable {K : Type} [LinearOrder K]

/-- C104: a GeoJSON file which is written as it should be is imported, and afterwards every tile shows, besides what it has shown before, exactly the features of the file which belong
there: each of them once, with its id, the tags of its properties and the name of its collection, at the positions which are written, clipped if the stylesheet wants that. The stores
under other keys are as before, and all stores can be used and imported into again. Partial: what C58 excludes here and there, the stores are in memory, and reading the JSON text is not
modelled. -/
theorem C104_import_partial (T : Tools ℝ) (hid : ∀ k, T.getId k = T.getId "id" → k = "id") (hsort : OsmSpec.Sorts T.sort) (env : Env) (tokens : El → List UInt32)
    {m : GeoStore.Map K (MemStore.Store El)} {A : Stores K (MemStore.Store El)} (hm : Abs m A) (hu : Used tokens A) {k : K} {s : MemStore.Store El} (hk : A k = some s)
    {target : Target} (ht : Sensible target) {t : Tree} {cs : List (String × List (Feature ℝ))} (hd : IsDocument T.toDouble t cs) (hp : Proper T.toId cs) :
    ∃ m' s' els, importJson (memIface tokens) T env m k target (some t) = (m', .done) ∧ Abs m' (update A k s') ∧ Used tokens (update A k s') ∧
      List.Forall₂ (Shows T) (features cs) els ∧
      ∀ q, ∃ old new, (GeoStore.step (memIface tokens) m (.tile q)).2 = .elements old ∧ (GeoStore.step (memIface tokens) m' (.tile q)).2 = .elements new ∧
        new.Perm (old ++ els.filterMap (seen env.eng env.style target q)) := by
  obtain ⟨ds, h1, h2⟩ := collections_append T hid hsort t [] t.children [] cs (by simp) hd hp.plain hp.distinct (by simp) hp.ids
  simp only [List.append_nil, collections] at h1
  obtain ⟨h3, h4⟩ := shows_of h2 (by
    intro x hx
    obtain ⟨c, hc, hx⟩ := List.mem_flatMap.1 hx
    obtain ⟨f, hf, rfl⟩ := List.mem_map.1 hx
    exact hp.earth c hc f hf)
  obtain ⟨m', s', a1, a2, a3, a4⟩ := told_mem env tokens hm hu hk ht (ds.map toEl, .ok ()) h4
  exact ⟨m', s', ds.map toEl, by rw [importJson, jsonTold, h1]; exact a1, a2, a3, h3, a4⟩

/-- C104 is false for files which are refused: importing a file which breaks off, which is one with a tree which is no feature (the types MultiPoint and GeometryCollection of GeoJSON
among them, see the example), fails with an exception, but all features before this tree are stored: afterwards every tile shows them, too. -/
theorem C104_violated_refused (T : Tools ℝ) (hid : ∀ k, T.getId k = T.getId "id" → k = "id") (hsort : OsmSpec.Sorts T.sort) (env : Env) (tokens : El → List UInt32)
    {m : GeoStore.Map K (MemStore.Store El)} {A : Stores K (MemStore.Store El)} (hm : Abs m A) (hu : Used tokens A) {k : K} {s : MemStore.Store El} (hk : A k = some s)
    {target : Target} (ht : Sensible target) {t : Tree} {cs : List (String × List (Feature ℝ))} {name : String} {fs : List (Feature ℝ)} (hd : Broken T.toDouble t cs name fs)
    (hp : Proper T.toId (cs ++ [(name, fs)])) :
    ∃ m' s' els e, importJson (memIface tokens) T env m k target (some t) = (m', .failed (.throw e)) ∧ Abs m' (update A k s') ∧ Used tokens (update A k s') ∧
      List.Forall₂ (Shows T) (features (cs ++ [(name, fs)])) els ∧
      ∀ q, ∃ old new, (GeoStore.step (memIface tokens) m (.tile q)).2 = .elements old ∧ (GeoStore.step (memIface tokens) m' (.tile q)).2 = .elements new ∧
        new.Perm (old ++ els.filterMap (seen env.eng env.style target q)) := by
  obtain ⟨d, before, c, after, rfl, hbefore, l, good, bad, rest, hl, hch, hgood, hbad⟩ := hd.tree
  have hn : (cs.map Prod.fst).Nodup ∧ name ∉ cs.map Prod.fst := by
    have := hp.distinct
    rw [List.map_append, List.nodup_append] at this
    exact ⟨this.1, fun h => this.2.2 _ h name (by simp) rfl⟩
  obtain ⟨ds, h1, h2⟩ := collections_append T hid hsort (.mk d (before ++ (name, c) :: after)) [] before ((name, c) :: after) cs rfl hbefore
    (fun x hx => hp.plain x (by simp [hx])) hn.1 (by simp) (fun x hx => hp.ids x (by simp [hx]))
  obtain ⟨es, h3, h4⟩ := features_append T hid hsort name hgood (hp.ids (name, fs) (by simp)) (bad :: rest)
  obtain ⟨e, he⟩ := no_feature T hbad (T.getId name)
  have hhas : Has (.mk d (before ++ (name, c) :: after)) name c := by
    refine .mk d before name c after fun b hb h => hn.2 ?_
    obtain ⟨x, hx, hxb⟩ : ∃ x ∈ cs, b.1 = x.1 := by
      have hb2 : List.Forall₂ (fun (c : String × Tree) (x : String × List (Feature ℝ)) => c.1 = x.1) before cs := List.Forall₂.imp (fun _ _ h => h.1) hbefore
      clear * - hb2 hb
      induction hb2 with
      | nil => simp at hb
      | cons h1 _ ih =>
        rcases List.mem_cons.1 hb with rfl | hb
        · exact ⟨_, by simp, h1⟩
        · obtain ⟨x, h2, h3⟩ := ih hb
          exact ⟨x, by simp [h2], h3⟩
    exact List.mem_map.2 ⟨x, hx, by rw [← hxb, h]⟩
  have hc : collections T (.mk d (before ++ (name, c) :: after)) ((name, c) :: after) = (es, .throw e) := by
    rw [collections, JsonProof.segments_plain (hp.plain (name, fs) (by simp)), JsonProof.path_one hhas]
    simp only [DirectImport.after, JsonProof.path_one hl, hch, h3, DirectImport.each, featureTold, he, Outcome.bind, Told.andThen, List.append_nil]
  obtain ⟨h5, h6⟩ := shows_of (List.rel_append h2 h4) (by
    intro x hx
    rcases List.mem_append.1 hx with hx | hx
    · obtain ⟨y, hy, hx⟩ := List.mem_flatMap.1 hx
      obtain ⟨f, hf, rfl⟩ := List.mem_map.1 hx
      exact hp.earth y (by simp [hy]) f hf
    · obtain ⟨f, hf, rfl⟩ := List.mem_map.1 hx
      exact hp.earth (name, fs) (by simp) f hf)
  obtain ⟨m', s', a1, a2, a3, a4⟩ := told_mem env tokens hm hu hk ht ((ds ++ es).map toEl, .throw e) h6
  refine ⟨m', s', (ds ++ es).map toEl, e, ?_, a2, a3, ?_, a4⟩
  · rw [importJson, jsonTold, Tree.children, h1, hc]
    exact a1
  · unfold features
    rw [List.flatMap_append]
    simpa using h5

/-- C104: a text which is no JSON leaves all tiles as they were, and the failure is reported. -/
theorem C104_text (T : Tools ℝ) (env : Env) (tokens : El → List UInt32)
    {m : GeoStore.Map K (MemStore.Store El)} {A : Stores K (MemStore.Store El)} (hm : Abs m A) (hu : Used tokens A) {k : K} {s : MemStore.Store El} (hk : A k = some s)
    {target : Target} (ht : Sensible target) :
    ∃ m' s' e, importJson (memIface tokens) T env m k target none = (m', .failed (.throw e)) ∧ Abs m' (update A k s') ∧ Used tokens (update A k s') ∧
      ∀ q, ∃ old new, (GeoStore.step (memIface tokens) m (.tile q)).2 = .elements old ∧ (GeoStore.step (memIface tokens) m' (.tile q)).2 = .elements new ∧ new.Perm old := by
  obtain ⟨m', s', a1, a2, a3, a4⟩ := told_mem env tokens hm hu hk ht ([], .throw "json_parser_error") (by simp)
  exact ⟨m', s', _, a1, a2, a3, fun q => by simpa using a4 q⟩

namespace JsonImportExample
open JsonExample (feature position)

/-- Tools for the examples. -/
noncomputable def tools : Tools ℝ where
  getId := JsonExample.tools.getId
  toDouble s := if s = "0" then some 0 else if s = "1" then some 1 else none
  toId := JsonExample.tools.toId
  sort := JsonExample.tools.sort
  same a b := Osm.geoEq 1 (geo a) (geo b)

theorem position_is (a b : String) (x y : ℝ) (ha : tools.toDouble a = some x) (hb : tools.toDouble b = some y) :
    IsPosition tools.toDouble (position a b) (x, y) := .cons ha (.cons hb .nil)

theorem feature_is (type : String) (coordinates : Tree) (g : Geometry ℝ) (h : IsGeometry tools.toDouble type coordinates g) :
    IsFeature tools.toDouble (feature type coordinates []) ⟨g, []⟩ where
  geometry := ⟨_, .mk "" [("type", .leaf "Feature"), ("properties", .mk "" [])] "geometry" _ [] (by simp), .leaf type, coordinates,
    .mk "" [] "type" _ [("coordinates", coordinates)] (by simp), .mk "" [("type", .leaf type)] "coordinates" _ [] (by simp), h⟩
  properties := ⟨_, .mk "" [("type", .leaf "Feature")] "properties" _ _ (by simp), rfl⟩

/-- A valid feature of GeoJSON which is not accepted. -/
theorem multiPoint (c : Tree) : ¬ ∃ f, IsFeature tools.toDouble (feature "MultiPoint" c []) f := by
  rintro ⟨f, ⟨g, h1, ty, c', h2, h3, h4⟩, -⟩
  have e1 := JsonProof.has_child h1
  simp only [feature, Tree.child, Tree.children] at e1
  simp at e1
  subst e1
  have e2 := JsonProof.has_child h2
  simp only [Tree.child, Tree.children] at e2
  simp at e2
  subst e2
  cases hg : f.geometry <;> rw [hg] at h4 <;> exact absurd h4.1 (by simp [Tree.leaf, Tree.data])

theorem globe {x y : ℝ} (hx : x = 0 ∨ x = 1) (hy : y = 0 ∨ y = 1) : OnGlobe (⟨x, y⟩ : Geo ℝ) := by
  unfold OnGlobe
  rcases hx with rfl | rfl <;> rcases hy with rfl | rfl <;> norm_num

theorem proper : Proper tools.toId [("water", [⟨.point (1, 0), []⟩, ⟨.line [(0, 0), (1, 1)], []⟩])] where
  plain := by simp [Plain]
  distinct := by simp
  ids := by
    intro c hc f hf
    simp only [List.mem_singleton] at hc
    subst hc
    refine ⟨0, .inl ⟨?_, rfl⟩⟩
    simp only [List.mem_cons, List.not_mem_nil, or_false] at hf
    rcases hf with rfl | rfl <;> simp
  earth := by
    intro c hc f hf
    simp only [List.mem_singleton] at hc
    subst hc
    simp only [List.mem_cons, List.not_mem_nil, or_false] at hf
    rcases hf with rfl | rfl <;> intro p hp <;> simp only [positions, List.mem_cons, List.not_mem_nil, or_false] at hp
    · subst hp; exact globe (by simp) (by simp)
    · rcases hp with rfl | rfl <;> exact globe (by simp) (by simp)

theorem trees : List.Forall₂ (fun c f => IsFeature tools.toDouble (Prod.snd c) f)
    [("", feature "Point" (position "1" "0") []), ("", feature "LineString" (.mk "" [("", position "0" "0"), ("", position "1" "1")]) [])]
    [⟨.point (1, 0), []⟩, ⟨.line [(0, 0), (1, 1)], []⟩] :=
  .cons (feature_is _ _ _ ⟨rfl, position_is _ _ _ _ (by simp [tools]) (by simp [tools])⟩)
    (.cons (feature_is _ _ _ ⟨rfl, .cons (position_is _ _ _ _ (by simp [tools]) (by simp [tools])) (.cons (position_is _ _ _ _ (by simp [tools]) (by simp [tools])) .nil)⟩) .nil)

end JsonImportExample

open JsonImportExample

/-- A document with a point and a line meets the hypotheses of `C104_import_partial`. -/
example : IsDocument tools.toDouble (JsonExample.document [("water", [JsonExample.feature "Point" (JsonExample.position "1" "0") [],
      JsonExample.feature "LineString" (.mk "" [("", JsonExample.position "0" "0"), ("", JsonExample.position "1" "1")]) []])])
      [("water", [⟨.point (1, 0), []⟩, ⟨.line [(0, 0), (1, 1)], []⟩])] ∧
    Proper tools.toId [("water", [⟨.point (1, 0), []⟩, ⟨.line [(0, 0), (1, 1)], []⟩])] :=
  ⟨.cons ⟨rfl, _, .mk "" [("type", .leaf "FeatureCollection")] "features" _ [] (by simp), trees⟩ .nil, proper⟩

/-- The same with a feature of the type MultiPoint at the end meets those of `C104_violated_refused`. -/
example (c : Tree) : Broken tools.toDouble (JsonExample.document [("water", [JsonExample.feature "Point" (JsonExample.position "1" "0") [],
      JsonExample.feature "LineString" (.mk "" [("", JsonExample.position "0" "0"), ("", JsonExample.position "1" "1")]) [], JsonExample.feature "MultiPoint" c []])])
      [] "water" [⟨.point (1, 0), []⟩, ⟨.line [(0, 0), (1, 1)], []⟩] :=
  ⟨⟨"", [], _, [], rfl, .nil, _, _, ("", JsonExample.feature "MultiPoint" c []), [], .mk "" [("type", .leaf "FeatureCollection")] "features" _ [] (by simp), rfl, trees, multiPoint c⟩⟩

end Verif.Props
