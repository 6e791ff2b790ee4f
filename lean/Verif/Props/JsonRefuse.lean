import Verif.Props.Json

/-! # GeoJSON documents which are refused (C58) -/
namespace Verif.Props
open Verif.Json Verif.JsonSpec

namespace JsonRefuseProof
variable {D : Type} (T : Tools D)

/-- The call returned or threw an exception. -/
def Defined {α : Type} (x : Outcome α) : Prop := ∀ w, x ≠ .ub w

theorem defined_bind {α β : Type} {x : Outcome α} {f : α → Outcome β} (hx : Defined x) (hf : ∀ a, Defined (f a)) : Defined (x.bind f) := by
  intro w h
  cases x with
  | ok a => exact hf a w h
  | throw e => cases h
  | ub v => exact hx v rfl

theorem defined_ok {α : Type} (a : α) : Defined (.ok a) := nofun

theorem defined_throw {α : Type} (e : String) : Defined (.throw e : Outcome α) := nofun

theorem defined_child (t : Tree) (k : String) : Defined (t.child k) := by
  unfold Tree.child
  split
  · exact defined_ok _
  · exact defined_throw _

theorem defined_path (t : Tree) (ks : List String) : Defined (t.path ks) := by
  induction ks generalizing t with
  | nil => exact defined_ok _
  | cons k ks ih => exact defined_bind (defined_child t k) fun c => ih c

theorem defined_each {α : Type} {f : Tree → Outcome α} (hf : ∀ t, Defined (f t)) (l : List (String × Tree)) : Defined (each f l) := by
  induction l with
  | nil => exact defined_ok _
  | cons c cs ih => exact defined_bind (hf _) fun _ => defined_bind ih fun _ => defined_ok _

theorem defined_number (t : Tree) : Defined (number T t) := by
  unfold number
  split
  · exact defined_ok _
  · exact defined_throw _

theorem defined_coordinate (t : Tree) : Defined (parseCoordinate T t) := by
  unfold parseCoordinate
  split
  · exact defined_bind (defined_number T _) fun _ => defined_bind (defined_number T _) fun _ => defined_ok _
  · exact defined_throw _

theorem defined_coordinates (t : Tree) : Defined (parseCoordinates T t) := defined_bind (defined_each (defined_coordinate T) _) fun _ => defined_ok _

theorem defined_relation (t : Tree) : Defined (parseRelation T t) := defined_each (fun t => defined_bind (defined_coordinates T t) fun _ => defined_ok _) _

theorem defined_id (v : List Char) : Defined (parseId T v) := by
  unfold parseId
  split
  · exact defined_ok _
  · split
    · exact defined_ok _
    · exact defined_throw _

theorem defined_loop (id : UInt64) (tags : List Tag) (l : List (String × Tree)) : Defined (propertyLoop T id tags l) := by
  induction l generalizing id tags with
  | nil => exact defined_ok _
  | cons c cs ih =>
    rw [propertyLoop]
    split
    · exact defined_bind (defined_id T _) fun _ => ih _ _
    · exact ih _ _

theorem defined_properties (n : UInt32) (t : Tree) : Defined (parseProperties T n t) := defined_bind (defined_loop T _ _ _) fun _ => defined_ok _

theorem defined_feature (n : UInt32) (t : Tree) : Defined (parseFeature T n t) := by
  refine defined_bind (defined_path _ _) fun type => ?_
  have hs : Defined (processSimpleRelation T n t) :=
    defined_bind (defined_path _ _) fun _ => defined_bind (defined_relation T _) fun _ => defined_bind (defined_path _ _) fun _ => defined_bind (defined_properties T _ _) fun _ => defined_ok _
  split
  · exact defined_bind (defined_path _ _) fun _ => defined_bind (defined_properties T _ _) fun _ => defined_bind (defined_path _ _) fun _ => defined_bind (defined_coordinate T _) fun _ => defined_ok _
  split
  · exact defined_bind (defined_path _ _) fun _ => defined_bind (defined_properties T _ _) fun _ => defined_bind (defined_path _ _) fun _ => defined_bind (defined_coordinates T _) fun _ => defined_ok _
  split
  · exact hs
  split
  · exact hs
  split
  · exact defined_bind (defined_path _ _) fun _ => defined_bind (defined_properties T _ _) fun _ => defined_bind (defined_path _ _) fun _ =>
      defined_bind (defined_each (defined_relation T) _) fun _ => defined_ok _
  · exact defined_throw _

theorem defined_collections (t : Tree) (l : List (String × Tree)) : Defined (parseCollections T t l) := by
  induction l with
  | nil => exact defined_ok _
  | cons c cs ih =>
    exact defined_bind (defined_path _ _) fun _ => defined_bind (defined_path _ _) fun _ => defined_bind (defined_each (defined_feature T _) _) fun _ =>
      defined_bind ih fun _ => defined_ok _

theorem bind_ok {α β : Type} {x : Outcome α} {f : α → Outcome β} {b : β} (h : x.bind f = .ok b) : ∃ a, x = .ok a ∧ f a = .ok b := by
  cases x with
  | ok a => exact ⟨a, rfl, h⟩
  | throw e => cases h
  | ub w => cases h

theorem has_of_child {t v : Tree} {k : String} (h : t.child k = .ok v) : Has t k v := by
  obtain ⟨d, cs⟩ := t
  unfold Tree.child at h
  cases hf : cs.find? (fun c => c.1 = k) with
  | none => simp [Tree.children, hf] at h
  | some c =>
    obtain ⟨c1, as, bs, rfl, h2⟩ := List.find?_eq_some_iff_append.1 hf
    simp only [Tree.children, hf, Outcome.ok.injEq] at h
    obtain ⟨n, c⟩ := c
    simp only [decide_eq_true_eq] at c1 h
    subst c1 h
    exact .mk d as _ _ bs fun a ha => by simpa using h2 a ha

theorem has_of_path {t v : Tree} {k : String} (h : t.path [k] = .ok v) : Has t k v := by
  obtain ⟨a, h1, h2⟩ := bind_ok h
  cases h2
  exact has_of_child h1

theorem has_two {t v : Tree} {k l : String} (h : t.path [k, l] = .ok v) : ∃ a, Has t k a ∧ Has a l v := by
  obtain ⟨a, h1, h2⟩ := bind_ok h
  exact ⟨a, has_of_child h1, has_of_path h2⟩

theorem has_unique {t a b : Tree} {k : String} (h1 : Has t k a) (h2 : Has t k b) : a = b := by
  have h3 := JsonProof.has_child h1
  rw [JsonProof.has_child h2] at h3
  cases h3
  rfl

theorem array_of_each {α β : Type} {f : Tree → Outcome β} {R : Tree → α → Prop} (hf : ∀ t b, f t = .ok b → ∃ a, R t a) {t : Tree} {bs : List β} (h : each f t.children = .ok bs) :
    ∃ as, IsArray R t as := by
  unfold IsArray
  generalize t.children = l at h ⊢
  induction l generalizing bs with
  | nil => exact ⟨[], .nil⟩
  | cons c cs ih =>
    obtain ⟨b, h1, h2⟩ := bind_ok h
    obtain ⟨rest, h3, -⟩ := bind_ok h2
    obtain ⟨a, ha⟩ := hf _ _ h1
    obtain ⟨as, has⟩ := ih h3
    exact ⟨a :: as, .cons ha has⟩

theorem position_of {t : Tree} {p : D × D} (h : parseCoordinate T t = .ok p) : ∃ q, IsPosition T.toDouble t q := by
  unfold parseCoordinate at h
  split at h
  · rename_i a b hc
    obtain ⟨x, h1, h2⟩ := bind_ok h
    obtain ⟨y, h3, -⟩ := bind_ok h2
    have num : ∀ {t : Tree} {d : D}, number T t = .ok d → T.toDouble t.data = some d := by
      intro t d h
      unfold number at h
      split at h
      · cases h; assumption
      · cases h
    refine ⟨(x, y), ?_⟩
    unfold IsPosition IsArray
    rw [hc]
    exact .cons (num h1) (.cons (num h3) .nil)
  · cases h

theorem positions_of {t : Tree} {ps : List (D × D)} (h : parseCoordinates T t = .ok ps) : ∃ qs, IsArray (IsPosition T.toDouble) t qs := by
  obtain ⟨cs, h1, -⟩ := bind_ok h
  exact array_of_each (fun t b => position_of T) h1

theorem rings_of {t : Tree} {es : List (Element (D × D))} (h : parseRelation T t = .ok es) : ∃ rs, IsArray (IsArray (IsPosition T.toDouble)) t rs :=
  array_of_each (fun t b hb => by
    obtain ⟨cs, h1, -⟩ := bind_ok hb
    exact positions_of T h1) h

theorem feature_of {n : UInt32} {t : Tree} {e : Element (D × D)} (h : parseFeature T n t = .ok e) : ∃ f, IsFeature T.toDouble t f := by
  obtain ⟨ty, h1, h2⟩ := bind_ok h
  obtain ⟨g, hg, hty⟩ := has_two h1
  have fin : ∀ {c p : Tree} {x : Geometry D}, t.path ["geometry", "coordinates"] = .ok c → t.path ["properties"] = .ok p → IsGeometry T.toDouble ty.data c x →
      ∃ f, IsFeature T.toDouble t f := by
    intro c p x hc hp hx
    obtain ⟨g', hg', hc'⟩ := has_two hc
    cases has_unique hg hg'
    exact ⟨⟨x, p.children.map fun c => (c.1, c.2.data)⟩, ⟨g, hg, ty, c, hty, hc', hx⟩, p, has_of_path hp, rfl⟩
  have hs : ∀ {e}, processSimpleRelation T n t = .ok e → ∃ c p rs, t.path ["geometry", "coordinates"] = .ok c ∧ t.path ["properties"] = .ok p ∧
      IsArray (IsArray (IsPosition T.toDouble)) c rs := by
    intro e h
    obtain ⟨c, hc, h⟩ := bind_ok h
    obtain ⟨es, h3, h⟩ := bind_ok h
    obtain ⟨p, hp, -⟩ := bind_ok h
    obtain ⟨rs, hr⟩ := rings_of T h3
    exact ⟨c, p, rs, hc, hp, hr⟩
  split at h2
  · obtain ⟨p, hp, h⟩ := bind_ok h2
    obtain ⟨it, -, h⟩ := bind_ok h
    obtain ⟨c, hc, h⟩ := bind_ok h
    obtain ⟨q, h3, -⟩ := bind_ok h
    obtain ⟨q, hq⟩ := position_of T h3
    exact fin (x := .point q) hc hp ⟨by assumption, hq⟩
  split at h2
  · obtain ⟨p, hp, h⟩ := bind_ok h2
    obtain ⟨it, -, h⟩ := bind_ok h
    obtain ⟨c, hc, h⟩ := bind_ok h
    obtain ⟨q, h3, -⟩ := bind_ok h
    obtain ⟨q, hq⟩ := positions_of T h3
    exact fin (x := .line q) hc hp ⟨by assumption, hq⟩
  split at h2
  · obtain ⟨c, p, rs, hc, hp, hr⟩ := hs h2
    exact fin (x := .polygon rs) hc hp ⟨by assumption, hr⟩
  split at h2
  · obtain ⟨c, p, rs, hc, hp, hr⟩ := hs h2
    exact fin (x := .multiLine rs) hc hp ⟨by assumption, hr⟩
  split at h2
  · obtain ⟨p, hp, h⟩ := bind_ok h2
    obtain ⟨it, -, h⟩ := bind_ok h
    obtain ⟨c, hc, h⟩ := bind_ok h
    obtain ⟨q, h3, -⟩ := bind_ok h
    obtain ⟨q, hq⟩ := array_of_each (fun t b => rings_of T) h3
    exact fin (x := .multiPolygon q) hc hp ⟨by assumption, hq⟩
  · cases h2

end JsonRefuseProof

open JsonRefuseProof
variable {D : Type}

/-- C58: a property tree is either delivered or refused with an exception, for every tree. -/
theorem C58_defined (T : Tools D) (t : Tree) : (∃ es, parse T t = .ok es) ∨ ∃ e, parse T t = .throw e := by
  cases h : parse T t with
  | ok es => exact .inl ⟨es, rfl⟩
  | throw e => exact .inr ⟨e, rfl⟩
  | ub w => exact absurd h (defined_collections T t t.children w)

/-- C58: a document is refused with an exception if one of its collections (with a name without dot) has no features, or one of the features is not one:
its geometry has another type or no coordinates, its coordinates have the wrong depth, a position has not two numbers or one which cannot be read, or
there are no properties. -/
theorem C58_refused (T : Tools D) (t : Tree) (name : String) (sub : Tree) (hmem : (name, sub) ∈ t.children) (hplain : Plain name)
    (hbad : ¬ ∃ col fs feats, Has t name col ∧ Has col "features" fs ∧ IsArray (IsFeature T.toDouble) fs feats) : ∃ e, parse T t = .throw e := by
  rcases C58_defined T t with ⟨es, h⟩ | h
  · refine absurd ?_ hbad
    unfold parse at h
    generalize t.children = l at h hmem
    induction l generalizing es with
    | nil => cases hmem
    | cons c cs ih =>
      obtain ⟨col, h1, h⟩ := bind_ok h
      obtain ⟨fs, h2, h⟩ := bind_ok h
      obtain ⟨e1, h3, h⟩ := bind_ok h
      obtain ⟨e2, h4, -⟩ := bind_ok h
      rcases List.mem_cons.1 hmem with hc | hc
      · obtain ⟨n, s⟩ := c
        cases hc
        rw [JsonProof.segments_plain hplain] at h1
        obtain ⟨feats, hf⟩ := array_of_each (fun t b => feature_of T) h3
        exact ⟨col, fs, feats, has_of_path h1, has_of_path h2, hf⟩
      · exact ih _ h4 hc
  · exact h

/-- A document with a point whose latitude is not a number is refused. -/
example : ∃ e, parse JsonExample.tools (JsonExample.document [("water", [JsonExample.feature "Point" (JsonExample.position "1" "north") []])]) = .throw e := by
  refine C58_refused _ _ "water" _ List.mem_cons_self (by simp [Plain]) ?_
  rintro ⟨col, fs, feats, h1, h2, h3⟩
  have e1 : Has (JsonExample.document [("water", [JsonExample.feature "Point" (JsonExample.position "1" "north") []])]) "water" _ := .mk "" [] "water" _ [] (by simp)
  cases has_unique h1 e1
  cases has_unique h2 (.mk "" [("type", .leaf "FeatureCollection")] "features" _ [] (by simp))
  cases h3 with
  | cons hf _ =>
    obtain ⟨⟨g, hg, ty, c, hty, hc, hx⟩, -⟩ := hf
    cases has_unique hg (.mk "" [("type", .leaf "Feature"), ("properties", .mk "" [])] "geometry" _ [] (by simp))
    cases has_unique hty (.mk "" [] "type" _ _ (by simp))
    cases has_unique hc (.mk "" [("type", .leaf "Point")] "coordinates" _ [] (by simp))
    rename_i f _ _
    cases hgeo : f.geometry with
    | point p =>
      rw [hgeo] at hx
      cases hx.2 with
      | cons _ h => cases h with
        | cons h _ => exact absurd h (by simp [IsNumber, JsonExample.tools, Tree.leaf, Tree.data])
    | _ =>
      rw [hgeo] at hx
      exact absurd hx.1 (by simp [Tree.leaf, Tree.data])

end Verif.Props
