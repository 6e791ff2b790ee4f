import Verif.Props.JsonSpec
import Verif.Props.OsmSpec
import Verif.Props.Strings
import Mathlib.Tactic.Conv
import Mathlib.Tactic.Tauto
import Mathlib.Tactic.ByContra
import Mathlib.Data.Prod.Basic

/-! # C58: GeoJSON features -/
namespace Verif.Props
open Verif.Json Verif.JsonSpec

namespace JsonProof

variable {D : Type} (T : Tools D)

theorem has_child {t k v} (h : Has t k v) : t.child k = .ok v := by
  cases h with
  | mk d before _ _ after h =>
    unfold Tree.child Tree.children
    have : before.find? (fun c => decide (c.1 = k)) = none := by
      rw [List.find?_eq_none]
      intro c hc
      simpa using h c hc
    simp [List.find?_append, this]

theorem each_ok {α β : Type} (f : Tree → Outcome β) (R : Tree → α → Prop) (S : α → β → Prop)
    (h : ∀ t a, R t a → ∃ b, f t = .ok b ∧ S a b) {cs : List (String × Tree)} {as : List α}
    (hs : List.Forall₂ (fun c a => R c.2 a) cs as) : ∃ bs, each f cs = .ok bs ∧ List.Forall₂ S as bs := by
  induction hs with
  | nil => exact ⟨[], rfl, .nil⟩
  | cons hr _ ih =>
    obtain ⟨b, hb, sb⟩ := h _ _ hr
    obtain ⟨bs, hbs, sbs⟩ := ih
    exact ⟨b :: bs, by rw [each, hb, hbs]; rfl, .cons sb sbs⟩

theorem coordinate {t p} (h : IsPosition T.toDouble t p) : parseCoordinate T t = .ok p.swap := by
  obtain ⟨d, cs⟩ := t
  unfold IsPosition IsArray at h
  simp only [Tree.children] at h
  cases h with
  | cons h1 h' =>
    cases h' with
    | cons h2 h'' =>
      cases h''
      unfold IsNumber at h1 h2
      simp [parseCoordinate, Tree.children, number, h1, h2, Outcome.bind, Prod.swap]

theorem coordinates {t ps} (h : IsArray (IsPosition T.toDouble) t ps) : parseCoordinates T t = .ok (ps.reverse.map Prod.swap) := by
  obtain ⟨bs, h1, h2⟩ := each_ok (parseCoordinate T) (IsPosition T.toDouble) (fun p c => c = p.swap) (fun t a ht => ⟨_, coordinate T ht, rfl⟩) h
  have : bs = ps.map Prod.swap := by
    clear h h1
    induction h2 with
    | nil => rfl
    | cons h _ ih => rw [h, ih]; rfl
  rw [parseCoordinates, h1, this, List.map_reverse]
  rfl

theorem ring (ps : List (D × D)) : Piece T.same 0 [] ps (ringElement T (ps.reverse.map Prod.swap)) := by
  by_cases hl : ps.length < 4
  · have : ringElement T (ps.reverse.map Prod.swap) = .way 0 [] (ps.reverse.map Prod.swap) := by
      unfold ringElement
      split
      · rw [if_neg]
        simp
        omega
      · rfl
    rw [this]
    exact .short hl
  · have hlen : (ps.reverse.map Prod.swap).length = ps.length := by simp
    cases hq : ps.reverse.map Prod.swap with
    | nil => rw [hq] at hlen; simp at hlen; omega
    | cons first rest =>
      have hne : rest ≠ [] := by
        rintro rfl
        rw [hq] at hlen
        simp at hlen
        omega
      have hr := List.dropLast_append_getLast hne
      have hq2 : ps.reverse.map Prod.swap = first :: rest.dropLast ++ [rest.getLast hne] := by rw [hq, List.cons_append, hr]
      have hlast : (first :: rest).getLast? = some (rest.getLast hne) := by
        rw [List.getLast?_cons, List.getLast?_eq_getLast_of_ne_nil hne]
        rfl
      have e : ringElement T (first :: rest) = if (first :: rest).length > 3 ∧ T.same first (rest.getLast hne) = true
          then .area 0 [] (first :: rest) else .way 0 [] (first :: rest) := by
        unfold ringElement
        rw [hlast]
        rfl
      rw [e]
      rw [hq] at hlen
      by_cases hs : T.same first (rest.getLast hne) = true
      · rw [if_pos ⟨by omega, hs⟩, ← hq]
        exact .area _ _ _ hq2 hs (by omega)
      · rw [if_neg (by tauto), ← hq]
        exact .open _ _ _ hq2 (by simpa using hs)

theorem piece_with {ps : List (D × D)} {e} (h : Piece T.same 0 [] ps e) (id tags) : Piece T.same id tags ps ((e.withId id).withTags tags) := by
  cases h with
  | area a b c d e f => exact .area a b c d e f
  | «open» a b c d e => exact .open a b c d e
  | short a => exact .short a

theorem relation {t rings} (h : IsArray (IsArray (IsPosition T.toDouble)) t rings) :
    ∃ es, parseRelation T t = .ok es ∧ List.Forall₂ (Piece T.same 0 []) rings es :=
  each_ok _ (IsArray (IsPosition T.toDouble)) (Piece T.same 0 [])
    (fun t a ht => ⟨_, by rw [coordinates T ht]; rfl, ring T a⟩) h

theorem loop_plain (hid : ∀ k, T.getId k = T.getId "id" → k = "id") (id : UInt64) (tags : List Tag) (l rest : List (String × Tree))
    (h : ∀ c ∈ l, c.1 ≠ "id") :
    propertyLoop T id tags (l ++ rest) = propertyLoop T id (tags ++ l.map fun c => ⟨T.getId c.1, T.getId c.2.data⟩) rest := by
  induction l generalizing tags with
  | nil => simp
  | cons c l ih =>
    have hc : T.getId c.1 ≠ T.getId "id" := fun e => h c List.mem_cons_self (hid _ e)
    rw [List.cons_append, propertyLoop, if_neg hc, ih _ fun c' h' => h c' (List.mem_cons_of_mem _ h')]
    simp

theorem parseId_ok {value digits : List Char} {id} (h1 : digits ≠ []) (h2 : digits.head? ≠ some '-') (h3 : value = digits ∨ value = '-' :: digits)
    (h4 : T.toId digits = some id) : parseId T value = .ok id := by
  rcases h3 with rfl | rfl
  · cases value with
    | nil => exact absurd rfl h1
    | cons c rest =>
      have : c ≠ '-' := by simpa using h2
      simp [parseId, this, h4]
  · simp [parseId, h4]

theorem filter_plain (l : List (String × String)) (h : ∀ p ∈ l, p.1 ≠ "id") : (l.filter fun p => p.1 ≠ "id") = l := by
  rw [List.filter_eq_self]
  intro p hp
  simpa using h p hp

theorem properties (hid : ∀ k, T.getId k = T.getId "id" → k = "id") (hsort : OsmSpec.Sorts T.sort) (name : String) (t : Tree) (ps : List (String × String))
    (ht : t.children.map (fun c => (c.1, c.2.data)) = ps) (id) (h : IdOf T.toId ps id) :
    ∃ tags, parseProperties T (T.getId name) t = .ok (id, tags) ∧ TagsOf T.getId name ps tags := by
  unfold parseProperties TagsOf
  rcases h with ⟨hno, rfl⟩ | ⟨before, value, after, digits, rfl, hno, d1, d2, d3, d4⟩
  · have hl := loop_plain T hid 0 [] t.children [] (by
      intro c hc
      exact hno (c.1, c.2.data) (by rw [← ht]; exact List.mem_map_of_mem (f := fun c : String × Tree => (c.1, c.2.data)) hc))
    rw [List.append_nil] at hl
    rw [hl]
    refine ⟨_, rfl, ?_, (hsort _).2⟩
    refine (hsort _).1.trans (.of_eq ?_)
    rw [filter_plain ps hno, ← ht]
    simp
  · rw [List.map_eq_append_iff] at ht
    obtain ⟨l1, l2, e, e1, e2⟩ := ht
    rw [List.map_eq_cons_iff] at e2
    obtain ⟨c, l3, rfl, hc, e3⟩ := e2
    have hc1 : c.1 = "id" := congrArg Prod.fst hc
    have hc2 : c.2.data = value := congrArg Prod.snd hc
    have n1 : ∀ x ∈ l1, x.1 ≠ "id" := fun x hx => hno (x.1, x.2.data) (by
      rw [← e1]; exact List.mem_append_left _ (List.mem_map_of_mem (f := fun c : String × Tree => (c.1, c.2.data)) hx))
    have n3 : ∀ x ∈ l3, x.1 ≠ "id" := fun x hx => hno (x.1, x.2.data) (by
      rw [← e3]; exact List.mem_append_right _ (List.mem_map_of_mem (f := fun c : String × Tree => (c.1, c.2.data)) hx))
    have hl : propertyLoop T 0 [] t.children = .ok (id, (l1 ++ l3).map fun c => ⟨T.getId c.1, T.getId c.2.data⟩) := by
      rw [e, loop_plain T hid _ _ _ _ n1]
      obtain ⟨k, v⟩ := c
      simp only at hc1 hc2
      subst hc1
      rw [propertyLoop, if_pos rfl, hc2, parseId_ok T d1 d2 d3 d4]
      have := loop_plain T hid id ([] ++ l1.map fun c => ⟨T.getId c.1, T.getId c.2.data⟩) l3 [] n3
      rw [List.append_nil] at this
      simp only [Outcome.bind]
      rw [this]
      simp [propertyLoop]
    rw [hl]
    refine ⟨_, rfl, ?_, (hsort _).2⟩
    refine (hsort _).1.trans (.of_eq ?_)
    have : ((before ++ ("id", value) :: after).filter fun p => p.1 ≠ "id") = before ++ after := by
      rw [List.filter_append, List.filter_cons_of_neg (by simp), ← List.filter_append]
      exact filter_plain _ hno
    rw [this, ← e1, ← e3]
    simp only [List.map_append, List.map_map, List.map_cons, List.map_nil, Function.comp_def]

theorem group {rings es} (h : List.Forall₂ (Piece T.same 0 []) rings es) (id tags) : Group T.same id tags rings (foldFeature id tags es) := by
  match es, h with
  | [], h => exact .several _ _ (by rw [h.length_eq]; simp) h
  | [e], h =>
    cases h with
    | cons h1 h2 =>
      cases h2
      exact .single _ _ (piece_with T h1 id tags)
  | a :: b :: l, h => exact .several _ _ (by rw [h.length_eq]; simp) h

theorem group_child {rings es} (h : List.Forall₂ (Piece T.same 0 []) rings es) : Group T.same 0 [] rings (foldChild es) := by
  match es, h with
  | [], h => exact .several _ _ (by rw [h.length_eq]; simp) h
  | [e], h =>
    cases h with
    | cons h1 h2 =>
      cases h2
      exact .single _ _ (h1)
  | a :: b :: l, h => exact .several _ _ (by rw [h.length_eq]; simp) h

theorem path_two {t a b : Tree} {k l} (h1 : Has t k a) (h2 : Has a l b) : t.path [k, l] = .ok b := by
  simp [Tree.path, has_child h1, has_child h2, Outcome.bind]

theorem path_one {t a : Tree} {k} (h1 : Has t k a) : t.path [k] = .ok a := by
  simp [Tree.path, has_child h1, Outcome.bind]

theorem simple {t name g c p rings} (hg : Has t "geometry" g) (hc : Has g "coordinates" c) (hp : Has t "properties" p)
    (h : IsArray (IsArray (IsPosition T.toDouble)) c rings) {id tags} (hq : parseProperties T name p = .ok (id, tags)) :
    ∃ e, processSimpleRelation T name t = .ok e ∧ Group T.same id tags rings e := by
  obtain ⟨es, h1, h2⟩ := relation T h
  refine ⟨_, ?_, group T h2 id tags⟩
  unfold processSimpleRelation
  rw [path_two hg hc, path_one hp]
  simp only [Outcome.bind, h1, hq]

theorem feature (hid : ∀ k, T.getId k = T.getId "id" → k = "id") (hsort : OsmSpec.Sorts T.sort) (name : String) (t : Tree) (f : Feature D)
    (ht : IsFeature T.toDouble t f) (id) (h : IdOf T.toId f.properties id) :
    ∃ e tags, parseFeature T (T.getId name) t = .ok e ∧ TagsOf T.getId name f.properties tags ∧ Delivered T.same id tags f.geometry e := by
  obtain ⟨⟨g, hg, ty, c, hty, hc, hgeo⟩, p, hp, hps⟩ := ht
  obtain ⟨tags, hq, htags⟩ := properties T hid hsort name p f.properties hps id h
  obtain ⟨geometry, ps⟩ := f
  suffices ∃ e, parseFeature T (T.getId name) t = .ok e ∧ Delivered T.same id tags geometry e by
    obtain ⟨e, a, b⟩ := this
    exact ⟨e, tags, a, htags, b⟩
  unfold parseFeature
  rw [path_two hg hty]
  simp only [Outcome.bind]
  cases geometry with
  | point q =>
    obtain ⟨e, hpos⟩ := hgeo
    refine ⟨_, ?_, .point q⟩
    rw [if_pos e, parsePoint, path_one hp, path_two hg hc]
    simp only [Outcome.bind, hq, coordinate T hpos]
    rfl
  | line qs =>
    obtain ⟨e, hpos⟩ := hgeo
    refine ⟨_, ?_, .line qs⟩
    rw [if_neg (by rw [e]; decide), if_pos e, parseLineString, path_one hp, path_two hg hc]
    simp only [Outcome.bind, hq, coordinates T hpos]
  | polygon rings =>
    obtain ⟨e, hpos⟩ := hgeo
    obtain ⟨el, h1, h2⟩ := simple T hg hc hp hpos hq
    exact ⟨el, by rw [if_neg (by rw [e]; decide), if_neg (by rw [e]; decide), if_pos e, h1], .polygon _ _ h2⟩
  | multiLine rings =>
    obtain ⟨e, hpos⟩ := hgeo
    obtain ⟨el, h1, h2⟩ := simple T hg hc hp hpos hq
    exact ⟨el, by rw [if_neg (by rw [e]; decide), if_neg (by rw [e]; decide), if_neg (by rw [e]; decide), if_pos e, h1], .multiLine _ _ h2⟩
  | multiPolygon polygons =>
    obtain ⟨e, hpos⟩ := hgeo
    obtain ⟨ess, h1, h2⟩ := each_ok (parseRelation T) (IsArray (IsArray (IsPosition T.toDouble)))
      (fun rings es => List.Forall₂ (Piece T.same 0 []) rings es) (fun t a ht => relation T ht) hpos
    refine ⟨_, ?_, .multiPolygon polygons (ess.map foldChild) ?_⟩
    · rw [if_neg (by rw [e]; decide), if_neg (by rw [e]; decide), if_neg (by rw [e]; decide), if_neg (by rw [e]; decide), if_pos e, parseMultiPolygon,
        path_one hp, path_two hg hc]
      simp only [Outcome.bind, hq, h1]
    · rw [List.forall₂_map_right_iff]
      exact h2.imp fun _ _ h => group_child T h

theorem segments_plain {name : String} (h : Plain name) : segments name = [name] := by
  have := (C53_split '.' name.toList).2.2.2 [name.toList] (by simp) (by simpa using h.2) (by simp [StringsSpec.join])
  unfold segments
  rw [if_neg h.1, ← this]
  simp

end JsonProof

open JsonProof
variable {D : Type}

/-- C58: every feature of every collection is delivered, in this order, as the element of its geometry: a point as node with the position as longitude and
latitude, a line as way, closed rings of polygons as areas and open ones as ways, one ring alone as this element and others as relation; the element
has the id and the tags of the properties and the name of the collection, sorted by key. Entries of the tree which are not read and their order are
arbitrary. Partial: positions without height, names of collections which are different and contain no dot; and lines are delivered from end to start, see the
violations below. Reading the JSON text is not modelled. -/
theorem C58_features_partial (T : Tools D) (hid : ∀ k, T.getId k = T.getId "id" → k = "id") (hsort : OsmSpec.Sorts T.sort) (t : Tree)
    (collections : List (String × List (Feature D))) (ht : IsDocument T.toDouble t collections)
    (hplain : ∀ c ∈ collections, Plain c.1) (hdistinct : (collections.map Prod.fst).Nodup)
    (hids : ∀ c ∈ collections, ∀ f ∈ c.2, ∃ id, IdOf T.toId f.properties id) :
    ∃ es, parse T t = .ok es ∧ List.Forall₂ (fun (x : String × Feature D) e => ∃ id tags, IdOf T.toId x.2.properties id ∧
      TagsOf T.getId x.1 x.2.properties tags ∧ Delivered T.same id tags x.2.geometry e)
      (collections.flatMap fun c => c.2.map fun f => (c.1, f)) es := by
  unfold IsDocument at ht
  have key : ∀ (before after : List (String × Tree)) (cs : List (String × List (Feature D))), t.children = before ++ after →
      List.Forall₂ (fun c x => c.1 = x.1 ∧ ∃ fs, Has c.2 "features" fs ∧ IsArray (IsFeature T.toDouble) fs x.2) after cs →
      (∀ c ∈ cs, Plain c.1) → (cs.map Prod.fst).Nodup → (∀ b ∈ before, b.1 ∉ cs.map Prod.fst) →
      (∀ c ∈ cs, ∀ f ∈ c.2, ∃ id, IdOf T.toId f.properties id) →
      ∃ es, parseCollections T t after = .ok es ∧ List.Forall₂ (fun (x : String × Feature D) e => ∃ id tags, IdOf T.toId x.2.properties id ∧
        TagsOf T.getId x.1 x.2.properties tags ∧ Delivered T.same id tags x.2.geometry e) (cs.flatMap fun c => c.2.map fun f => (c.1, f)) es := by
    intro before after cs hb hf
    induction hf generalizing before with
    | nil => intros; exact ⟨[], rfl, .nil⟩
    | @cons c x after cs hcx _ ih =>
      intro hp hn hbef hi
      obtain ⟨name, sub⟩ := c
      obtain ⟨hname, fs, hfs, harr⟩ := hcx
      simp only at hname
      subst hname
      have hhas : Has t x.1 sub := by
        obtain ⟨d, ch⟩ := t
        simp only [Tree.children] at hb
        rw [hb]
        exact .mk d before x.1 sub after fun b hb' e => hbef b hb' (by rw [e]; simp)
      obtain ⟨es2, h2, f2⟩ := ih (before ++ [(x.1, sub)]) (by simp [hb]) (fun c hc => hp c (List.mem_cons_of_mem _ hc)) (by simp at hn; exact hn.2)
        (by
          intro b hb'
          rcases List.mem_append.1 hb' with h | h
          · exact fun e => hbef b h (List.mem_cons_of_mem _ e)
          · simp only [List.mem_singleton] at h
            rw [h]
            exact (List.nodup_cons.1 hn).1) (fun c hc => hi c (List.mem_cons_of_mem _ hc))
      have harr' : List.Forall₂ (fun c (f : {f // f ∈ x.2}) => IsFeature T.toDouble c.2 f.1) fs.children x.2.attach := by
        have : x.2 = x.2.attach.map Subtype.val := by simp
        unfold IsArray at harr
        rw [this, List.forall₂_map_right_iff] at harr
        exact harr
      obtain ⟨es1, h1, f1⟩ := each_ok (parseFeature T (T.getId x.1)) (fun t (f : {f // f ∈ x.2}) => IsFeature T.toDouble t f.1)
        (fun f e => ∃ id tags, IdOf T.toId f.1.properties id ∧ TagsOf T.getId x.1 f.1.properties tags ∧ Delivered T.same id tags f.1.geometry e)
        (by
          intro t f hf
          obtain ⟨id, h⟩ := hi x List.mem_cons_self f.1 f.2
          obtain ⟨e, tags, a, b, c⟩ := feature T hid hsort x.1 t f.1 hf id h
          exact ⟨e, a, id, tags, h, b, c⟩) harr'
      refine ⟨es1 ++ es2, ?_, ?_⟩
      · rw [parseCollections, segments_plain (hp x List.mem_cons_self), path_one hhas]
        simp only [Outcome.bind, path_one hfs, h1, h2]
      · rw [List.flatMap_cons]
        refine List.rel_append ?_ f2
        have : x.2.map (fun f => (x.1, f)) = x.2.attach.map fun f => (x.1, f.1) := by
          conv_lhs => rw [← List.attach_map_subtype_val x.2, List.map_map]
          rfl
        rw [this, List.forall₂_map_left_iff]
        exact f1
  exact key [] t.children collections rfl ht hplain hdistinct (by simp) hids

namespace JsonExample

/-- Tools for the examples: digits are numbers, and few strings are known. -/
def tools : Tools Nat where
  getId s := if s = "id" then 1 else if s = "feature" then 2 else if s = "water" then 3 else if s = "kind" then 4 else 5
  toDouble s := if s = "0" then some 0 else if s = "1" then some 1 else if s = "2" then some 2 else none
  toId cs := if cs = ['5'] then some 5 else none
  sort l := l.mergeSort fun a b => a.key ≤ b.key
  same a b := a == b

theorem sorts : OsmSpec.Sorts tools.sort := by
  intro l
  refine ⟨List.mergeSort_perm _ _, ?_⟩
  have := List.pairwise_mergeSort (le := fun a b : Tag => decide (a.key ≤ b.key))
    (fun a b c h1 h2 => by simp only [decide_eq_true_eq] at *; exact UInt32.le_trans h1 h2)
    (fun a b => by simp only [Bool.or_eq_true, decide_eq_true_eq]; exact UInt32.le_total _ _) l
  simpa [tools] using this

theorem idKey (k : String) (h : tools.getId k = tools.getId "id") : k = "id" := by
  by_contra hk
  simp only [tools, if_neg hk] at h
  revert h
  split
  · decide
  · split
    · decide
    · split <;> decide

def position (a b : String) : Tree := .mk "" [("", .leaf a), ("", .leaf b)]

/-- A feature with one more entry than needed. -/
def feature (type : String) (coordinates : Tree) (properties : List (String × Tree)) : Tree :=
  .mk "" [("type", .leaf "Feature"), ("properties", .mk "" properties), ("geometry", .mk "" [("type", .leaf type), ("coordinates", coordinates)])]

def document (collections : List (String × List Tree)) : Tree :=
  .mk "" (collections.map fun c => (c.1, .mk "" [("type", .leaf "FeatureCollection"), ("features", .mk "" (c.2.map fun f => ("", f)))]))

/-- A ring of four positions. -/
def square : Tree := .mk "" [("", position "0" "0"), ("", position "1" "0"), ("", position "1" "2"), ("", position "0" "0")]

theorem position_is (a b : String) (x y : Nat) (ha : tools.toDouble a = some x) (hb : tools.toDouble b = some y) :
    IsPosition tools.toDouble (position a b) (x, y) := .cons ha (.cons hb .nil)

theorem feature_is (type : String) (coordinates : Tree) (properties : List (String × Tree)) (g : Geometry Nat)
    (h : IsGeometry tools.toDouble type coordinates g) :
    IsFeature tools.toDouble (feature type coordinates properties) ⟨g, properties.map fun c => (c.1, c.2.data)⟩ where
  geometry := ⟨_, .mk "" [("type", .leaf "Feature"), ("properties", .mk "" properties)] "geometry" _ [] (by simp), .leaf type, coordinates,
    .mk "" [] "type" _ [("coordinates", coordinates)] (by simp), .mk "" [("type", .leaf type)] "coordinates" _ [] (by simp), h⟩
  properties := ⟨_, .mk "" [("type", .leaf "Feature")] "properties" _ _ (by simp), rfl⟩

end JsonExample

open JsonExample

/-- A document with a polygon of one ring and a point. -/
example : ∃ es, parse tools (document [("water", [feature "Polygon" (.mk "" [("", square)]) [("id", .leaf "-5"), ("kind", .leaf "lake")],
      feature "Point" (position "1" "2") []])]) = .ok es ∧ es.length = 2 := by
  obtain ⟨es, h1, h2⟩ := C58_features_partial tools idKey sorts
    (document [("water", [feature "Polygon" (.mk "" [("", square)]) [("id", .leaf "-5"), ("kind", .leaf "lake")],
      feature "Point" (position "1" "2") []])])
    [("water", [⟨.polygon [[(0, 0), (1, 0), (1, 2), (0, 0)]], [("id", "-5"), ("kind", "lake")]⟩, ⟨.point (1, 2), []⟩])]
    (List.Forall₂.cons ⟨rfl, _, .mk "" [("type", .leaf "FeatureCollection")] "features" _ [] (by simp),
      .cons (feature_is "Polygon" (.mk "" [("", square)]) [("id", .leaf "-5"), ("kind", .leaf "lake")] _ ⟨rfl,
        .cons (.cons (position_is _ _ _ _ rfl rfl) (.cons (position_is _ _ _ _ rfl rfl) (.cons (position_is _ _ _ _ rfl rfl)
          (.cons (position_is _ _ _ _ rfl rfl) .nil)))) .nil⟩)
      (.cons (feature_is "Point" (position "1" "2") [] _ ⟨rfl, position_is _ _ _ _ rfl rfl⟩) .nil)⟩ .nil)
    (by simp [Plain]) (by simp) (by
      intro c hc f hf
      simp only [List.mem_singleton] at hc
      subst hc
      simp only [List.mem_cons, List.not_mem_nil, or_false] at hf
      rcases hf with rfl | rfl
      · exact ⟨5, .inr ⟨[], "-5", [("kind", "lake")], ['5'], rfl, by simp, by simp, by simp, .inr (by simp), rfl⟩⟩
      · exact ⟨0, .inl ⟨by simp, rfl⟩⟩)
  exact ⟨es, h1, h2.length_eq.symm⟩

/-- C58 does not hold for positions with height, which GeoJSON allows: the import ends with an exception. -/
theorem C58_violated_height {D : Type} (T : Tools D) (d : String) (a b c : String × Tree) (rest : List (String × Tree)) :
    parseCoordinate T (.mk d (a :: b :: c :: rest)) = .throw "invalid_argument" := rfl

/-- C58: a line is delivered in the opposite direction, so that ways whose direction has a meaning are changed. -/
theorem C58_violated_direction {D : Type} (T : Tools D) (t : Tree) (ps : List (D × D)) (h : IsArray (IsPosition T.toDouble) t ps) (hne : ps ≠ ps.reverse) :
    ∃ cs, parseCoordinates T t = .ok cs ∧ cs = (ps.map Prod.swap).reverse ∧ cs ≠ ps.map Prod.swap := by
  refine ⟨_, coordinates T h, List.map_reverse, fun e => hne ?_⟩
  exact ((List.map_injective_iff.2 Prod.swap_injective) e).symm

/-- C58 does not hold for collections with the same name: the features of the first are delivered twice and the ones of the second never. -/
theorem C58_violated_repeated {D : Type} (T : Tools D) (name : String) (hp : Plain name) (fs gs : List Tree) (es : List (Element (D × D)))
    (h : parse T (document [(name, fs)]) = .ok es) : parse T (document [(name, fs), (name, gs)]) = .ok (es ++ es) := by
  have hs := segments_plain hp
  simp only [parse, document, parseCollections, Tree.children, hs, Tree.path, Tree.child, Outcome.bind, List.map_cons, List.map_nil] at h ⊢
  simp at h ⊢
  revert h
  cases each (parseFeature T (T.getId name)) (List.map (fun f => ("", f)) fs) <;> simp
  rintro rfl
  rfl

/-- C58 does not hold for names with a dot: the name is taken as a path, and the import ends with an exception. -/
theorem C58_violated_dot :
    parse tools (document [("a.b", [feature "Point" (position "1" "2") []])]) = .throw "ptree_bad_path" := by
  have : segments "a.b" = ["a", "b"] := by
    have h := (C53_split '.' "a.b".toList).2.2.2 [['a'], ['b']] (by simp) (by simp) (by simp [StringsSpec.join])
    unfold segments
    rw [if_neg (by simp), ← h]
    rfl
  simp [parse, document, parseCollections, Tree.children, this, Tree.path, Tree.child, Outcome.bind]

/-- C58: features whose ids differ in the sign only get the same id. -/
theorem C58_violated_sign {D : Type} (T : Tools D) (digits : List Char) (h1 : digits ≠ []) (h2 : digits.head? ≠ some '-') (id) (h : T.toId digits = some id) :
    parseId T digits = .ok id ∧ parseId T ('-' :: digits) = .ok id :=
  ⟨parseId_ok T h1 h2 (.inl rfl) h, parseId_ok T h1 h2 (.inr rfl) h⟩

end Verif.Props
