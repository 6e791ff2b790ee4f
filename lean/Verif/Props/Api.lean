import Verif.Model.Api
import Verif.Props.ApiSpec

/-! # Properties of the C API -/
namespace Verif.Props
open Verif.Api
open Verif.ApiSpec

namespace ApiProof
variable {D : Type}

theorem make_ok (s e : Int) (hs : Supported s) (he : Supported e) : LodRange.make s e = .ok ⟨s, e⟩ := by
  unfold LodRange.make minLod maxLod
  unfold Supported at hs he
  rw [if_neg (by omega)]

theorem make_throw (s e : Int) (h : ¬ (Supported s ∧ Supported e)) : LodRange.make s e = .throw "domain_error" := by
  unfold LodRange.make minLod maxLod
  unfold Supported at h
  rw [if_pos (by omega)]

theorem flat_length {α : Type} (ps : List (α × α)) : (flat ps).length = 2 * ps.length := by
  induction ps with
  | nil => rfl
  | cons p ps ih =>
    show (p.1 :: p.2 :: flat ps).length = _
    simp only [List.length_cons, ih]; omega

theorem tagLoop_flat (getId : String → UInt32) (ts : List (String × String)) :
    tagLoop getId (flat ts) = .ok (ts.map fun t => ⟨getId t.1, getId t.2⟩) := by
  induction ts with
  | nil => rfl
  | cons t ts ih =>
    show tagLoop getId (t.1 :: t.2 :: flat ts) = _
    rw [tagLoop, ih]
    rfl

theorem vertexLoop_flat (cs : List (D × D)) : vertexLoop (flat cs) = .ok cs := by
  induction cs with
  | nil => rfl
  | cons c cs ih =>
    show vertexLoop (c.1 :: c.2 :: flat cs) = _
    rw [vertexLoop, ih]
    rfl

theorem last_of (first : D) (mid : List D) (last : D) : (first :: (mid ++ [last])).getLast? = some last := by
  rw [← List.cons_append, List.getLast?_append]; rfl

theorem elementOf_ok (same : D × D → D × D → Bool) (id : UInt64) (tags : List Tag) (cs : List (D × D)) (e : Element (D × D))
    (h : Describes same id tags cs e) : elementOf same id (flat cs) tags = .ok e := by
  cases h with
  | node c =>
    show elementOf same id [c.1, c.2] tags = _
    unfold elementOf
    rw [if_pos (by simp)]
  | area first mid last h =>
    unfold elementOf
    rw [if_neg (by rw [flat_length]; simp), vertexLoop_flat]
    simp only [Outcome.bind, List.cons_append, List.head?_cons, last_of, h]
    rfl
  | way first mid last h =>
    unfold elementOf
    rw [if_neg (by rw [flat_length]; simp), vertexLoop_flat]
    simp only [Outcome.bind, List.cons_append, List.head?_cons, last_of, h]
    rfl

theorem tagLoop_odd (getId : String → UInt32) : ∀ ts : List String, ts.length % 2 = 1 → tagLoop getId ts = .ub "read behind the tags"
  | [], h => by simp at h
  | [_], _ => rfl
  | _ :: _ :: rest, h => by
    rw [tagLoop, tagLoop_odd getId rest (by simp only [List.length_cons] at h; omega)]
    rfl

theorem vertexLoop_odd : ∀ vs : List D, vs.length % 2 = 1 → vertexLoop vs = .ub "read behind the vertices"
  | [], h => by simp at h
  | [_], _ => rfl
  | _ :: _ :: rest, h => by
    rw [vertexLoop, vertexLoop_odd rest (by simp only [List.length_cons] at h; omega)]
    rfl

theorem collapse_double (a b : List Char) : collapse (a ++ '/' :: '/' :: b) = collapse (a ++ '/' :: b) := by
  fun_induction collapse a with
  | case1 rest ih => simpa only [List.cons_append, collapse] using ih
  | case2 c rest hne ih =>
    cases rest with
    | nil =>
      by_cases hc : c = '/'
      · subst hc; simp [collapse]
      · have h1 : ∀ x : List Char, collapse (c :: x) = c :: collapse x := by
          intro x
          exact collapse.eq_2 c x (by intro r h; exact (hc h).elim)
        rw [List.singleton_append, List.singleton_append, h1, h1]
        simp only [List.nil_append] at ih
        rw [ih]
    | cons d rest =>
      have h1 : ∀ x : List Char, collapse (c :: (d :: x)) = c :: collapse (d :: x) := by
        intro x
        apply collapse.eq_2
        rintro r rfl h
        simp only [List.cons.injEq] at h
        exact hne rest rfl (by rw [h.1])
      rw [List.cons_append, List.cons_append, List.cons_append, List.cons_append, h1, h1]
      rw [List.cons_append, List.cons_append] at ih
      rw [ih]
  | case3 => simp [collapse]

/-! Export -/

/-- Invariant of the loop: there is space for the strings which are still to come, and the pointers taken so far are valid. -/
theorem pairLoop_ok (pairs : List (String × String)) : ∀ (v : Strings) (ps : List Pointer), v.items.length + 2 * pairs.length ≤ v.capacity →
    (ps = (List.range v.items.length).map fun i => ⟨v.block, i⟩) →
    ∃ v' ps', pairLoop v ps pairs = (v', ps') ∧ v'.items = v.items ++ flat pairs ∧ v'.block = v.block ∧
      ps' = (List.range v'.items.length).map fun i => ⟨v'.block, i⟩ := by
  induction pairs with
  | nil => intro v ps _ h; exact ⟨v, ps, rfl, by simp [flat], rfl, h⟩
  | cons p pairs ih =>
    intro v ps hc h
    obtain ⟨key, value⟩ := p
    simp only [List.length_cons] at hc
    have h1 : v.push key = { v with items := v.items ++ [key] } := by unfold Strings.push; rw [if_pos (by omega)]
    have h2 : (v.push key).push value = { v with items := v.items ++ [key] ++ [value] } := by
      rw [h1]; unfold Strings.push; rw [if_pos (by simp; omega)]
    obtain ⟨v', ps', e1, e2, e3, e4⟩ := ih ((v.push key).push value) (ps ++ [((v.push key).push value).pointer 2, ((v.push key).push value).pointer 1])
      (by rw [h2]; simp only [List.length_append, List.length_cons, List.length_nil]; omega)
      (by
        rw [h2, h]
        simp only [Strings.pointer, List.length_append, List.length_cons, List.length_nil]
        rw [show v.items.length + (0 + 1) + (0 + 1) = v.items.length + 1 + 1 from rfl, List.range_succ, List.range_succ]
        simp)
    refine ⟨v', ps', ?_, ?_, ?_, e4⟩
    · rw [pairLoop]; exact e1
    · rw [e2, h2]; simp [flat]
    · rw [e3, h2]

theorem readAll_ok (v : Strings) : readAll v ((List.range v.items.length).map fun i => ⟨v.block, i⟩) = .ok v.items := by
  have gen : ∀ (l r : List String), v.items = l ++ r → readAll v ((List.range' l.length r.length).map fun i => ⟨v.block, i⟩) = .ok r := by
    intro l r
    induction r generalizing l with
    | nil => intro _; rfl
    | cons x r ih =>
      intro h
      rw [List.length_cons, List.range'_succ, List.map_cons, readAll]
      have h1 : v.read ⟨v.block, l.length⟩ = .ok x := by
        unfold Strings.read
        simp [h]
      have h2 := ih (l ++ [x]) (by rw [h]; simp)
      rw [List.length_append, List.length_singleton] at h2
      rw [h1, h2]
      rfl
  have := gen [] v.items rfl
  rw [List.range_eq_range']
  exact this

theorem exportPairs_ok (v : Strings) (pairs : List (String × String)) (h : v.items = []) :
    readAll (exportPairs v pairs).1 (exportPairs v pairs).2 = .ok (flat pairs) := by
  unfold exportPairs
  have hi : (v.reserve (pairs.length * 2)).items = [] := by unfold Strings.reserve; split <;> exact h
  obtain ⟨v', ps', e1, e2, e3, e4⟩ := pairLoop_ok pairs (v.reserve (pairs.length * 2)) [] (by
    rw [hi]; unfold Strings.reserve; simp only [List.length_nil]; split <;> simp <;> omega) (by rw [hi]; rfl)
  rw [e1, e4, readAll_ok, e2, hi]
  rfl

theorem fillVertices_eq (elevation : D × D → D) (cs : List (D × D)) : ∀ vs, fillVertices elevation vs cs = vs ++ cs.flatMap fun c => [c.2, c.1, elevation c] := by
  induction cs with
  | nil => intro vs; simp [fillVertices]
  | cons c cs ih =>
    intro vs
    unfold fillVertices at ih ⊢
    rw [List.foldl_cons, ih]
    simp

end ApiProof

open ApiProof
variable {D : Type}

/-- C51: if the arguments are meaningful, the call makes its request, and an exception raised by it is delivered to the error callback: exactly one
error is reported, and none if there is no exception. Partial: see the four violations. -/
theorem C51_reported_partial (core : Request D → Outcome Unit) (getId : String → UInt32) (same : D × D → D × D → Bool) (c : Call D) (r : Request D)
    (h : Asks getId same c r) :
    (core r = .ok () → call core getId same c = .returned []) ∧ ∀ e, core r = .throw e → call core getId same c = .returned [e] := by
  have key : call core getId same c = safeExecute (core r) := by
    cases h with
    | text a b c d s e hs he => simp only [call, make_ok s e hs he, unguarded]
    | quadKey x y lod => rfl
    | addTile x y lod => rfl
    | addBox a b c d s e hs he => simp only [call, make_ok s e hs he, unguarded]
    | addRange s e hs he => simp only [call, make_ok s e hs he, unguarded]
    | addElement id cs tags element s e hs he h =>
      simp only [call, make_ok s e hs he, unguarded, tagLoop_flat, elementOf_ok same id _ cs element h]
  rw [key]
  exact ⟨fun h => by rw [h]; rfl, fun e h => by rw [h]; rfl⟩

/-- C51: every non-empty list of coordinates is a node, a way or an area, and only one of them, so the theorem above applies to all of them. -/
theorem C51_classified (same : D × D → D × D → Bool) (id : UInt64) (tags : List Tag) (cs : List (D × D)) (h : cs ≠ []) :
    ∃ e, Describes same id tags cs e ∧ ∀ e', Describes same id tags cs e' → e' = e := by
  have uniq : ∀ e e', Describes same id tags cs e → Describes same id tags cs e' → e' = e := by
    intro e e' h1 h2
    have a := elementOf_ok same id tags cs e h1
    have b := elementOf_ok same id tags cs e' h2
    rw [a] at b
    cases b
    rfl
  have ex : ∃ e, Describes same id tags cs e := by
    match cs, h with
    | [c], _ => exact ⟨_, .node c⟩
    | first :: c :: rest, _ =>
      obtain ⟨mid, last, hm⟩ : ∃ mid last, c :: rest = mid ++ [last] := by
        rcases List.eq_nil_or_concat (c :: rest) with h | ⟨l, a, h⟩
        · cases h
        · exact ⟨l, a, by simpa using h⟩
      rw [hm]
      cases hsame : same first last with
      | true => exact ⟨_, .area first mid last hsame⟩
      | false => exact ⟨_, .way first mid last hsame⟩
  obtain ⟨e, he⟩ := ex
  exact ⟨e, he, fun e' h' => uniq e e' he h'⟩

/-- C51 is false for unsupported levels of detail: the exception is thrown before the guarded part and leaves the API. -/
theorem C51_violated_lods (core : Request D → Outcome Unit) (getId : String → UInt32) (same : D × D → D × D → Bool) (s e : Int)
    (h : ¬ (Supported s ∧ Supported e)) (a b c d : D) (id : UInt64) (vertices : List D) (tags : List String) :
    call core getId same (.getDataByText a b c d s e) = .escaped "domain_error" ∧
    call core getId same (.addToStoreInBoundingBox a b c d s e) = .escaped "domain_error" ∧
    call core getId same (.addToStoreInRange s e) = .escaped "domain_error" ∧
    call core getId same (.addToStoreElement id vertices tags s e) = .escaped "domain_error" := by
  simp only [call, make_throw s e h, unguarded, and_self]

/-- C51 is false for the elevation of a point: any exception leaves the API. -/
theorem C51_violated_elevation (core : Request D → Outcome Unit) (getId : String → UInt32) (same : D × D → D × D → Bool) (x y lod : Int) (lat lon : D)
    (e : String) (h : core (.elevation ⟨lod, x, y⟩ lat lon) = .throw e) :
    call core getId same (.getElevationByQuadKey x y lod lat lon) = .escaped e := by
  simp only [call, h, unguarded]

/-- C51 is false for an odd number of tag strings, an odd number of ordinates (except three, where the last is ignored) and for no ordinates at all:
memory outside the arrays is read. -/
theorem C51_violated_lengths (core : Request D → Outcome Unit) (getId : String → UInt32) (same : D × D → D × D → Bool) (s e : Int) (hs : Supported s)
    (he : Supported e) (id : UInt64) (vertices : List D) (tags : List String)
    (h : tags.length % 2 = 1 ∨ vertices = [] ∨ (vertices.length % 2 = 1 ∧ vertices.length ≠ 3)) :
    ∃ why, call core getId same (.addToStoreElement id vertices tags s e) = .ub why := by
  simp only [call, make_ok s e hs he, unguarded]
  by_cases ht : tags.length % 2 = 1
  · rw [tagLoop_odd getId tags ht]; exact ⟨_, rfl⟩
  · cases htl : tagLoop getId tags with
    | ub w => exact ⟨w, rfl⟩
    | throw w =>
      exfalso
      have : ∀ ts : List String, ∀ w, tagLoop getId ts ≠ .throw w := by
        intro ts
        fun_induction tagLoop getId ts with
        | case1 => intro w h; cases h
        | case2 => intro w h; cases h
        | case3 k v rest ih =>
          intro w
          cases hr : tagLoop getId rest with
          | ok a => intro h; cases h
          | throw w' => exact absurd hr (ih w')
          | ub w' => intro h; cases h
      exact this _ _ htl
    | ok ts =>
      rcases h with h | h | ⟨h, h3⟩
      · exact absurd h ht
      · subst h
        refine ⟨"index out of range", ?_⟩
        have : elementOf same id ([] : List D) ts = .ub "index out of range" := by
          unfold elementOf
          rw [if_neg (by simp)]
          rfl
        simp only [this]
      · refine ⟨"read behind the vertices", ?_⟩
        have : elementOf same id vertices ts = .ub "read behind the vertices" := by
          unfold elementOf
          rw [if_neg (by omega), vertexLoop_odd vertices h]
          rfl
        simp only [this]

/-- A triangle with one tag is an area. -/
example (getId : String → UInt32) :
    Asks getId (fun a b => a == b) (.addToStoreElement 7 [1, 2, 3, 4, 5, 6, 1, 2] ["a", "b"] 1 16)
      (.addElement (.area 7 [⟨getId "a", getId "b"⟩] [(1, 2), (3, 4), (5, 6), (1, 2)]) ⟨1, 16⟩) :=
  .addElement 7 [(1, 2), (3, 4), (5, 6), (1, 2)] [("a", "b")] _ 1 16 (by unfold Supported; omega) (by unfold Supported; omega)
    (.area (1, 2) [(3, 4), (5, 6)] (1, 2) rfl)

/-- C52: for every tile of levels 1 to 16 the files of a persistent store are in a directory which was created when the store was registered.
Partial: levels 17 to 19 are accepted as well, see `C52_violated_lods`. -/
theorem C52_store_partial (path : List Char) (q : QuadKey) (h : 1 ≤ q.lod ∧ q.lod ≤ 16) (extension : List Char) :
    ∃ dir ∈ registerPersistentStore path, tilePath path q extension = dir ++ '/' :: (quadKeyToString q ++ extension) := by
  refine ⟨path ++ '/' :: (toString q.lod).toList, ?_, by unfold tilePath; simp⟩
  unfold registerPersistentStore createDataDirs
  refine List.mem_map.2 ⟨q.lod, ?_, rfl⟩
  unfold intRange minDirectory maxDirectory
  exact List.mem_map.2 ⟨(q.lod - 1).toNat, List.mem_range.2 (by omega), by omega⟩

/-- C52: the same for the files of the mesh cache and the directories created for the stylesheet. -/
theorem C52_cache_partial (path tag : List Char) (q : QuadKey) (h : 1 ≤ q.lod ∧ q.lod ≤ 16) (extension : List Char) :
    ∃ dir ∈ registerStylesheet path tag, collapse (cachePath path tag q extension) = collapse (dir ++ '/' :: (quadKeyToString q ++ extension)) := by
  obtain ⟨dir, h1, h2⟩ := C52_store_partial (path ++ '/' :: 'c' :: 'a' :: 'c' :: 'h' :: 'e' :: '/' :: (tag ++ ['/'])) q h extension
  refine ⟨dir, h1, ?_⟩
  rw [← h2]
  unfold cachePath tilePath
  have := collapse_double (path ++ '/' :: 'c' :: 'a' :: 'c' :: 'h' :: 'e' :: '/' :: tag) ((toString q.lod).toList ++ '/' :: (quadKeyToString q ++ extension))
  simp only [List.append_assoc, List.cons_append, List.nil_append] at this ⊢
  exact this.symm

/-- C52 is false for levels 17 to 19: they are accepted, but no directory is created for their tiles. -/
theorem C52_violated_lods (path : List Char) (lod : Int) (h : lod = 17 ∨ lod = 18 ∨ lod = 19) :
    LodRange.make lod lod = .ok ⟨lod, lod⟩ ∧ path ++ '/' :: (toString lod).toList ∉ registerPersistentStore path := by
  refine ⟨make_ok lod lod (by unfold Supported; omega) (by unfold Supported; omega), ?_⟩
  unfold registerPersistentStore createDataDirs
  intro hc
  obtain ⟨i, hi, he⟩ := List.mem_map.1 hc
  have he := List.append_cancel_left he
  simp only [List.cons.injEq, true_and] at he
  have hall : ∀ i ∈ intRange minDirectory maxDirectory, ∀ l ∈ [(17 : Int), 18, 19], (toString i).toList ≠ (toString l).toList := by decide +kernel
  exact hall i hi lod (by rcases h with h | h | h <;> simp [h]) he

/-- The file of a tile of level 16. -/
example : ∃ dir ∈ registerPersistentStore ['d'], tilePath ['d'] ⟨16, 5, 7⟩ ['.', 'd', 'a', 't'] = dir ++ '/' :: (quadKeyToString ⟨16, 5, 7⟩ ++ ['.', 'd', 'a', 't']) :=
  C52_store_partial _ _ (by decide) _

/-- C67: for all elements which are found, in this order, the callback is called with the id of the element, the strings of its tags, its vertices as
longitude, latitude and height, and the declarations of its style; all strings are valid when the callback reads them, whatever was exported before.
Partial: relations have no geometry, see `C67_violated_relation`. -/
theorem C67_exported_partial (zero : D × D) (getString : UInt32 → Outcome String) (strings : UInt32 → String)
    (declarations : Element (D × D) → Outcome (List (String × String))) (style : Element (D × D) → List (String × String)) (elevation : D × D → D)
    (es : List (Element (D × D))) (hs : ∀ e ∈ es, ∀ t ∈ e.tags, getString t.key = .ok (strings t.key) ∧ getString t.value = .ok (strings t.value))
    (hd : ∀ e ∈ es, declarations e = .ok (style e)) (v : Visitor D) (hv : v.vertices = [] ∧ v.tagStrings.items = [] ∧ v.styleStrings.items = []) :
    visitAll zero getString declarations elevation v es = .ok (es.map fun e =>
      ⟨e.id, flat (e.tags.map fun t => (strings t.key, strings t.value)),
        (match e with
          | .node _ _ c => [c.2, c.1, elevation c]
          | .way _ _ cs | .area _ _ cs => cs.flatMap fun c => [c.2, c.1, elevation c]
          | .relation _ _ _ => [zero.2, zero.1, elevation zero]),
        flat (style e)⟩) := by
  induction es generalizing v with
  | nil => rfl
  | cons e es ih =>
    have htags : ∀ ts : List Tag, (∀ t ∈ ts, getString t.key = .ok (strings t.key) ∧ getString t.value = .ok (strings t.value)) →
        tagPairs getString ts = .ok (ts.map fun t => (strings t.key, strings t.value)) := by
      intro ts
      induction ts with
      | nil => intro _; rfl
      | cons t ts iht =>
        intro h
        obtain ⟨a, b⟩ := h t List.mem_cons_self
        rw [tagPairs, a, b, iht fun t' ht' => h t' (List.mem_cons_of_mem _ ht')]
        rfl
    obtain ⟨v1, v2, v3⟩ := hv
    have hstep : ∃ v' : Visitor D, (v'.vertices = [] ∧ v'.tagStrings.items = [] ∧ v'.styleStrings.items = []) ∧
        visitElement getString declarations elevation v e (exportedCoordinates zero e) = .ok (v', ⟨e.id,
          flat (e.tags.map fun t => (strings t.key, strings t.value)), (exportedCoordinates zero e).flatMap fun c => [c.2, c.1, elevation c], flat (style e)⟩) := by
      refine ⟨⟨[], (exportPairs v.tagStrings (e.tags.map fun t => (strings t.key, strings t.value))).1.clear,
        (exportPairs v.styleStrings (style e)).1.clear⟩, ⟨rfl, rfl, rfl⟩, ?_⟩
      unfold visitElement
      rw [htags e.tags (hs e List.mem_cons_self), hd e List.mem_cons_self]
      simp only [Outcome.bind, exportPairs_ok _ _ v2, exportPairs_ok _ _ v3, fillVertices_eq, v1, List.nil_append]
    obtain ⟨v', hv', h1⟩ := hstep
    rw [visitAll, h1]
    simp only [Outcome.bind, ih (fun e' he' => hs e' (List.mem_cons_of_mem _ he')) (fun e' he' => hd e' (List.mem_cons_of_mem _ he')) v' hv', List.map_cons]
    congr 3
    cases e <;> simp [exportedCoordinates]

/-- C67 is false for relations: whatever their members are, they are exported as one point at (0, 0). -/
theorem C67_violated_relation (zero : D × D) (getString : UInt32 → Outcome String) (declarations : Element (D × D) → Outcome (List (String × String)))
    (hd : ∀ e, declarations e = .ok []) (elevation : D × D → D) (id : UInt64) (members : List (Element (D × D))) :
    visitAll zero getString declarations elevation ⟨[], ⟨[], 0, 0⟩, ⟨[], 0, 0⟩⟩ [.relation id [] members] =
      .ok [⟨id, [], [zero.2, zero.1, elevation zero], []⟩] := by
  have := C67_exported_partial zero getString (fun _ => "") declarations (fun _ => []) elevation [.relation id [] members]
    (by intro e he t ht; simp at he; subst he; simp [Element.tags] at ht) (fun e _ => hd e) ⟨[], ⟨[], 0, 0⟩, ⟨[], 0, 0⟩⟩ ⟨rfl, rfl, rfl⟩
  rw [this]
  rfl

/-- Without reserved memory the first pointers would dangle. -/
example : readAll (pairLoop ⟨[], 0, 0⟩ [] [("a", "b"), ("c", "d")]).1 (pairLoop ⟨[], 0, 0⟩ [] [("a", "b"), ("c", "d")]).2 = .ub "dangling pointer" := by
  decide +kernel

/-- A way with a tag after a node without. -/
example : visitAll (0, 0) (fun i => if i = 1 then .ok "highway" else .ok "primary") (fun _ => .ok [("height", "3m")]) (fun _ => 5)
    ⟨[], ⟨[], 0, 0⟩, ⟨[], 0, 0⟩⟩ [.node 1 [] (10, 20), .way 2 [⟨1, 2⟩] [(10, 20), (11, 21)]] =
    .ok [⟨1, [], [20, 10, 5], ["height", "3m"]⟩, ⟨2, ["highway", "primary"], [20, 10, 5, 21, 11, 5], ["height", "3m"]⟩] := by decide +kernel

end Verif.Props
