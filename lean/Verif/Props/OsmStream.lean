import Verif.Props.Osm
import Verif.Props.OsmStreamSpec
import Mathlib.Data.List.Forall2

/-! # C72: the nodes and ways of an OSM file -/
namespace Verif.Props
open Verif.Osm Verif.OsmSpec Verif.OsmStream Verif.OsmStreamSpec

variable {K : Type} [Field K] [LinearOrder K] [IsStrictOrderedRing K]

namespace OsmStreamProof

theorem set_fresh {V : Type} (m : Assoc UInt64 V) (k : UInt64) (v : V) (h : m.find k = none) : m.set k v = (k, v) :: m := by
  unfold Assoc.set Assoc.erase
  rw [List.filter_eq_self.2]
  intro e he
  simpa using (Assoc.find_eq_none_iff m k).1 h e he

theorem visitWay_shape (eps : K) (getId : String → UInt32) (sort : List Tag → List Tag) (ctx ctx' : Context K) (id : UInt64) (ids : List UInt64)
    (raw : List RawTag) (h : visitWay eps getId sort ctx id ids raw = .ok ctx') :
    (∃ p, ctx' = { ctx with areaMap := ctx.areaMap.set id p }) ∨ ∃ p, ctx' = { ctx with wayMap := ctx.wayMap.set id p } := by
  unfold visitWay at h
  cases hc : nodeCoordinates ctx ids with
  | ok cs =>
    rw [hc] at h
    simp only [Outcome.bind] at h
    split at h
    · split at h
      · exact .inl ⟨_, (Outcome.ok.inj h).symm⟩
      · exact .inr ⟨_, (Outcome.ok.inj h).symm⟩
    · exact .inr ⟨_, (Outcome.ok.inj h).symm⟩
  | throw e => rw [hc] at h; simp [Outcome.bind] at h
  | ub e => rw [hc] at h; simp [Outcome.bind] at h

/-- What holds after some entries of the file. -/
structure Inv (eps : K) (getId : String → UInt32) (file done : List (Entry K)) (ctx : Context K) : Prop where
  nodes : ∀ i c t, Entry.node i c t ∈ done → ∃ n, ctx.nodeMap.find i = some n ∧ n.coordinate = c
  freshNode : ∀ i, i ∉ nodeIds done → ctx.nodeMap.find i = none
  freshWay : ∀ i, i ∉ wayIds done → ctx.wayMap.find i = none ∧ ctx.areaMap.find i = none
  elements : ∃ l, l.Perm (added ctx) ∧ List.Forall₂ (Represents eps getId file) done l

theorem inv_step (eps : K) (getId : String → UInt32) (sort : List Tag → List Tag) (hs : Sorts sort) (file done rest : List (Entry K)) (e : Entry K)
    (hfile : file = done ++ e :: rest) (hn : (nodeIds file).Nodup) (hw : (wayIds file).Nodup) (hc : Complete file) (ctx : Context K)
    (inv : Inv eps getId file done ctx) : ∃ ctx', visit eps getId sort ctx e = .ok ctx' ∧ Inv eps getId file (done ++ [e]) ctx' := by
  obtain ⟨l, hl, hrep⟩ := inv.elements
  cases e with
  | node id c raw =>
    have hfresh : id ∉ nodeIds done := by
      rw [hfile] at hn
      simp only [nodeIds, List.filterMap_append, List.filterMap_cons] at hn
      intro hmem
      exact (List.nodup_append.1 hn).2.2 id hmem id (by simp) rfl
    have hset := set_fresh ctx.nodeMap id ⟨id, convertTags getId sort raw, c⟩ (inv.freshNode id hfresh)
    refine ⟨_, rfl, ?_, ?_, ?_, l ++ [.node ⟨id, convertTags getId sort raw, c⟩], ?_, ?_⟩
    · intro i c' t hmem
      simp only [visitNode, hset, Assoc.find_cons]
      rcases List.mem_append.1 hmem with hmem | hmem
      · have : ¬ id = i := by
          rintro rfl
          exact hfresh (List.mem_filterMap.2 ⟨_, hmem, rfl⟩)
        rw [if_neg this]
        exact inv.nodes i c' t hmem
      · simp only [List.mem_singleton, Entry.node.injEq] at hmem
        obtain ⟨rfl, rfl, rfl⟩ := hmem
        exact ⟨_, if_pos rfl, rfl⟩
    · intro i hi
      simp only [nodeIds, List.filterMap_append, List.mem_append, not_or] at hi
      simp only [visitNode, hset, Assoc.find_cons]
      rw [if_neg]
      · exact inv.freshNode i hi.1
      · rintro rfl; exact hi.2 (by simp)
    · intro i hi
      simp only [wayIds, List.filterMap_append, List.mem_append, not_or] at hi
      exact inv.freshWay i hi.1
    · simp only [added, visitNode, hset, List.map_cons]
      refine (List.perm_append_comm).trans ?_
      simpa [added] using hl
    · refine List.rel_append hrep (.cons ⟨_, rfl, rfl, rfl, OsmProof.tagsOf_convert getId sort hs raw⟩ .nil)
  | way id ids raw =>
    have hfresh : id ∉ wayIds done := by
      rw [hfile] at hw
      simp only [wayIds, List.filterMap_append, List.filterMap_cons] at hw
      intro hmem
      exact (List.nodup_append.1 hw).2.2 id hmem id (by simp) rfl
    have hcs : ∃ cs, List.Forall₂ (fun n c => ∃ t, Entry.node n c t ∈ file) ids cs ∧
        List.Forall₂ (fun id c => ∃ n, ctx.nodeMap.find id = some n ∧ n.coordinate = c) ids cs := by
      have hall : ∀ n ∈ ids, ∃ c t, Entry.node n c t ∈ done := hc done id ids raw rest hfile
      clear hfresh
      induction ids with
      | nil => exact ⟨[], .nil, .nil⟩
      | cons n ids ih =>
        have hc' : ∀ n' ∈ ids, ∃ c t, Entry.node n' c t ∈ done := fun n' h => hall n' (by simp [h])
        have key : ∀ ids : List UInt64, (∀ n' ∈ ids, ∃ c t, Entry.node n' c t ∈ done) →
            ∃ cs, List.Forall₂ (fun n c => ∃ t, Entry.node n c t ∈ file) ids cs ∧
              List.Forall₂ (fun id c => ∃ n, ctx.nodeMap.find id = some n ∧ n.coordinate = c) ids cs := by
          intro ids
          induction ids with
          | nil => exact fun _ => ⟨[], .nil, .nil⟩
          | cons m ids ih =>
            intro h
            obtain ⟨c, t, hm⟩ := h m (by simp)
            obtain ⟨cs, h1, h2⟩ := ih fun n' hn' => h n' (by simp [hn'])
            exact ⟨c :: cs, .cons ⟨t, by rw [hfile]; simp [hm]⟩ h1, .cons (inv.nodes m c t hm) h2⟩
        exact key _ hall
    obtain ⟨cs, hcs1, hcs2⟩ := hcs
    obtain ⟨ctx', h1, h2, h3, h4⟩ := C34_way_or_area_partial eps getId sort hs ctx id ids raw cs hcs2
    have hfw := inv.freshWay id hfresh
    have hshape := visitWay_shape eps getId sort ctx ctx' id ids raw h1
    refine ⟨ctx', h1, ?_⟩
    have hnodes : ∀ i c t, Entry.node i c t ∈ done ++ [Entry.way id ids raw] → ∃ n, ctx'.nodeMap.find i = some n ∧ n.coordinate = c := by
      intro i c t hm
      rw [h2]
      exact inv.nodes i c t (by simpa using hm)
    have hfn : ∀ i, i ∉ nodeIds (done ++ [Entry.way id ids raw]) → ctx'.nodeMap.find i = none := by
      intro i hi
      simp only [nodeIds, List.filterMap_append, List.mem_append, not_or] at hi
      rw [h2]
      exact inv.freshNode i hi.1
    by_cases henc : Encloses eps cs
    · obtain ⟨e1, e2, p, e3, e4, e5, e6, e7⟩ := h3 henc
      have hctx : ctx' = { ctx with areaMap := (id, p) :: ctx.areaMap } := by
        rcases hshape with ⟨q, hq⟩ | ⟨q, hq⟩
        · rw [set_fresh _ _ _ hfw.2] at hq
          subst hq
          simp only [Assoc.find_cons, if_true, Option.some.injEq] at e3
          rw [e3]
        · subst hq
          simp only at e1 e3
          rw [hfw.2] at e3
          exact absurd e3 (by simp)
      refine ⟨hnodes, hfn, ?_, l ++ [.area p], ?_, ?_⟩
      · intro i hi
        simp only [wayIds, List.filterMap_append, List.mem_append, not_or] at hi
        rw [hctx]
        simp only [Assoc.find_cons]
        rw [if_neg]
        · exact inv.freshWay i hi.1
        · rintro rfl; exact hi.2 (by simp)
      · rw [hctx]
        simp only [added, List.map_cons]
        refine (hl.append_right _).trans ?_
        simp only [added, List.append_assoc]
        refine List.Perm.append_left _ (List.Perm.append_left _ ?_)
        exact List.perm_append_comm
      · exact List.rel_append hrep (.cons ⟨cs, hcs1, p, e4, e5, .inl ⟨henc, rfl, e6, e7⟩⟩ .nil)
    · obtain ⟨e1, e2, p, e3, e4, e5, e6⟩ := h4 henc
      have hctx : ctx' = { ctx with wayMap := (id, p) :: ctx.wayMap } := by
        rcases hshape with ⟨q, hq⟩ | ⟨q, hq⟩
        · subst hq
          simp only at e1 e3
          rw [hfw.1] at e3
          exact absurd e3 (by simp)
        · rw [set_fresh _ _ _ hfw.1] at hq
          subst hq
          simp only [Assoc.find_cons, if_true, Option.some.injEq] at e3
          rw [e3]
      refine ⟨hnodes, hfn, ?_, l ++ [.way p], ?_, ?_⟩
      · intro i hi
        simp only [wayIds, List.filterMap_append, List.mem_append, not_or] at hi
        rw [hctx]
        simp only [Assoc.find_cons]
        rw [if_neg]
        · exact inv.freshWay i hi.1
        · rintro rfl; exact hi.2 (by simp)
      · rw [hctx]
        simp only [added, List.map_cons]
        refine (hl.append_right _).trans ?_
        simp only [added, List.append_assoc, List.cons_append]
        refine List.Perm.append_left _ ?_
        have := (List.perm_append_comm (l₁ := ctx.wayMap.map (fun e => Added.way e.2) ++ ctx.areaMap.map fun e => Added.area e.2) (l₂ := [Added.way p]))
        simpa using this
      · exact List.rel_append hrep (.cons ⟨cs, hcs1, p, e4, e5, .inr ⟨henc, rfl, e6⟩⟩ .nil)

theorem visitAll_inv (eps : K) (getId : String → UInt32) (sort : List Tag → List Tag) (hs : Sorts sort) (file : List (Entry K))
    (hn : (nodeIds file).Nodup) (hw : (wayIds file).Nodup) (hc : Complete file) (rest : List (Entry K)) :
    ∀ (done : List (Entry K)) (ctx : Context K), file = done ++ rest → Inv eps getId file done ctx →
      ∃ ctx', visitAll eps getId sort ctx rest = .ok ctx' ∧ Inv eps getId file file ctx' := by
  induction rest with
  | nil => intro done ctx hf inv; rw [List.append_nil] at hf; subst hf; exact ⟨ctx, rfl, inv⟩
  | cons e rest ih =>
    intro done ctx hf inv
    obtain ⟨ctx1, h1, inv1⟩ := inv_step eps getId sort hs file done rest e hf hn hw hc ctx inv
    obtain ⟨ctx2, h2, inv2⟩ := ih (done ++ [e]) ctx1 (by simpa using hf) inv1
    exact ⟨ctx2, by simp only [visitAll, h1, Outcome.bind, h2], inv2⟩

end OsmStreamProof

open OsmStreamProof

/-- C72: if a file has no repeated ids and every way comes after its nodes, then every node and every way is handed to the store exactly once, nodes with
their place, ways with the places of their nodes, and both with their tags. -/
theorem C72_every_entry_once (eps : K) (getId : String → UInt32) (sort : List Tag → List Tag) (hs : Sorts sort) (file : List (Entry K))
    (hn : (nodeIds file).Nodup) (hw : (wayIds file).Nodup) (hc : Complete file) :
    ∃ ctx, visitAll eps getId sort {} file = .ok ctx ∧ ∃ l, l.Perm (added ctx) ∧ List.Forall₂ (Represents eps getId file) file l := by
  obtain ⟨ctx, h1, h2⟩ := visitAll_inv eps getId sort hs file hn hw hc file [] {} rfl
    ⟨by simp, fun _ _ => rfl, fun _ _ => ⟨rfl, rfl⟩, [], .refl _, .nil⟩
  exact ⟨ctx, h1, h2.elements⟩

/-- C72: of nodes with one id the last one is kept. -/
theorem C72_last_node (eps : K) (getId : String → UInt32) (sort : List Tag → List Tag) (hs : Sorts sort) (before after : List (Entry K)) (id : UInt64)
    (c : Geo K) (raw : List RawTag) (h : id ∉ nodeIds after) (ctx : Context K)
    (hv : visitAll eps getId sort {} (before ++ .node id c raw :: after) = .ok ctx) :
    ∃ n, ctx.nodeMap.find id = some n ∧ n.id = id ∧ n.coordinate = c ∧ TagsOf getId raw n.tags := by
  have key : ∀ (after : List (Entry K)) (ctx ctx' : Context K), id ∉ nodeIds after → visitAll eps getId sort ctx after = .ok ctx' →
      ctx'.nodeMap.find id = ctx.nodeMap.find id := by
    intro after
    induction after with
    | nil => intro ctx ctx' _ h; rw [Outcome.ok.inj h]
    | cons e after ih =>
      intro ctx ctx' hi h
      cases e with
      | node i c raw =>
        simp only [nodeIds, List.filterMap_cons, List.mem_cons, not_or] at hi
        have := ih _ _ hi.2 h
        rw [this]
        simp only [visitNode, Assoc.find_set, if_neg hi.1]
      | way i ids raw =>
        simp only [nodeIds, List.filterMap_cons] at hi
        simp only [visitAll, visit] at h
        cases hw : visitWay eps getId sort ctx i ids raw with
        | ok ctx1 =>
          rw [hw] at h
          rw [ih _ _ hi h]
          rcases visitWay_shape eps getId sort ctx ctx1 i ids raw hw with ⟨p, rfl⟩ | ⟨p, rfl⟩ <;> rfl
        | throw w => rw [hw] at h; simp [Outcome.bind] at h
        | ub w => rw [hw] at h; simp [Outcome.bind] at h
  have split : ∀ (before : List (Entry K)) (ctx0 : Context K), visitAll eps getId sort ctx0 (before ++ .node id c raw :: after) = .ok ctx →
      ∃ ctx1, visitAll eps getId sort (visitNode getId sort ctx1 id c raw) after = .ok ctx := by
    intro before
    induction before with
    | nil => intro ctx0 h; exact ⟨ctx0, h⟩
    | cons e before ih =>
      intro ctx0 h
      simp only [List.cons_append, visitAll] at h
      cases hv : visit eps getId sort ctx0 e with
      | ok ctx1 => rw [hv] at h; exact ih ctx1 h
      | throw w => rw [hv] at h; simp [Outcome.bind] at h
      | ub w => rw [hv] at h; simp [Outcome.bind] at h
  obtain ⟨ctx1, h1⟩ := split before {} hv
  refine ⟨⟨id, convertTags getId sort raw, c⟩, ?_, rfl, rfl, OsmProof.tagsOf_convert getId sort hs raw⟩
  rw [key _ _ _ h h1]
  simp only [visitNode, Assoc.find_set, if_true]

/-- C72 needs its assumption on ids: a way which comes twice, first closed and then open, is handed on twice, as an area and as a way. -/
theorem C72_violated_way_twice (getId : String → UInt32) (sort : List Tag → List Tag) :
    ∃ (file : List (Entry ℚ)) (ctx : Context ℚ), Complete file ∧ (nodeIds file).Nodup ∧ visitAll (1 / 1000) getId sort {} file = .ok ctx ∧
      ∃ p q, (added ctx).filter (fun e => match e with | .node _ => false | _ => true) = [.way p, .area q] ∧ p.id = q.id := by
  let file : List (Entry ℚ) := [.node 1 ⟨0, 0⟩ [], .node 2 ⟨0, 1⟩ [], .node 3 ⟨1, 1⟩ [], .way 9 [1, 2, 3, 1] [], .way 9 [1, 2] []]
  refine ⟨file, ⟨[(3, ⟨3, sort [], ⟨1, 1⟩⟩), (2, ⟨2, sort [], ⟨0, 1⟩⟩), (1, ⟨1, sort [], ⟨0, 0⟩⟩)], [(9, ⟨9, sort [], [⟨0, 0⟩, ⟨0, 1⟩]⟩)],
    [(9, ⟨9, sort [], [⟨0, 0⟩, ⟨0, 1⟩, ⟨1, 1⟩]⟩)]⟩, ?_, by decide, ?_, ⟨9, sort [], [⟨0, 0⟩, ⟨0, 1⟩]⟩,
    ⟨9, sort [], [⟨0, 0⟩, ⟨0, 1⟩, ⟨1, 1⟩]⟩, rfl, rfl⟩
  rotate_left
  · have n12 : ¬ (1 : UInt64) = 2 := by decide
    have n13 : ¬ (1 : UInt64) = 3 := by decide
    have n23 : ¬ (2 : UInt64) = 3 := by decide
    have n21 : ¬ (2 : UInt64) = 1 := by decide
    have n31 : ¬ (3 : UInt64) = 1 := by decide
    have n32 : ¬ (3 : UInt64) = 2 := by decide
    norm_num [n12, n13, n23, n21, n31, n32, file, visitAll, visit, visitNode, visitWay, nodeCoordinates, Assoc.find, Assoc.set, Assoc.erase, convertTags, geoEq, isClockwise,
      getArea, edges, cross, Outcome.bind]
  intro before id ids tags rest h n hn
  rcases before with _ | ⟨a, _ | ⟨b, _ | ⟨c, _ | ⟨d, _ | ⟨e, before⟩⟩⟩⟩⟩ <;> simp [file] at h
  · obtain ⟨rfl, rfl, rfl, ⟨rfl, rfl, rfl⟩, rfl⟩ := h
    simp only [List.mem_cons, List.not_mem_nil, or_false] at hn
    rcases hn with rfl | rfl | rfl | rfl <;> simp
  · obtain ⟨rfl, rfl, rfl, rfl, ⟨rfl, rfl, rfl⟩, rfl⟩ := h
    simp only [List.mem_cons, List.not_mem_nil, or_false] at hn
    rcases hn with rfl | rfl <;> simp

/-- A file with a triangle and a line. -/
example : ∃ file : List (Entry ℚ), (nodeIds file).Nodup ∧ (wayIds file).Nodup ∧ Complete file ∧ 2 ≤ (wayIds file).length := by
  let file : List (Entry ℚ) := [.node 1 ⟨0, 0⟩ [], .node 2 ⟨0, 1⟩ [], .node 3 ⟨1, 1⟩ [], .way 9 [1, 2, 3, 1] [], .way 8 [1, 2] []]
  refine ⟨file, by decide, by decide, ?_, by decide⟩
  intro before id ids tags rest h n hn
  rcases before with _ | ⟨a, _ | ⟨b, _ | ⟨c, _ | ⟨d, _ | ⟨e, before⟩⟩⟩⟩⟩ <;> simp [file] at h
  · obtain ⟨rfl, rfl, rfl, ⟨rfl, rfl, rfl⟩, rfl⟩ := h
    simp only [List.mem_cons, List.not_mem_nil, or_false] at hn
    rcases hn with rfl | rfl | rfl | rfl <;> simp
  · obtain ⟨rfl, rfl, rfl, rfl, ⟨rfl, rfl, rfl⟩, rfl⟩ := h
    simp only [List.mem_cons, List.not_mem_nil, or_false] at hn
    rcases hn with rfl | rfl <;> simp

end Verif.Props
