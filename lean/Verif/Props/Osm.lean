import Verif.Props.OsmSpec
import Mathlib.Tactic.Ring
import Mathlib.Tactic.Linarith
import Mathlib.Tactic.NormNum
import Mathlib.Data.Rat.Defs
import Mathlib.Algebra.Order.Ring.Rat

/-! # C34, C37: OSM ways and tags -/
namespace Verif.Props
open Verif.Osm Verif.OsmSpec

namespace OsmProof
variable {K : Type} [Field K] [LinearOrder K] [IsStrictOrderedRing K]

/-- Sum along an open path. -/
def pathSum : List (Geo K) → K
  | p :: q :: l => cross p q + pathSum (q :: l)
  | _ => 0

omit [LinearOrder K] [IsStrictOrderedRing K] in
theorem edges_eq (p : Geo K) (l : List (Geo K)) : edges p l = pathSum (p :: l) := by
  induction l generalizing p with
  | nil => rfl
  | cons q l ih => rw [edges, pathSum, ih]

omit [LinearOrder K] [IsStrictOrderedRing K] in
theorem pathSum_append (l : List (Geo K)) (p q : Geo K) (m : List (Geo K)) :
    pathSum (l ++ p :: q :: m) = pathSum (l ++ [p]) + cross p q + pathSum (q :: m) := by
  induction l with
  | nil => simp [pathSum]
  | cons a l ih =>
    cases l with
    | nil => simp [pathSum]; ring
    | cons b l =>
      simp only [List.cons_append, pathSum] at ih ⊢
      rw [ih]; ring

omit [LinearOrder K] [IsStrictOrderedRing K] in
theorem cross_swap (p q : Geo K) : cross q p = - cross p q := by simp [cross]

omit [LinearOrder K] [IsStrictOrderedRing K] in
theorem pathSum_reverse (l : List (Geo K)) : pathSum l.reverse = - pathSum l := by
  induction l with
  | nil => simp [pathSum]
  | cons a l ih =>
    cases l with
    | nil => simp [pathSum]
    | cons b l =>
      rw [List.reverse_cons, List.reverse_cons, List.append_assoc]
      have := pathSum_append l.reverse b a []
      simp only [List.cons_append, List.nil_append]
      rw [this, ← List.reverse_cons, ih, cross_swap]
      simp [pathSum]

omit [LinearOrder K] [IsStrictOrderedRing K] in
/-- A closed polygon: the path and the closing edge. -/
theorem getArea_eq (a z : Geo K) (m : List (Geo K)) (l : List (Geo K)) (hl : l = a :: m) (hz : l.getLast? = some z) :
    getArea l = pathSum l + cross z a := by
  rw [getArea, hz]
  simp only [edges_eq]
  rw [hl, pathSum]; ring

omit [LinearOrder K] [IsStrictOrderedRing K] in
theorem getArea_reverse (l : List (Geo K)) : getArea l.reverse = - getArea l := by
  cases l with
  | nil => simp [getArea]
  | cons a m =>
    obtain ⟨z, hz⟩ : ∃ z, (a :: m).getLast? = some z := ⟨_, List.getLast?_eq_getLast_of_ne_nil (by simp)⟩
    obtain ⟨m', hm'⟩ : ∃ m', (a :: m).reverse = z :: m' := by
      have h1 : (a :: m).reverse.head? = some z := by rw [List.head?_reverse]; exact hz
      cases hr : (a :: m).reverse with
      | nil => rw [hr] at h1; simp at h1
      | cons y r => rw [hr] at h1; simp at h1; exact ⟨r, by rw [h1]⟩
    have h2 : (a :: m).reverse.getLast? = some a := by rw [List.getLast?_reverse]; rfl
    rw [getArea_eq z a m' _ hm' h2, getArea_eq a z m _ rfl hz, pathSum_reverse, cross_swap]
    ring

omit [LinearOrder K] [IsStrictOrderedRing K] in
theorem doubleArea_cons (l : List (Geo K)) (a z : Geo K) :
    (List.zipWith (fun p q => p.lon * q.lat - q.lon * p.lat) (a :: l) (l ++ [z])).sum = pathSum (a :: l ++ [z]) := by
  induction l generalizing a with
  | nil => simp [pathSum, cross]
  | cons b l ih =>
    simp only [List.cons_append, List.zipWith_cons_cons, List.sum_cons, pathSum] at ih ⊢
    rw [ih]; rfl

omit [LinearOrder K] [IsStrictOrderedRing K] in
theorem getArea_doubleArea (l : List (Geo K)) : getArea l = doubleArea l := by
  cases l with
  | nil => simp [getArea, doubleArea]
  | cons a m =>
    obtain ⟨z, hz⟩ : ∃ z, (a :: m).getLast? = some z := ⟨_, List.getLast?_eq_getLast_of_ne_nil (by simp)⟩
    have h := doubleArea_cons m a a
    have hd : doubleArea (a :: m) = pathSum (a :: m ++ [a]) := by
      rw [← h]; simp [doubleArea]
    rw [hd, getArea_eq a z m _ rfl hz]
    obtain ⟨pre, hpre⟩ : ∃ pre, a :: m = pre ++ [z] := by
      refine ⟨(a :: m).dropLast, ?_⟩
      have := List.dropLast_append_getLast? z (by rw [hz]; rfl)
      exact this.symm
    rw [hpre, List.append_assoc]
    have := pathSum_append pre z a []
    simp only [List.cons_append, List.nil_append] at this ⊢
    rw [this]
    simp [pathSum]

theorem nodeCoordinates_ok (ctx : Context K) (ids : List UInt64) (cs : List (Geo K))
    (h : List.Forall₂ (fun id c => ∃ n, ctx.nodeMap.find id = some n ∧ n.coordinate = c) ids cs) : nodeCoordinates ctx ids = .ok cs := by
  induction h with
  | nil => rfl
  | cons h _ ih =>
    obtain ⟨n, hn, hc⟩ := h
    simp only [nodeCoordinates, hn, ih, Outcome.bind, hc]

omit [IsStrictOrderedRing K] in
theorem geoEq_iff (eps : K) (a b : Geo K) : geoEq eps a b = true ↔ Coincide eps a b := by
  simp [geoEq, Coincide]

theorem tagsOf_convert (getId : String → UInt32) (sort : List Tag → List Tag) (hs : Sorts sort) (raw : List RawTag) :
    TagsOf getId raw (convertTags getId sort raw) := hs _

end OsmProof

open OsmProof
variable {K : Type} [Field K] [LinearOrder K] [IsStrictOrderedRing K]

/-- C34: a way whose nodes are all present becomes an area iff it has more than three references and its ends coincide. The area has all
points but the last reference, in the given or in the opposite order, and is not clockwise; a way has all points. Maps of other kinds and
entries of other ids stay. Partial: the closing point may be repeated further, see `C34_violated_repeated_closing`. -/
theorem C34_way_or_area_partial (eps : K) (getId : String → UInt32) (sort : List Tag → List Tag) (hs : Sorts sort) (ctx : Context K)
    (id : UInt64) (ids : List UInt64) (raw : List RawTag) (cs : List (Geo K))
    (h : List.Forall₂ (fun id c => ∃ n, ctx.nodeMap.find id = some n ∧ n.coordinate = c) ids cs) :
    ∃ ctx', visitWay eps getId sort ctx id ids raw = .ok ctx' ∧ ctx'.nodeMap = ctx.nodeMap ∧
      ((3 < cs.length ∧ ∃ a z, cs.head? = some a ∧ cs.getLast? = some z ∧ Coincide eps a z) →
        ctx'.wayMap = ctx.wayMap ∧ (∀ i ≠ id, ctx'.areaMap.find i = ctx.areaMap.find i) ∧
        ∃ p, ctx'.areaMap.find id = some p ∧ p.id = id ∧ TagsOf getId raw p.tags ∧
          (p.coordinates = cs.dropLast ∨ p.coordinates = cs.dropLast.reverse) ∧ 0 ≤ doubleArea p.coordinates) ∧
      (¬ (3 < cs.length ∧ ∃ a z, cs.head? = some a ∧ cs.getLast? = some z ∧ Coincide eps a z) →
        ctx'.areaMap = ctx.areaMap ∧ (∀ i ≠ id, ctx'.wayMap.find i = ctx.wayMap.find i) ∧
        ∃ p, ctx'.wayMap.find id = some p ∧ p.id = id ∧ TagsOf getId raw p.tags ∧ p.coordinates = cs) := by
  have hc := nodeCoordinates_ok ctx ids cs h
  have hT := tagsOf_convert getId sort hs raw
  by_cases hd : 3 < cs.length ∧ ∃ a z, cs.head? = some a ∧ cs.getLast? = some z ∧ Coincide eps a z
  · obtain ⟨hl, a, z, ha, hz, hco⟩ := hd
    refine ⟨{ ctx with areaMap := ctx.areaMap.set id ⟨id, convertTags getId sort raw,
      if isClockwise cs.dropLast then cs.dropLast.reverse else cs.dropLast⟩ }, ?_, rfl, fun _ => ⟨rfl, ?_, ⟨id, convertTags getId sort raw,
      if isClockwise cs.dropLast then cs.dropLast.reverse else cs.dropLast⟩, ?_, rfl, hT, ?_, ?_⟩, ?_⟩
    · simp only [visitWay, hc, Outcome.bind, ha, hz]
      rw [if_pos ⟨hl, (geoEq_iff eps a z).2 hco⟩]
    · intro i hi; simp only [Assoc.find_set, if_neg hi]
    · simp only [Assoc.find_set, if_true]
    · by_cases hcw : isClockwise cs.dropLast = true
      · right; simp only [hcw, if_true]
      · left; simp [hcw]
    · simp only
      by_cases hcw : isClockwise cs.dropLast = true
      · rw [if_pos hcw, ← getArea_doubleArea, getArea_reverse]
        have : getArea cs.dropLast < 0 := by simpa [isClockwise] using hcw
        linarith
      · rw [if_neg hcw, ← getArea_doubleArea]
        have : ¬ getArea cs.dropLast < 0 := by simpa [isClockwise] using hcw
        exact not_lt.1 this
    · intro hn; exact absurd ⟨hl, a, z, ha, hz, hco⟩ hn
  · refine ⟨{ ctx with wayMap := ctx.wayMap.set id ⟨id, convertTags getId sort raw, cs⟩ }, ?_, rfl, fun hh => absurd hh hd,
      fun _ => ⟨rfl, ?_, ⟨id, convertTags getId sort raw, cs⟩, ?_, rfl, hT, rfl⟩⟩
    · simp only [visitWay, hc, Outcome.bind]
      split
      · rename_i a z ha hz
        rw [if_neg]
        rintro ⟨hl, he⟩
        exact hd ⟨hl, a, z, ha, hz, (geoEq_iff eps a z).1 he⟩
      · rfl
    · intro i hi; simp only [Assoc.find_set, if_neg hi]
    · simp only [Assoc.find_set, if_true]

/-- C34 needs its assumption: a way naming an absent node dereferences a null pointer. -/
theorem C34_violated_missing_node (eps : K) (getId : String → UInt32) (sort : List Tag → List Tag) (ctx : Context K) (id n : UInt64)
    (pre post : List UInt64) (raw : List RawTag) (hpre : ∀ i ∈ pre, ∃ m, ctx.nodeMap.find i = some m)
    (hn : ctx.nodeMap.find n = none) : ∃ w, visitWay eps getId sort ctx id (pre ++ n :: post) raw = .ub w := by
  have : nodeCoordinates ctx (pre ++ n :: post) = .ub "null node" := by
    induction pre with
    | nil => simp only [List.nil_append, nodeCoordinates, hn]
    | cons i pre ih =>
      obtain ⟨m, hm⟩ := hpre i (by simp)
      simp only [List.cons_append, nodeCoordinates, hm, ih fun j hj => hpre j (by simp [hj]), Outcome.bind]
  exact ⟨"null node", by simp only [visitWay, this, Outcome.bind]⟩

/-- C34 is false for a way whose closing point is given twice: the area still ends where it begins. -/
theorem C34_violated_repeated_closing (getId : String → UInt32) (sort : List Tag → List Tag) (hs : Sorts sort) :
    ∃ (ctx ctx' : Context ℚ) (p : Path ℚ), visitWay (1 / 1000) getId sort ctx 9 [1, 2, 3, 1, 1] [] = .ok ctx' ∧
      ctx'.areaMap.find 9 = some p ∧ p.coordinates.head? = some ⟨0, 0⟩ ∧ p.coordinates.getLast? = some ⟨0, 0⟩ := by
  let ctx : Context ℚ := { nodeMap := [(1, ⟨1, [], ⟨0, 0⟩⟩), (2, ⟨2, [], ⟨0, 1⟩⟩), (3, ⟨3, [], ⟨1, 1⟩⟩)] }
  have h : List.Forall₂ (fun id c => ∃ n, ctx.nodeMap.find id = some n ∧ n.coordinate = c) [1, 2, 3, 1, 1]
      [⟨0, 0⟩, ⟨0, 1⟩, ⟨1, 1⟩, ⟨0, 0⟩, ⟨0, 0⟩] :=
    .cons ⟨_, rfl, rfl⟩ (.cons ⟨_, rfl, rfl⟩ (.cons ⟨_, rfl, rfl⟩ (.cons ⟨_, rfl, rfl⟩ (.cons ⟨_, rfl, rfl⟩ .nil))))
  obtain ⟨ctx', h1, -, h2, -⟩ := C34_way_or_area_partial (1 / 1000) getId sort hs ctx 9 _ [] _ h
  obtain ⟨-, -, p, hp, -, -, hc, -⟩ := h2 ⟨by simp, ⟨0, 0⟩, ⟨0, 0⟩, rfl, rfl, by constructor <;> norm_num⟩
  refine ⟨ctx, ctx', p, h1, hp, ?_⟩
  rcases hc with hc | hc <;> rw [hc] <;> exact ⟨rfl, rfl⟩

/-! ## Tags -/

namespace OsmProof

theorem uniqueKeys_spec (l : List Tag) (h : l.Pairwise (fun a b => a.key ≤ b.key)) :
    (uniqueKeys l).Pairwise (fun a b => a.key < b.key) ∧ (∀ t ∈ uniqueKeys l, t ∈ l) ∧
    (∀ t ∈ l, ∃ u ∈ uniqueKeys l, u.key = t.key) := by
  induction l using uniqueKeys.induct with
  | case1 => simp [uniqueKeys]
  | case2 t => simp [uniqueKeys]
  | case3 t u l heq ih =>
    rw [uniqueKeys, if_pos heq]
    have h' : (t :: l).Pairwise (fun a b => a.key ≤ b.key) := by
      refine h.sublist ?_
      exact List.Sublist.cons_cons _ (List.sublist_cons_self _ _)
    obtain ⟨h1, h2, h3⟩ := ih h'
    refine ⟨h1, ?_, ?_⟩
    · intro x hx
      have := h2 x hx
      simp at this ⊢; tauto
    · intro x hx
      rcases List.mem_cons.1 hx with rfl | hx
      · exact h3 x (by simp)
      · rcases List.mem_cons.1 hx with rfl | hx
        · obtain ⟨v, hv, hk⟩ := h3 t (by simp)
          exact ⟨v, hv, hk.trans heq⟩
        · exact h3 x (by simp [hx])
  | case4 t u l hne ih =>
    rw [uniqueKeys, if_neg hne]
    obtain ⟨ht, h'⟩ := List.pairwise_cons.1 h
    obtain ⟨h1, h2, h3⟩ := ih h'
    refine ⟨List.pairwise_cons.2 ⟨?_, h1⟩, ?_, ?_⟩
    · intro x hx
      have hxm := h2 x hx
      have htu : t.key < u.key := by
        have := ht u (by simp)
        rw [UInt32.lt_iff_toNat_lt]
        rw [UInt32.le_iff_toNat_le] at this
        have hne' : t.key.toNat ≠ u.key.toNat := fun hh => hne (UInt32.toNat_inj.1 hh)
        omega
      rcases List.mem_cons.1 hxm with rfl | hxl
      · exact htu
      · have := (List.pairwise_cons.1 h').1 x hxl
        rw [UInt32.lt_iff_toNat_lt] at htu ⊢
        rw [UInt32.le_iff_toNat_le] at this
        omega
    · intro x hx
      rcases List.mem_cons.1 hx with rfl | hx
      · simp
      · exact List.mem_cons_of_mem _ (h2 x hx)
    · intro x hx
      rcases List.mem_cons.1 hx with rfl | hx
      · exact ⟨x, by simp, rfl⟩
      · obtain ⟨v, hv, hk⟩ := h3 x hx
        exact ⟨v, List.mem_cons_of_mem _ hv, hk⟩

end OsmProof

/-- C37: merged tags are strictly sorted by key, hence each key once; every tag is one of the two lists, and every key of both is kept. -/
theorem C37_merge (sort : List Tag → List Tag) (hs : Sorts sort) (dest tags : List Tag) :
    (mergeTags sort dest tags).Pairwise (fun a b => a.key < b.key) ∧
    (∀ t ∈ mergeTags sort dest tags, t ∈ dest ∨ t ∈ tags) ∧
    (∀ t, t ∈ dest ∨ t ∈ tags → ∃ u ∈ mergeTags sort dest tags, u.key = t.key) := by
  obtain ⟨hp, hso⟩ := hs (dest ++ tags)
  obtain ⟨h1, h2, h3⟩ := uniqueKeys_spec _ hso
  refine ⟨h1, ?_, ?_⟩
  · intro t ht
    have := hp.mem_iff.1 (h2 t ht)
    simpa using this
  · intro t ht
    exact h3 t (hp.mem_iff.2 (by simpa using ht))

/-- Sorting functions exist, the case is not void. -/
theorem C37_sorts_exist : Sorts (fun l => l.mergeSort (fun a b => decide (a.key ≤ b.key))) := by
  intro l
  refine ⟨List.mergeSort_perm l _, ?_⟩
  have := List.pairwise_mergeSort (le := fun a b : Tag => decide (a.key ≤ b.key))
    (by intro a b c h1 h2; simp only [decide_eq_true_eq, UInt32.le_iff_toNat_le] at *; omega)
    (by intro a b; simp only [Bool.or_eq_true, decide_eq_true_eq, UInt32.le_iff_toNat_le]; omega) l
  exact this.imp fun h => by simpa using h

example : mergeTags (fun l => l.mergeSort (fun a b => decide (a.key ≤ b.key))) [⟨1, 10⟩, ⟨3, 30⟩] [⟨2, 20⟩, ⟨3, 31⟩] =
    [⟨1, 10⟩, ⟨2, 20⟩, ⟨3, 30⟩] := by
  simp [mergeTags, List.mergeSort, List.MergeSort.Internal.splitInTwo, uniqueKeys]

end Verif.Props
