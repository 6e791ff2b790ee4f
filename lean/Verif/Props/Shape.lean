import Mathlib.Tactic.Conv
import Mathlib.Tactic.Set
import Verif.Model.Shape
import Verif.Props.ShapeSpec

/-! # C50 and C66: shapes with parts -/
namespace Verif.Props
open Verif.Shape Verif.ShapeSpec

namespace ShapeProof
variable {C : Type}

theorem starts_length (first : Nat) (parts : List (List C)) : (starts first parts).length = parts.length := by
  induction parts generalizing first with
  | nil => rfl
  | cons p ps ih => simp [starts, ih]

theorem starts_get (first : Nat) (before : List (List C)) (p : List C) (after : List (List C)) :
    (starts first (before ++ p :: after))[before.length]? = some (first + before.flatten.length) := by
  induction before generalizing first with
  | nil => simp [starts]
  | cons b before ih =>
    simp only [List.cons_append, starts, List.length_cons, List.getElem?_cons_succ]
    rw [ih]; simp; omega

theorem modify_last {α : Type} (l : List α) (a : α) (f : α → α) : (l ++ [a]).modify l.length f = l ++ [f a] := by
  induction l with
  | nil => rfl
  | cons b l ih => simp [List.modify_succ_cons, ih]

/-- Vertices of a part besides its first one. -/
theorem inner (o : Object C) (beyond : Option Nat) (xs rest : List C) (i partNum : Nat) (done : List (Member C)) (r : Bool) (cs : List C)
    (h : ∃ s, readStart o beyond partNum = .ok s ∧ (partNum < o.partStart.length → i + xs.length ≤ s)) :
    polygonLoop o beyond i partNum done.length (done ++ [⟨r, cs⟩]) (xs ++ rest) =
      polygonLoop o beyond (i + xs.length) partNum done.length (done ++ [⟨r, cs ++ xs⟩]) rest := by
  induction xs generalizing i cs with
  | nil => simp
  | cons x xs ih =>
    obtain ⟨s, h1, h2⟩ := h
    rw [List.cons_append]
    conv_lhs => unfold polygonLoop
    have hs : startPart o beyond i partNum done.length (done ++ [⟨r, cs⟩]) = .ok (done ++ [⟨r, cs⟩], done.length, partNum) := by
      unfold startPart
      simp only [h1, Outcome.bind]
      rw [if_neg]
      rintro ⟨a, b⟩
      have := h2 a
      simp at this
      omega
    simp only [hs, Outcome.bind]
    rw [if_pos (by simp), modify_last, ih (i + 1) (cs ++ [x]) ⟨s, h1, fun a => by have := h2 a; simp at this; omega⟩]
    simp only [List.length_cons, List.append_assoc, List.singleton_append]
    rw [show i + 1 + xs.length = i + (xs.length + 1) by omega]

theorem loop_parts (o : Object C) (v : Nat) (all : List (List C)) (hne : ∀ p ∈ all, p ≠ []) (hstart : o.partStart = starts 0 all)
    (hring : o.isRing = all.map fun _ => true) (hvert : o.vertices = all.flatten) (before after : List (List C)) (hall : all = before ++ after) (c : Nat) :
    polygonLoop o (some v) before.flatten.length before.length c (before.map fun p => ⟨true, p⟩) after.flatten =
      .ok (all.map fun p => ⟨true, p⟩) := by
  induction after generalizing before c with
  | nil => rw [hall]; simp [polygonLoop]
  | cons p after ih =>
    cases hp : p with
    | nil => exact absurd hp (hne p (by rw [hall]; simp))
    | cons x xs =>
      have hget : readStart o (some v) before.length = .ok before.flatten.length := by
        unfold readStart
        rw [hstart, hall, starts_get]; simp
      have hlen : o.partStart.length = before.length + (after.length + 1) := by rw [hstart, starts_length, hall]; simp
      have hnext : ∃ s, readStart o (some v) (before.length + 1) = .ok s ∧
          (before.length + 1 < o.partStart.length → before.flatten.length + 1 + xs.length ≤ s) := by
        cases after with
        | nil =>
          unfold readStart
          cases hq : o.partStart[before.length + 1]? with
          | none => exact ⟨v, rfl, fun h => by rw [hlen] at h; simp at h⟩
          | some s => exact ⟨s, rfl, fun h => by rw [hlen] at h; simp at h⟩
        | cons q after =>
          refine ⟨(before ++ [p]).flatten.length, ?_, fun _ => by rw [hp]; simp; omega⟩
          unfold readStart
          have := starts_get 0 (before ++ [p]) q after
          simp only [List.length_append, List.length_singleton, List.append_assoc, List.singleton_append] at this
          rw [hstart, hall, this]; simp
      have hs : startPart o (some v) before.flatten.length before.length c (before.map fun p => ⟨true, p⟩) =
          .ok ((before.map fun p => (⟨true, p⟩ : Member C)) ++ [⟨true, []⟩], before.length, before.length + 1) := by
        unfold startPart
        simp only [hget, Outcome.bind]
        rw [if_pos ⟨by omega, by trivial⟩]
        have hr : o.isRing[before.length]? = some true := by rw [hring, hall]; simp
        simp only [hr]
        rw [if_pos (by simp)]
        have hm := modify_last (before.map fun p => (⟨true, p⟩ : Member C)) ⟨false, []⟩ (fun m => { m with isRing := true })
        rw [List.length_map] at hm
        by_cases hl : before.length = o.partStart.length - 1
        · rw [if_pos hl]
          simp only
          rw [if_neg (by rw [hvert, hall]; simp), hm]
        · rw [if_neg hl]
          obtain ⟨s, s1, s2⟩ := hnext
          simp only [s1]
          rw [if_neg (by have := s2 (by omega); omega), hm]
      rw [List.flatten_cons]
      show polygonLoop o (some v) _ _ _ _ (x :: (xs ++ after.flatten)) = _
      unfold polygonLoop
      simp only [hs, Outcome.bind]
      rw [if_pos (by simp)]
      have hm := modify_last (before.map fun p => (⟨true, p⟩ : Member C)) ⟨true, []⟩ (fun m => { m with coordinates := m.coordinates ++ [x] })
      rw [List.length_map] at hm
      rw [hm]
      have hi := inner o (some v) xs after.flatten (before.flatten.length + 1) (before.length + 1) (before.map fun p => ⟨true, p⟩) true [x] hnext
      rw [List.length_map] at hi
      simp only [List.nil_append]
      rw [hi]
      have := ih (before ++ [p]) (by rw [hall]; simp) before.length
      rw [hp] at this
      simp only [List.flatten_append, List.flatten_cons, List.flatten_nil, List.append_nil, List.length_append, List.length_cons, List.length_nil,
        List.map_append, List.map_cons, List.map_nil] at this
      simp only [List.singleton_append]
      rw [show before.flatten.length + 1 + xs.length = before.flatten.length + (xs.length + 1) by omega]
      exact this

theorem proper_parts (vs : List C) (table : List Nat) (h : table.Pairwise (· < ·)) (first : Nat) (hf : table.head? = some first)
    (hlt : ∀ s ∈ table, s < first + vs.length) : ∃ parts : List (List C), (∀ p ∈ parts, p ≠ []) ∧ parts.flatten = vs ∧ starts first parts = table := by
  induction table generalizing vs first with
  | nil => simp at hf
  | cons s table ih =>
    simp at hf
    subst hf
    have hs := hlt s (by simp)
    rw [List.pairwise_cons] at h
    cases table with
    | nil => exact ⟨[vs], by simp; intro hc; subst hc; simp at hs, by simp, rfl⟩
    | cons t table =>
      have hst := h.1 t (by simp)
      have ht := hlt t (by simp)
      obtain ⟨parts, h1, h2, h3⟩ := ih (vs.drop (t - s)) h.2 t rfl (fun u hu => by
        have := hlt u (List.mem_cons_of_mem _ hu)
        rw [List.length_drop]; omega)
      refine ⟨vs.take (t - s) :: parts, ?_, by rw [List.flatten_cons, h2, List.take_append_drop], ?_⟩
      · intro p hp
        rcases List.mem_cons.1 hp with rfl | hp
        · intro hc
          have := congrArg List.length hc
          rw [List.length_take, List.length_nil] at this
          omega
        · exact h1 p hp
      · have : (vs.take (t - s)).length = t - s := by rw [List.length_take]; omega
        simp only [starts, this]
        rw [show s + (t - s) = t by omega, h3]

end ShapeProof

open ShapeProof
variable {C : Type}

/-- C50: a polygon with the parts `parts` is split in exactly these parts, whatever is found behind the part table. Partial: that read behind the
table is undefined behaviour, see `C50_violated_read`; and the table has to begin with 0, see `C50_violated_start`. -/
theorem C50_parts_partial (parts : List (List C)) (hne : ∀ p ∈ parts, p ≠ []) (beyond : Nat) :
    polygonMembers ⟨parts.flatten, starts 0 parts, parts.map fun _ => true⟩ (some beyond) = .ok (parts.map fun p => ⟨true, p⟩) := by
  unfold polygonMembers
  have := loop_parts ⟨parts.flatten, starts 0 parts, parts.map fun _ => true⟩ beyond parts hne rfl rfl rfl [] parts rfl 0
  simpa using this

/-- C50: every proper part table is the one of some parts of the vertices, so the theorem above applies to all of them. -/
theorem C50_tables (vertices : List C) (table : List Nat) (h : Proper table vertices.length) :
    ∃ parts : List (List C), (∀ p ∈ parts, p ≠ []) ∧ parts.flatten = vertices ∧ starts 0 parts = table :=
  proper_parts vertices table h.2.1 0 h.1 (by simpa using h.2.2)

/-- C50: the parts become the members of one relation: single points as nodes, all others as areas. -/
theorem C50_relation (parts : List (List C)) (hne : ∀ p ∈ parts, p ≠ []) (beyond : Nat) (tags : List Tag) :
    ∃ members : List (Element C), visitPolygon ⟨parts.flatten, starts 0 parts, parts.map fun _ => true⟩ (some beyond) tags = .ok [.relation 0 tags members] ∧
      members.length = parts.length ∧ ∀ (k : Nat) (p : List C), parts[k]? = some p →
        (∀ c, p = [c] → members[k]? = some (.node 0 [] c)) ∧ (2 ≤ p.length → members[k]? = some (.area 0 [] p)) := by
  refine ⟨(parts.map fun p => (⟨true, p⟩ : Member C)).map memberElement, by unfold visitPolygon; simp only [C50_parts_partial parts hne beyond, Outcome.bind], by simp, ?_⟩
  intro k p hp
  simp only [List.getElem?_map, hp, Option.map_some]
  constructor
  · rintro c rfl; rfl
  · intro h2
    unfold memberElement
    match p, h2 with
    | a :: b :: rest, _ => rfl

/-- C50 is false as far as memory is concerned: for every polygon whose last part has more than one vertex the number behind the part table is read. -/
theorem C50_violated_read (parts : List (List C)) (hne : ∀ p ∈ parts, p ≠ []) (last : List C) (hl : parts.getLast? = some last) (h2 : 2 ≤ last.length) :
    polygonMembers ⟨parts.flatten, starts 0 parts, parts.map fun _ => true⟩ none = .ub "read behind the part table" := by
  -- the loop runs through the same states as with any value behind the table, until that value is needed
  obtain ⟨before, rfl⟩ : ∃ before, parts = before ++ [last] := by
    rcases List.eq_nil_or_concat parts with rfl | ⟨l, a, rfl⟩
    · simp at hl
    · simp at hl; subst hl; exact ⟨l, by simp⟩
  set o : Object C := ⟨(before ++ [last]).flatten, starts 0 (before ++ [last]), (before ++ [last]).map fun _ => true⟩ with ho
  have hlen : o.partStart.length = before.length + 1 := by rw [ho]; simp [starts_length]
  -- reads within the table
  have hread : ∀ i < before.length + 1, ∃ s, readStart o none i = .ok s ∧ readStart o (some 0) i = .ok s := by
    intro i hi
    unfold readStart
    rw [List.getElem?_eq_getElem (by omega)]
    exact ⟨_, rfl, rfl⟩
  have hbeyond : readStart o none (before.length + 1) = .ub "read behind the part table" := by
    unfold readStart
    rw [List.getElem?_eq_none (by omega)]
  -- the run until the last part
  have run : ∀ (done after : List (List C)), before = done ++ after → ∀ c,
      polygonLoop o none done.flatten.length done.length c (done.map fun p => ⟨true, p⟩) (after.flatten ++ last) =
        .ub "read behind the part table" := by
    intro done after hda
    induction after generalizing done with
    | nil =>
      intro c
      have hb : before = done := by simpa using hda
      subst hb
      obtain ⟨x, y, rest, rfl⟩ : ∃ x y rest, last = x :: y :: rest := by
        match last, h2 with
        | x :: y :: rest, _ => exact ⟨x, y, rest, rfl⟩
      have hget : readStart o none before.length = .ok before.flatten.length := by
        unfold readStart
        rw [ho]
        simp only
        rw [starts_get]; simp
      have hs : ∃ m, startPart o none before.flatten.length before.length c (before.map fun p => ⟨true, p⟩) = .ok (m, before.length, before.length + 1) ∧
          m.length = before.length + 1 := by
        unfold startPart
        simp only [hget, Outcome.bind]
        rw [if_pos ⟨by omega, by trivial⟩]
        have hr : o.isRing[before.length]? = some true := by rw [ho]; simp
        simp only [hr]
        rw [if_pos (by simp), if_pos (by omega)]
        simp only
        rw [if_neg (by rw [ho]; simp)]
        exact ⟨_, rfl, by simp⟩
      obtain ⟨m, hs, hml⟩ := hs
      simp only [List.flatten_nil, List.nil_append]
      unfold polygonLoop
      simp only [hs, Outcome.bind]
      rw [if_pos (by omega)]
      unfold polygonLoop startPart
      simp only [hbeyond, Outcome.bind]
    | cons p after ih =>
      intro c
      have hpne : p ≠ [] := hne p (by rw [hda]; simp)
      obtain ⟨x, xs, rfl⟩ := List.exists_cons_of_ne_nil hpne
      have hget : readStart o none done.length = .ok done.flatten.length := by
        unfold readStart
        rw [ho]
        simp only
        rw [hda, List.append_assoc, List.cons_append, starts_get]; simp
      have hnext : readStart o none (done.length + 1) = .ok (done.flatten.length + (xs.length + 1)) := by
        unfold readStart
        rw [ho]
        simp only
        cases after with
        | nil =>
          have := starts_get 0 (done ++ [x :: xs]) last []
          simp only [List.length_append, List.length_singleton] at this
          rw [hda, this]; simp
        | cons q after =>
          have := starts_get 0 (done ++ [x :: xs]) q (after ++ [last])
          simp only [List.length_append, List.length_singleton, List.append_assoc, List.singleton_append] at this
          rw [hda]
          simp only [List.append_assoc, List.cons_append]
          rw [this]; simp
      have hl1 : done.length + 1 < o.partStart.length := by rw [hlen, hda]; simp
      have hs : startPart o none done.flatten.length done.length c (done.map fun p => ⟨true, p⟩) =
          .ok ((done.map fun p => (⟨true, p⟩ : Member C)) ++ [⟨true, []⟩], done.length, done.length + 1) := by
        unfold startPart
        simp only [hget, Outcome.bind]
        rw [if_pos ⟨by omega, by trivial⟩]
        have hr : o.isRing[done.length]? = some true := by rw [ho]; simp [hda]
        simp only [hr]
        rw [if_pos (by simp), if_neg (by omega)]
        simp only [hnext]
        have hm := modify_last (done.map fun p => (⟨true, p⟩ : Member C)) ⟨false, []⟩ (fun m => { m with isRing := true })
        rw [List.length_map] at hm
        rw [if_neg (by omega), hm]
      rw [List.flatten_cons]
      show polygonLoop o none _ _ _ _ (x :: (xs ++ after.flatten ++ last)) = _
      unfold polygonLoop
      simp only [hs, Outcome.bind]
      rw [if_pos (by simp)]
      have hm := modify_last (done.map fun p => (⟨true, p⟩ : Member C)) ⟨true, []⟩ (fun m => { m with coordinates := m.coordinates ++ [x] })
      rw [List.length_map] at hm
      rw [hm, List.append_assoc]
      have hi := inner o none xs (after.flatten ++ last) (done.flatten.length + 1) (done.length + 1) (done.map fun p => ⟨true, p⟩) true [x]
        ⟨_, hnext, fun _ => by omega⟩
      rw [List.length_map] at hi
      simp only [List.nil_append]
      rw [hi]
      have := ih (done ++ [x :: xs]) (by rw [hda]; simp) done.length
      simp only [List.flatten_append, List.flatten_cons, List.flatten_nil, List.append_nil, List.length_append, List.length_cons, List.length_nil,
        List.map_append, List.map_cons, List.map_nil] at this
      simp only [List.singleton_append]
      rw [show done.flatten.length + 1 + xs.length = done.flatten.length + (xs.length + 1) by omega]
      exact this
  have := run [] before rfl 0
  unfold polygonMembers
  simpa [ho] using this

/-- C50 is false for a part table which does not begin with 0 (the shapefile library accepts it): the first vertex is stored in a part which does not
exist. -/
theorem C50_violated_start (v : C) (vs : List C) (s : Nat) (table : List Nat) (rings : List Bool) (beyond : Option Nat) (hs : 0 < s) :
    polygonMembers ⟨v :: vs, s :: table, rings⟩ beyond = .ub "index out of range" := by
  unfold polygonMembers polygonLoop startPart readStart
  simp only [List.getElem?_cons_zero, Outcome.bind]
  rw [if_neg (by simp; omega)]
  simp

/-- Two rings with 4 and 3 vertices: the hypotheses are met, and so are those of `C50_violated_read`. -/
example : polygonMembers ⟨[1, 2, 3, 1, 7, 8, 7], [0, 4], [true, true]⟩ (some 99) = .ok [⟨true, [1, 2, 3, 1]⟩, ⟨true, [7, 8, 7]⟩] ∧
    polygonMembers ⟨[1, 2, 3, 1, 7, 8, 7], [0, 4], [true, true]⟩ none = .ub "read behind the part table" :=
  ⟨C50_parts_partial [[1, 2, 3, 1], [7, 8, 7]] (by decide) 99, C50_violated_read [[1, 2, 3, 1], [7, 8, 7]] (by decide) [7, 8, 7] rfl (by decide)⟩

/-- C66: a line of one part is delivered with all its vertices in order, as area if it ends where it starts and as way otherwise. Partial: lines of
several parts are dropped, see `C66_violated_parts`. -/
theorem C66_line_partial (same : C → C → Bool) (vertices : List C) (first last : C) (h1 : vertices.head? = some first)
    (h2 : vertices.getLast? = some last) (rings : List Bool) (tags : List Tag) :
    visitArc same ⟨vertices, [0], rings⟩ tags = .ok [if same first last then .area 0 tags vertices else .way 0 tags vertices] := by
  unfold visitArc
  simp [h1, h2]

/-- C66: a point is delivered as node with its coordinate, which is the first vertex of the object, and with its tags. -/
theorem C66_point (c : C) (rest : List C) (table : List Nat) (rings : List Bool) (tags : List Tag) :
    visitPoint ⟨c :: rest, table, rings⟩ tags = .ok [.node 0 tags c] := rfl

/-- C66 is false for lines of several parts: nothing is delivered. -/
theorem C66_violated_parts (same : C → C → Bool) (parts : List (List C)) (h : 2 ≤ parts.length) (rings : List Bool) (tags : List Tag) :
    visitArc same ⟨parts.flatten, starts 0 parts, rings⟩ tags = .ok [] := by
  unfold visitArc
  rw [if_pos (by simp only [starts_length]; omega)]

/-- C66 is false for lines without vertices: they are undefined behaviour. -/
theorem C66_violated_empty (same : C → C → Bool) (tags : List Tag) : visitArc same ⟨[], [], []⟩ tags = .ub "index out of range" := rfl

example : visitArc (fun a b : Nat => a == b) ⟨[1, 2, 1], [0], [true]⟩ [] = .ok [.area 0 [] [1, 2, 1]] :=
  C66_line_partial _ _ 1 1 rfl rfl _ _

end Verif.Props
