import Verif.Props.MultipolygonSpec
import Verif.Props.Osm

/-! # C36: multipolygon rings -/
namespace Verif.Props
open Verif.Multipolygon Verif.MultipolygonSpec

namespace MultipolygonProof
variable {C : Type}

theorem segments_append (a : List C) (x : C) (b : List C) : segments (a ++ x :: b) = segments (a ++ [x]) + segments (x :: b) := by
  induction a with
  | nil => simp [segments]
  | cons y a ih =>
    cases a with
    | nil => simp [segments]
    | cons z a =>
      simp only [List.cons_append, segments] at ih ⊢
      rw [ih, Multiset.cons_add]

theorem segments_reverse (l : List C) : segments l.reverse = segments l := by
  induction l with
  | nil => rfl
  | cons a l ih =>
    cases l with
    | nil => rfl
    | cons b l =>
      rw [List.reverse_cons, List.reverse_cons, List.append_assoc]
      simp only [List.cons_append, List.nil_append]
      rw [segments_append, ← List.reverse_cons, ih]
      simp only [segments]
      rw [Sym2.eq_swap, add_comm]; rfl

theorem exact_same {eq : C → C → Bool} {P : C → Prop} (he : Exact eq P) {a b : Option C} (ha : ∀ x, a = some x → P x)
    (hb : ∀ x, b = some x → P x) : same eq a b = true ↔ ∃ x, a = some x ∧ b = some x := by
  cases a with
  | none => simp [same]
  | some a =>
    cases b with
    | none => simp [same]
    | some b =>
      simp only [same, he a b (ha a rfl) (hb b rfl), Option.some.injEq]
      constructor
      · rintro rfl; exact ⟨a, rfl, rfl⟩
      · rintro ⟨x, rfl, rfl⟩; rfl

theorem head_form {l : List C} {x : C} (h : l.head? = some x) : l = x :: l.tail := by
  cases l with
  | nil => simp at h
  | cons a l => simp at h; subst h; rfl

theorem last_form {l : List C} {x : C} (h : l.getLast? = some x) : l = l.dropLast ++ [x] :=
  (List.dropLast_append_getLast? x (by rw [h]; rfl)).symm

theorem mem_head {l : List C} {x : C} (h : l.head? = some x) : x ∈ l := List.mem_of_head? h
theorem mem_last {l : List C} {x : C} (h : l.getLast? = some x) : x ∈ l := List.mem_of_getLast? h

theorem tryAdd_spec {eq : C → C → Bool} {P : C → Prop} (he : Exact eq P) (s o r : Seq C) (hs : ∀ x ∈ s.coordinates, P x)
    (ho : ∀ x ∈ o.coordinates, P x) (h : tryAdd eq s o = some r) :
    r.id = s.id ∧ segments r.coordinates = segments s.coordinates + segments o.coordinates ∧ (∀ x ∈ r.coordinates, P x) := by
  have hsh : ∀ x, s.coordinates.head? = some x → P x := fun x hx => hs x (mem_head hx)
  have hsl : ∀ x, s.coordinates.getLast? = some x → P x := fun x hx => hs x (mem_last hx)
  have hoh : ∀ x, o.coordinates.head? = some x → P x := fun x hx => ho x (mem_head hx)
  have hol : ∀ x, o.coordinates.getLast? = some x → P x := fun x hx => ho x (mem_last hx)
  unfold tryAdd at h
  split_ifs at h with h1 h2 h3 h4
  · obtain ⟨x, a, b⟩ := (exact_same he hsl hoh).1 h1
    cases h
    refine ⟨rfl, ?_, ?_⟩
    · simp only
      conv_lhs => rw [head_form b]
      rw [segments_append, ← last_form a, ← head_form b]
    · intro y hy
      simp only [List.mem_append] at hy
      rcases hy with hy | hy
      · exact hs y (List.mem_of_mem_dropLast hy)
      · exact ho y hy
  · obtain ⟨x, a, b⟩ := (exact_same he hsl hol).1 h2
    cases h
    refine ⟨rfl, ?_, ?_⟩
    · simp only
      have hb : o.coordinates.reverse = x :: o.coordinates.dropLast.reverse := by
        conv_lhs => rw [last_form b]
        simp
      rw [hb, segments_append, ← last_form a, ← hb, segments_reverse]
    · intro y hy
      simp only [List.mem_append, List.mem_reverse] at hy
      rcases hy with hy | hy
      · exact hs y (List.mem_of_mem_dropLast hy)
      · exact ho y hy
  · obtain ⟨x, a, b⟩ := (exact_same he hsh hol).1 h3
    cases h
    refine ⟨rfl, ?_, ?_⟩
    · simp only
      conv_lhs => rw [last_form b, List.append_assoc]
      simp only [List.cons_append, List.nil_append]
      rw [segments_append, ← last_form b, ← head_form a, add_comm]
    · intro y hy
      simp only [List.mem_append] at hy
      rcases hy with hy | hy
      · exact ho y hy
      · exact hs y (List.mem_of_mem_tail hy)
  · obtain ⟨x, a, b⟩ := (exact_same he hsh hoh).1 h4
    cases h
    refine ⟨rfl, ?_, ?_⟩
    · simp only
      have hb : o.coordinates.reverse = o.coordinates.tail.reverse ++ [x] := by
        conv_lhs => rw [head_form b]
        simp
      rw [hb, List.append_assoc]
      simp only [List.cons_append, List.nil_append]
      rw [segments_append, ← head_form a, ← hb, segments_reverse, add_comm]
    · intro y hy
      simp only [List.mem_append, List.mem_reverse] at hy
      rcases hy with hy | hy
      · exact ho y hy
      · exact hs y (List.mem_of_mem_tail hy)

theorem tryAdd_none {eq : C → C → Bool} {P : C → Prop} (he : Exact eq P) (s o : Seq C) (hs : ∀ x ∈ s.coordinates, P x)
    (ho : ∀ x ∈ o.coordinates, P x) (h : tryAdd eq s o = none) : ¬ Touch s.coordinates o.coordinates := by
  have hsh : ∀ x, s.coordinates.head? = some x → P x := fun x hx => hs x (mem_head hx)
  have hsl : ∀ x, s.coordinates.getLast? = some x → P x := fun x hx => hs x (mem_last hx)
  have hoh : ∀ x, o.coordinates.head? = some x → P x := fun x hx => ho x (mem_head hx)
  have hol : ∀ x, o.coordinates.getLast? = some x → P x := fun x hx => ho x (mem_last hx)
  unfold tryAdd at h
  split_ifs at h with h1 h2 h3 h4
  rintro ⟨p, a | a, b | b⟩
  · exact h4 ((exact_same he hsh hoh).2 ⟨p, a, b⟩)
  · exact h3 ((exact_same he hsh hol).2 ⟨p, a, b⟩)
  · exact h1 ((exact_same he hsl hoh).2 ⟨p, a, b⟩)
  · exact h2 ((exact_same he hsl hol).2 ⟨p, a, b⟩)

theorem extend_some {eq : C → C → Bool} (ring : Seq C) (ss : List (Seq C)) (r : Seq C) (rest : List (Seq C))
    (h : extend eq ring ss = some (r, rest)) : ∃ s ∈ ss, tryAdd eq ring s = some r ∧ (s :: rest).Perm ss := by
  induction ss generalizing rest with
  | nil => simp [extend] at h
  | cons s ss ih =>
    unfold extend at h
    cases ht : tryAdd eq ring s with
    | some x =>
      rw [ht] at h
      simp at h
      obtain ⟨rfl, rfl⟩ := h
      exact ⟨s, by simp, ht, List.Perm.refl _⟩
    | none =>
      rw [ht] at h
      simp only [Option.map_eq_some_iff, Prod.mk.injEq] at h
      obtain ⟨⟨x, y⟩, hx, rfl, rfl⟩ := h
      obtain ⟨s', hs', h1, h2⟩ := ih y hx
      exact ⟨s', by simp [hs'], h1, (List.Perm.swap s s' y).trans (h2.cons s)⟩

theorem extend_none {eq : C → C → Bool} (ring : Seq C) (ss : List (Seq C)) (h : extend eq ring ss = none) :
    ∀ s ∈ ss, tryAdd eq ring s = none := by
  induction ss with
  | nil => simp
  | cons s ss ih =>
    unfold extend at h
    cases ht : tryAdd eq ring s with
    | some x => rw [ht] at h; simp at h
    | none =>
      rw [ht] at h
      simp only [Option.map_eq_none_iff] at h
      intro t ht'
      rcases List.mem_cons.1 ht' with rfl | ht'
      · exact ht
      · exact ih h t ht'

theorem isClosed_iff {eq : C → C → Bool} {P : C → Prop} (he : Exact eq P) (s : Seq C) (hs : ∀ x ∈ s.coordinates, P x) :
    isClosed eq s = true ↔ ClosedLine s.coordinates := by
  simp only [isClosed, Bool.and_eq_true, decide_eq_true_eq, ClosedLine]
  rw [exact_same he (fun x hx => hs x (mem_head hx)) (fun x hx => hs x (mem_last hx))]
  constructor
  · rintro ⟨h1, x, h2, h3⟩; exact ⟨h1, h2.trans h3.symm⟩
  · rintro ⟨h1, h2⟩
    refine ⟨h1, ?_⟩
    cases hh : s.coordinates.head? with
    | none => rw [List.head?_eq_none_iff] at hh; rw [hh] at h1; simp at h1
    | some x => exact ⟨x, rfl, by rw [← h2, hh]⟩

/-- How the assembly may end. -/
def Ending (eq : C → C → Bool) (seqs rings : List (Seq C)) : Prop :=
  (∃ groups rest, (groups.flatten ++ rest).Perm seqs ∧ List.Forall₂ (fun r g => ClosedLine r.coordinates ∧ MadeOf r g) rings groups ∧
    (rest = [] ∨ ∃ chain, MadeOf chain rest ∧ ¬ ClosedLine chain.coordinates)) ∨
  (rings = [] ∧ ∃ used chain group remaining, (used ++ group ++ remaining).Perm seqs ∧ MadeOf chain group ∧
    ¬ ClosedLine chain.coordinates ∧ remaining ≠ [] ∧ ∀ w ∈ remaining, ¬ Touch chain.coordinates w.coordinates)

theorem madeOf_single (s : Seq C) : MadeOf s [s] := ⟨by simp, by simp, s, by simp, rfl⟩

theorem madeOf_snoc {ring r s : Seq C} {g : List (Seq C)} (h : MadeOf ring g) (hid : r.id = ring.id)
    (hseg : segments r.coordinates = segments ring.coordinates + segments s.coordinates) : MadeOf r (g ++ [s]) := by
  obtain ⟨h1, h2, w, hw, hid'⟩ := h
  refine ⟨by simp, ?_, w, by simp [hw], hid'.trans hid.symm⟩
  rw [hseg, h2]; simp

theorem ringLoop_spec {eq : C → C → Bool} {P : C → Prop} (he : Exact eq P) (seqs : List (Seq C)) :
    ∀ n (sequences closed : List (Seq C)) (current : Option (Seq C)) (groups : List (List (Seq C))) (cur : List (Seq C)),
    sequences.length ≤ n →
    (groups.flatten ++ cur ++ sequences).Perm seqs →
    (∀ s ∈ sequences, ∀ x ∈ s.coordinates, P x) →
    List.Forall₂ (fun r g => ClosedLine r.coordinates ∧ MadeOf r g) closed groups →
    (match current with
      | none => cur = []
      | some ring => MadeOf ring cur ∧ ¬ ClosedLine ring.coordinates ∧ ∀ x ∈ ring.coordinates, P x) →
    Ending eq seqs (ringLoop eq n sequences closed current) := by
  intro n
  induction n with
  | zero =>
    intro sequences closed current groups cur hlen hperm hP hcl hcur
    have : sequences = [] := List.length_eq_zero_iff.1 (by omega)
    subst this
    refine .inl ⟨groups, cur, by simpa using hperm, hcl, ?_⟩
    cases current with
    | none => exact .inl hcur
    | some ring => exact .inr ⟨ring, hcur.1, hcur.2.1⟩
  | succ n ih =>
    intro sequences closed current groups cur hlen hperm hP hcl hcur
    have step : ∀ (ring : Seq C) (g rest : List (Seq C)), MadeOf ring g → (∀ x ∈ ring.coordinates, P x) → rest.length ≤ n →
        (∀ s ∈ rest, ∀ x ∈ s.coordinates, P x) → (groups.flatten ++ g ++ rest).Perm seqs →
        Ending eq seqs (ringLoop eq n rest (closeRing eq ring closed).1 (closeRing eq ring closed).2) := by
      intro ring g rest hm hp hl hPr hpm
      by_cases hc : isClosed eq ring = true
      · rw [closeRing, if_pos hc]
        refine ih rest _ none (groups ++ [g]) [] hl (by simpa using hpm) hPr ?_ rfl
        exact List.rel_append hcl (.cons ⟨(isClosed_iff he ring hp).1 hc, hm⟩ .nil)
      · rw [closeRing, if_neg hc]
        exact ih rest _ (some ring) groups g hl hpm hPr hcl ⟨hm, fun h => hc ((isClosed_iff he ring hp).2 h), hp⟩
    cases current with
    | none =>
      simp only at hcur
      subst hcur
      unfold ringLoop
      simp only
      cases hlast : sequences.getLast? with
      | none =>
        have : sequences = [] := List.getLast?_eq_none_iff.1 hlast
        subst this
        exact .inl ⟨groups, [], by simpa using hperm, hcl, .inl rfl⟩
      | some s =>
        have hform := last_form hlast
        have hs : s ∈ sequences := mem_last hlast
        refine step s [s] sequences.dropLast (madeOf_single s) (hP s hs) ?_ (fun t ht => hP t (List.mem_of_mem_dropLast ht)) ?_
        · rw [List.length_dropLast]; omega
        · refine List.Perm.trans ?_ hperm
          conv_rhs => rw [hform]
          simp only [List.append_nil, List.append_assoc]
          exact List.Perm.append_left _ List.perm_append_comm
    | some ring =>
      obtain ⟨hm, hnc, hp⟩ := hcur
      unfold ringLoop
      simp only
      by_cases hemp : sequences.isEmpty = true
      · rw [if_pos hemp]
        have : sequences = [] := by simpa using hemp
        subst this
        exact .inl ⟨groups, cur, by simpa using hperm, hcl, .inr ⟨ring, hm, hnc⟩⟩
      · rw [if_neg hemp]
        cases hx : extend eq ring sequences with
        | none =>
          refine .inr ⟨rfl, groups.flatten, ring, cur, sequences, hperm, hm, hnc, by simpa using hemp, ?_⟩
          intro w hw
          exact tryAdd_none he ring w hp (hP w hw) (extend_none ring sequences hx w hw)
        | some x =>
          obtain ⟨r, rest⟩ := x
          obtain ⟨s, hs, ht, hpm⟩ := extend_some ring sequences r rest hx
          obtain ⟨h1, h2, h3⟩ := tryAdd_spec he ring s r hp (hP s hs) ht
          have hlen' := hpm.length_eq
          simp only [List.length_cons] at hlen'
          refine step r (cur ++ [s]) rest (madeOf_snoc hm h1 h2) h3 (by omega) (fun t ht' => hP t (hpm.mem_iff.1 (by simp [ht']))) ?_
          refine List.Perm.trans ?_ hperm
          simp only [List.append_assoc, List.cons_append, List.nil_append]
          exact List.Perm.append_left _ (List.Perm.append_left _ hpm)

end MultipolygonProof

open MultipolygonProof
variable {C : Type}

/-- C36, rings: the result is either a list of closed rings, each consisting of exactly the segments of its own ways, no way used twice;
then the ways not used (if any) form one open chain. Or it is empty because some open chain could not be continued by any remaining way.
Partial: `eq` distinguishes the points of the data, and an open chain at the end is dropped silently, see `C36_violated_open_way`. -/
theorem C36_rings_partial (eq : C → C → Bool) (P : C → Prop) (he : Exact eq P) (seqs : List (Seq C))
    (hP : ∀ s ∈ seqs, ∀ x ∈ s.coordinates, P x) :
    (∃ groups rest, (groups.flatten ++ rest).Perm seqs ∧
      List.Forall₂ (fun r g => ClosedLine r.coordinates ∧ MadeOf r g) (createRings eq seqs) groups ∧
      (rest = [] ∨ ∃ chain, MadeOf chain rest ∧ ¬ ClosedLine chain.coordinates)) ∨
    (createRings eq seqs = [] ∧ ∃ used chain group remaining, (used ++ group ++ remaining).Perm seqs ∧ MadeOf chain group ∧
      ¬ ClosedLine chain.coordinates ∧ remaining ≠ [] ∧ ∀ w ∈ remaining, ¬ Touch chain.coordinates w.coordinates) :=
  ringLoop_spec he seqs seqs.length seqs [] none [] [] (Nat.le_refl _) (by simp) hP .nil rfl

/-- C36: if every member way is closed, every way becomes a ring by itself. -/
theorem C36_closed_ways (eq : C → C → Bool) (seqs : List (Seq C)) (h : ∀ s ∈ seqs, isClosed eq s = true) :
    createRings eq seqs = seqs.reverse := by
  have : ∀ n (l closed : List (Seq C)), l.length ≤ n → (∀ s ∈ l, isClosed eq s = true) →
      ringLoop eq n l closed none = closed ++ l.reverse := by
    intro n
    induction n with
    | zero =>
      intro l closed hl _
      have : l = [] := List.length_eq_zero_iff.1 (by omega)
      simp [this, ringLoop]
    | succ n ih =>
      intro l closed hl hcl
      unfold ringLoop
      simp only
      cases hlast : l.getLast? with
      | none => simp [List.getLast?_eq_none_iff.1 hlast]
      | some s =>
        have hs : s ∈ l := mem_last hlast
        simp only [closeRing, if_pos (hcl s hs)]
        rw [ih _ _ (by rw [List.length_dropLast]; omega) fun t ht => hcl t (List.mem_of_mem_dropLast ht)]
        conv_rhs => rw [last_form hlast]
        simp
  exact (this seqs.length seqs [] (Nat.le_refl _) h).trans (by simp)

/-! ## From rings to areas -/

namespace MultipolygonProof

theorem areaOf_insert {eq : C → C → Bool} {P : C → Prop} (he : Exact eq P) (cw : List C → Bool) (r : Seq C) (hP : ∀ x ∈ r.coordinates, P x)
    (hc : ClosedLine r.coordinates) (o : Bool) (i : Option UInt64) : AreaOf r ⟨i, insertCoordinates eq cw r.coordinates o⟩ := by
  have hs : same eq r.coordinates.head? r.coordinates.getLast? = true := by
    have := (isClosed_iff he r hP).2 hc
    simp only [isClosed, Bool.and_eq_true] at this
    exact this.2
  simp only [AreaOf, insertCoordinates, hs, if_true]
  split
  · exact .inl rfl
  · right
    rw [List.tail_reverse]

theorem findOuter_spec (contains : List C → List C → Bool) (post pre : List (Seq C)) (o : Seq C) (rest : List (Seq C))
    (h : findOuter contains pre post = some (o, rest)) : (o :: rest).Perm (pre ++ post) ∧
      ∀ x ∈ rest, contains x.coordinates o.coordinates = false := by
  induction post generalizing pre with
  | nil => simp [findOuter] at h
  | cons c post ih =>
    unfold findOuter at h
    split at h
    · have := ih (pre ++ [c]) h
      simpa using this
    · rename_i hany
      simp at h
      obtain ⟨rfl, rfl⟩ := h
      refine ⟨List.perm_middle.symm, ?_⟩
      intro x hx
      simp only [Bool.not_eq_true, List.any_eq_false] at hany
      simpa using hany x hx

theorem findInners_spec (contains : List C → List C → Bool) (o : Seq C) (post pre : List (Seq C)) :
    ((findInners contains o pre post).1 ++ (findInners contains o pre post).2).Perm (pre ++ post) ∧
    ∀ x ∈ (findInners contains o pre post).1, contains o.coordinates x.coordinates = true := by
  induction post generalizing pre with
  | nil => simp [findInners]
  | cons r post ih =>
    unfold findInners
    split
    · rename_i hc
      obtain ⟨h1, h2⟩ := ih pre
      refine ⟨?_, ?_⟩
      · simp only [List.cons_append]
        exact (h1.cons r).trans List.perm_middle.symm
      · intro x hx
        rcases List.mem_cons.1 hx with rfl | hx
        · simp only [Bool.and_eq_true] at hc; exact hc.1
        · exact h2 x hx
    · have := ih (pre ++ [r])
      simpa using this

theorem fillLoop_spec {eq : C → C → Bool} {P : C → Prop} (he : Exact eq P) (cw : List C → Bool) (contains : List C → List C → Bool) :
    ∀ n (rings : List (Seq C)) (areas : List (NewArea C)), (∀ r ∈ rings, ClosedLine r.coordinates ∧ ∀ x ∈ r.coordinates, P x) →
    fillLoop eq cw contains n rings = .ok areas → ∃ order, order.Perm rings ∧ List.Forall₂ AreaOf order areas := by
  intro n
  induction n with
  | zero =>
    intro rings areas _ h
    cases rings with
    | nil => simp [fillLoop] at h; subst h; exact ⟨[], .refl _, .nil⟩
    | cons r rings => simp [fillLoop] at h
  | succ n ih =>
    intro rings areas hr h
    cases rings with
    | nil => simp [fillLoop] at h; subst h; exact ⟨[], .refl _, .nil⟩
    | cons r rings =>
      unfold fillLoop at h
      cases ho : findOuter contains [] (r :: rings) with
      | none => rw [ho] at h; simp at h
      | some x =>
        obtain ⟨outer, rest⟩ := x
        rw [ho] at h
        simp only at h
        obtain ⟨hp, -⟩ := findOuter_spec contains _ _ _ _ ho
        obtain ⟨hq, -⟩ := findInners_spec contains outer rest []
        simp only [List.nil_append] at hp hq
        cases hf : fillLoop eq cw contains n (findInners contains outer [] rest).2 with
        | throw e => rw [hf] at h; simp [Outcome.bind] at h
        | ub w => rw [hf] at h; simp [Outcome.bind] at h
        | ok as =>
          rw [hf] at h
          simp only [Outcome.bind, Outcome.ok.injEq] at h
          subst h
          have hin : ∀ x ∈ outer :: rest, ClosedLine x.coordinates ∧ ∀ y ∈ x.coordinates, P y := fun x hx => hr x (hp.mem_iff.1 hx)
          have hrest : ∀ x, x ∈ (findInners contains outer [] rest).1 ∨ x ∈ (findInners contains outer [] rest).2 → x ∈ rest :=
            fun x hx => hq.mem_iff.1 (List.mem_append.2 hx)
          obtain ⟨order, hperm, hfor⟩ := ih _ as (fun x hx => hin x (by simp [hrest x (.inr hx)])) hf
          refine ⟨outer :: (findInners contains outer [] rest).1 ++ order, ?_, ?_⟩
          · refine List.Perm.trans ?_ hp
            simp only [List.cons_append]
            exact ((List.Perm.append_left _ hperm).trans hq).cons outer
          · simp only [List.cons_append]
            refine .cons (areaOf_insert he cw outer (hin outer (by simp)).2 (hin outer (by simp)).1 true _) ?_
            refine List.rel_append ?_ hfor
            have : ∀ l : List (Seq C), (∀ x ∈ l, ClosedLine x.coordinates ∧ ∀ y ∈ x.coordinates, P y) →
                List.Forall₂ AreaOf l (l.map fun i => (⟨none, insertCoordinates eq cw i.coordinates false⟩ : NewArea C)) := by
              intro l
              induction l with
              | nil => intro _; exact .nil
              | cons a l ihl =>
                intro hl
                exact .cons (areaOf_insert he cw a (hl a (by simp)).2 (hl a (by simp)).1 false _) (ihl fun x hx => hl x (by simp [hx]))
            exact this _ fun x hx => hin x (by simp [hrest x (.inl hx)])

theorem segments_mem (l : List C) (h : 1 < l.length) (x : C) (hx : x ∈ l) : ∃ e ∈ segments l, x ∈ e := by
  induction l with
  | nil => simp at hx
  | cons a l ih =>
    cases l with
    | nil => simp at h
    | cons b l =>
      rcases List.mem_cons.1 hx with rfl | hx
      · exact ⟨s(x, b), by simp [segments], by simp⟩
      · cases l with
        | nil => simp at hx; subst hx; exact ⟨s(a, x), by simp [segments], by simp⟩
        | cons c l =>
          obtain ⟨e, he, hxe⟩ := ih (by simp) hx
          exact ⟨e, by simp only [segments, Multiset.mem_cons] at he ⊢; exact .inr he, hxe⟩

theorem mem_of_segments (l : List C) (e : Sym2 C) (he : e ∈ segments l) (x : C) (hx : x ∈ e) : x ∈ l := by
  induction l with
  | nil => simp [segments] at he
  | cons a l ih =>
    cases l with
    | nil => simp [segments] at he
    | cons b l =>
      simp only [segments, Multiset.mem_cons] at he
      rcases he with rfl | he
      · simp at hx; rcases hx with rfl | rfl <;> simp
      · exact List.mem_cons_of_mem _ (ih he)

theorem mem_sum_segments (g : List (Seq C)) (e : Sym2 C) (h : e ∈ (g.map fun w => segments w.coordinates).sum) :
    ∃ w ∈ g, e ∈ segments w.coordinates := by
  induction g with
  | nil => simp at h
  | cons w g ih =>
    simp only [List.map_cons, List.sum_cons, Multiset.mem_add] at h
    rcases h with h | h
    · exact ⟨w, by simp, h⟩
    · obtain ⟨v, hv, hh⟩ := ih h; exact ⟨v, by simp [hv], hh⟩

theorem rings_ok {eq : C → C → Bool} {P : C → Prop} (he : Exact eq P) (seqs : List (Seq C))
    (hP : ∀ s ∈ seqs, ∀ x ∈ s.coordinates, P x) : ∀ r ∈ createRings eq seqs, ClosedLine r.coordinates ∧ ∀ x ∈ r.coordinates, P x := by
  intro r hr
  rcases C36_rings_partial eq P he seqs hP with ⟨groups, rest, hperm, hf, -⟩ | ⟨h, -⟩
  · have key : ∀ (rs : List (Seq C)) (gs : List (List (Seq C))), List.Forall₂ (fun r g => ClosedLine r.coordinates ∧ MadeOf r g) rs gs →
        ∀ r ∈ rs, ∃ g ∈ gs, ClosedLine r.coordinates ∧ MadeOf r g := by
      intro rs gs h
      induction h with
      | nil => simp
      | cons h _ ih =>
        intro r hr
        rcases List.mem_cons.1 hr with rfl | hr
        · exact ⟨_, by simp, h⟩
        · obtain ⟨g, hg, hh⟩ := ih r hr; exact ⟨g, by simp [hg], hh⟩
    obtain ⟨g, hg, hcl, -, hseg, -⟩ := key _ _ hf r hr
    refine ⟨hcl, ?_⟩
    intro x hx
    obtain ⟨e, hee, hxe⟩ := segments_mem _ hcl.1 x hx
    rw [hseg] at hee
    obtain ⟨w, hw, hew⟩ := mem_sum_segments g e hee
    refine hP w (hperm.mem_iff.1 ?_) x (mem_of_segments _ e hew x hxe)
    exact List.mem_append_left _ (List.mem_flatten.2 ⟨g, hg, hw⟩)
  · rw [h] at hr; simp at hr

end MultipolygonProof

/-- C36, areas: in the general case the relation gets exactly one area per ring, without the repeated closing point. Partial: provided that
some ring is not contained in another one at each step, see `C36_violated_mutual`. -/
theorem C36_areas_partial (eq : C → C → Bool) (P : C → Prop) (he : Exact eq P) (cw : List C → Bool) (contains : List C → List C → Bool)
    (seqs : List (Seq C)) (hP : ∀ s ∈ seqs, ∀ x ∈ s.coordinates, P x) (areas : List (NewArea C))
    (h : complexCase eq cw contains seqs = .ok areas) :
    ∃ order, order.Perm (createRings eq seqs) ∧ List.Forall₂ AreaOf order areas :=
  fillLoop_spec he cw contains _ _ areas (rings_ok he seqs hP) h

namespace MultipolygonProof

theorem findOuter_exists (contains : List C → List C → Bool) (post pre : List (Seq C))
    (h : ∃ c ∈ post, ∀ x ∈ pre ++ post, contains x.coordinates c.coordinates = false) :
    ∃ x, findOuter contains pre post = some x := by
  induction post generalizing pre with
  | nil => simp at h
  | cons d post ih =>
    unfold findOuter
    split
    · rename_i hany
      apply ih
      obtain ⟨c, hc, hx⟩ := h
      refine ⟨c, ?_, by simpa using hx⟩
      rcases List.mem_cons.1 hc with rfl | hc
      · exfalso
        simp only [List.any_eq_true] at hany
        obtain ⟨o, ho, hcon⟩ := hany
        have := hx o (by simp at ho ⊢; tauto)
        rw [this] at hcon; simp at hcon
      · exact hc
    · exact ⟨_, rfl⟩

theorem fillLoop_total (eq : C → C → Bool) (cw : List C → Bool) (contains : List C → List C → Bool) (size : List C → Nat)
    (hsize : ∀ a b, contains a b = true → size b < size a) :
    ∀ n (rings : List (Seq C)), rings.length ≤ n → ∃ areas, fillLoop eq cw contains n rings = .ok areas := by
  intro n
  induction n with
  | zero =>
    intro rings h
    have : rings = [] := List.length_eq_zero_iff.1 (by omega)
    subst this
    exact ⟨[], rfl⟩
  | succ n ih =>
    intro rings h
    cases rings with
    | nil => exact ⟨[], rfl⟩
    | cons r rings =>
      have hmax : ∃ c ∈ r :: rings, ∀ x ∈ r :: rings, size x.coordinates ≤ size c.coordinates := by
        clear h
        induction rings generalizing r with
        | nil => exact ⟨r, by simp, by simp⟩
        | cons s rings ih' =>
          obtain ⟨c, hc, hm⟩ := ih' s
          by_cases hle : size c.coordinates ≤ size r.coordinates
          · refine ⟨r, by simp, ?_⟩
            intro x hx
            rcases List.mem_cons.1 hx with rfl | hx
            · exact Nat.le_refl _
            · exact Nat.le_trans (hm x hx) hle
          · refine ⟨c, List.mem_cons_of_mem _ hc, ?_⟩
            intro x hx
            rcases List.mem_cons.1 hx with rfl | hx
            · omega
            · exact hm x hx
      obtain ⟨c, hc, hm⟩ := hmax
      obtain ⟨⟨outer, rest⟩, ho⟩ := findOuter_exists contains (r :: rings) [] ⟨c, hc, fun x hx => by
        cases hcon : contains x.coordinates c.coordinates with
        | false => rfl
        | true =>
          have h1 := hsize _ _ hcon
          have h2 := hm x (by simpa using hx)
          omega⟩
      have hlen := (findOuter_spec contains _ _ _ _ ho).1.length_eq
      have hlen2 := (findInners_spec contains outer rest []).1.length_eq
      simp at hlen hlen2 h
      obtain ⟨as, has⟩ := ih (findInners contains outer [] rest).2 (by omega)
      unfold fillLoop
      simp only [ho, has, Outcome.bind]
      exact ⟨_, rfl⟩

end MultipolygonProof

/-- C36: the assembly of areas does not fail if containment of rings makes them smaller in some sense (as containment of areas does). -/
theorem C36_areas_total (eq : C → C → Bool) (cw : List C → Bool) (contains : List C → List C → Bool) (size : List C → Nat)
    (hsize : ∀ a b, contains a b = true → size b < size a) (seqs : List (Seq C)) :
    ∃ areas, complexCase eq cw contains seqs = .ok areas :=
  fillLoop_total eq cw contains size hsize _ _ (Nat.le_refl _)

/-- C36: one closed outer way and closed inner ways give one area each. -/
theorem C36_simple (eq : C → C → Bool) (P : C → Prop) (he : Exact eq P) (cw : List C → Bool) (outer : Seq C) (inners : List (Seq C))
    (hP : ∀ s ∈ outer :: inners, ∀ x ∈ s.coordinates, P x) (hc : ∀ s ∈ outer :: inners, ClosedLine s.coordinates) :
    List.Forall₂ AreaOf (outer :: inners) (simpleCase eq cw outer inners) := by
  refine .cons (areaOf_insert he cw outer (hP outer (by simp)) (hc outer (by simp)) true _) ?_
  have : ∀ l : List (Seq C), (∀ x ∈ l, x ∈ outer :: inners) →
      List.Forall₂ AreaOf l (l.map fun i => (⟨none, insertCoordinates eq cw i.coordinates false⟩ : NewArea C)) := by
    intro l
    induction l with
    | nil => intro _; exact .nil
    | cons a l ihl =>
      intro hl
      exact .cons (areaOf_insert he cw a (hP a (hl a (by simp))) (hc a (hl a (by simp))) false _) (ihl fun x hx => hl x (by simp [hx]))
  exact this inners fun x hx => by simp [hx]

/-- C36, orientation: over any ordered field, the outer area of an exactly closed ring is not clockwise, an inner one not
counter-clockwise. -/
theorem C36_orientation {K : Type} [Field K] [LinearOrder K] [IsStrictOrderedRing K] (eq : Geo K → Geo K → Bool) (source : List (Geo K))
    (hc : ClosedLine source) (he : same eq source.head? source.getLast? = true) :
    0 ≤ OsmSpec.doubleArea (insertCoordinates eq Osm.isClockwise source true) ∧
    OsmSpec.doubleArea (insertCoordinates eq Osm.isClockwise source false) ≤ 0 := by
  have hdrop : Osm.getArea source = Osm.getArea source.dropLast := by
    obtain ⟨hlen, hhl⟩ := hc
    match source, hlen, hhl with
    | a :: m, hlen, hhl =>
      have hz : (a :: m).getLast? = some a := by rw [← hhl]; rfl
      rw [OsmProof.getArea_eq a a m _ rfl hz]
      have hform := last_form hz
      cases hd : (a :: m).dropLast with
      | nil =>
        have := congrArg List.length hd
        rw [List.length_dropLast] at this
        simp only [List.length_cons, List.length_nil] at this hlen
        omega
      | cons b d =>
        have hb : b = a := by
          rw [hd] at hform
          simp at hform
          exact hform.1.symm
        subst hb
        obtain ⟨y, hy⟩ : ∃ y, (b :: d).getLast? = some y := ⟨_, List.getLast?_eq_getLast_of_ne_nil (by simp)⟩
        rw [OsmProof.getArea_eq b y d _ rfl hy, hform, hd]
        have hf2 := last_form hy
        have : OsmProof.pathSum (b :: d ++ [b]) = OsmProof.pathSum (b :: d) + Osm.cross y b := by
          conv_lhs => rw [hf2, List.append_assoc]
          have := OsmProof.pathSum_append (b :: d).dropLast y b []
          simp only [List.cons_append, List.nil_append] at this ⊢
          rw [this, ← hf2]
          simp [OsmProof.pathSum]
        rw [this]
        simp [Osm.cross]
  have hcw : ∀ b : Bool, Osm.isClockwise source = b → (b = true ↔ Osm.getArea source.dropLast < 0) := by
    rintro b rfl
    simp [Osm.isClockwise, hdrop]
  have hrev : OsmSpec.doubleArea source.dropLast.reverse = - Osm.getArea source.dropLast := by
    rw [← OsmProof.getArea_doubleArea, OsmProof.getArea_reverse]
  have hfw : OsmSpec.doubleArea source.dropLast = Osm.getArea source.dropLast := (OsmProof.getArea_doubleArea _).symm
  unfold insertCoordinates
  simp only [he, if_true]
  cases hb : Osm.isClockwise source with
  | true =>
    have := (hcw true hb).1 rfl
    simp [hrev, hfw]
    exact this.le
  | false =>
    have : ¬ Osm.getArea source.dropLast < 0 := fun h => by have := (hcw false hb).2 h; simp at this
    simp [hrev, hfw]
    exact not_lt.1 this

/-- C36 is false for open ways: the second way is dropped although a ring is made. -/
theorem C36_violated_open_way :
    createRings (fun a b : Nat => a == b) [⟨1, [5, 6]⟩, ⟨2, [0, 1, 2, 0]⟩] = [⟨2, [0, 1, 2, 0]⟩] := by
  decide

/-- C36 is false for two rings each of which counts as contained in the other: a null pointer is used. By `C36_contains_east` there are no such rings in exact arithmetic. -/
theorem C36_violated_mutual (eq : C → C → Bool) (cw : List C → Bool) (contains : List C → List C → Bool) (a b : Seq C)
    (hab : contains a.coordinates b.coordinates = true) (hba : contains b.coordinates a.coordinates = true)
    (ha : isClosed eq a = true) (hb : isClosed eq b = true) : ∃ w, complexCase eq cw contains [a, b] = .ub w := by
  refine ⟨"null outer ring", ?_⟩
  have hr : createRings eq [a, b] = [b, a] := by
    simpa using C36_closed_ways eq [a, b] (by simp [ha, hb])
  simp [complexCase, hr, fillLoop, findOuter, hab, hba]

namespace MultipolygonProof

/-- The sequences with their role. -/
def tagged (ms : List (Member C × Seq C)) : List (Bool × Seq C) :=
  (ms.filter fun m => decide (m.1.role ∈ ["outer", "inner"])).map fun m => (decide (m.1.role = "outer"), m.2)

theorem collect_lines (ms : List (Member C × Seq C)) (h : ∀ m ∈ ms, LineOf m.1 m.2) : collect (ms.map Prod.fst) = .ok (some (tagged ms)) := by
  induction ms with
  | nil => rfl
  | cons m ms ih =>
    obtain ⟨m, s⟩ := m
    have ih := ih fun m hm => h m (by simp [hm])
    obtain ⟨h1, h2, h3⟩ := h (m, s) (by simp)
    have hmc : memberCoordinates m.found = .ok (some s.coordinates) := by
      rcases h3 with h3 | ⟨c, t, h3, h4⟩
      · simp only at h3; rw [h3]; rfl
      · simp only at h3 h4; rw [h3, h4]; rfl
    simp only [List.map_cons, collect, hmc, Outcome.bind, ih, Option.map]
    have he : s.coordinates.isEmpty = false := by simpa using h2
    have hs : (⟨m.refId, s.coordinates⟩ : Seq C) = s := by simp only at h1; rw [← h1]
    rw [he, hs]
    by_cases ho : m.role = "outer"
    · simp [tagged, ho]
    · by_cases hi : m.role = "inner"
      · simp [tagged, hi]
      · simp [tagged, ho, hi]

theorem tagged_outers (ms : List (Member C × Seq C)) : ((tagged ms).filter (·.1)).map (·.2) = linesOf ["outer"] ms := by
  induction ms with
  | nil => rfl
  | cons m ms ih =>
    simp only [tagged, linesOf] at ih ⊢
    by_cases ho : m.1.role = "outer"
    · simpa [ho] using ih
    · by_cases hi : m.1.role = "inner"
      · simpa [hi] using ih
      · simpa [ho, hi] using ih

theorem tagged_inners (ms : List (Member C × Seq C)) : ((tagged ms).filter (!·.1)).map (·.2) = linesOf ["inner"] ms := by
  induction ms with
  | nil => rfl
  | cons m ms ih =>
    simp only [tagged, linesOf] at ih ⊢
    by_cases ho : m.1.role = "outer"
    · simpa [ho] using ih
    · by_cases hi : m.1.role = "inner"
      · simpa [hi] using ih
      · simpa [ho, hi] using ih

theorem tagged_all (ms : List (Member C × Seq C)) : (tagged ms).map (·.2) = linesOf ["outer", "inner"] ms := by
  simp [tagged, linesOf]

theorem mem_linesOf {ms : List (Member C × Seq C)} {s : Seq C} : s ∈ linesOf ["outer", "inner"] ms ↔ s ∈ linesOf ["outer"] ms ∨ s ∈ linesOf ["inner"] ms := by
  simp only [linesOf, List.mem_map, List.mem_filter, decide_eq_true_eq, List.mem_cons, List.not_mem_nil, or_false]
  constructor
  · rintro ⟨m, ⟨h1, h2 | h2⟩, h3⟩
    · exact .inl ⟨m, ⟨h1, h2⟩, h3⟩
    · exact .inr ⟨m, ⟨h1, h2⟩, h3⟩
  · rintro (⟨m, ⟨h1, h2⟩, h3⟩ | ⟨m, ⟨h1, h2⟩, h3⟩)
    · exact ⟨m, ⟨h1, .inl h2⟩, h3⟩
    · exact ⟨m, ⟨h1, .inr h2⟩, h3⟩

end MultipolygonProof

/-- C36, a whole relation: if all members are present, one is the outer line and the outer and inner lines are closed, then each of them gives one
area, the outer one first. -/
theorem C36_relation_simple (eq : C → C → Bool) (P : C → Prop) (he : Exact eq P) (cw : List C → Bool) (contains : List C → List C → Bool)
    (ms : List (Member C × Seq C)) (h : ∀ m ∈ ms, LineOf m.1 m.2) (hP : ∀ m ∈ ms, ∀ x ∈ m.2.coordinates, P x) (outer : Seq C)
    (ho : linesOf ["outer"] ms = [outer]) (hc : ∀ s ∈ linesOf ["outer", "inner"] ms, ClosedLine s.coordinates) :
    ∃ areas, process eq cw contains (ms.map Prod.fst) = .ok areas ∧ List.Forall₂ AreaOf (outer :: linesOf ["inner"] ms) areas := by
  have hPs : ∀ s ∈ linesOf ["outer", "inner"] ms, ∀ x ∈ s.coordinates, P x := by
    intro s hs
    obtain ⟨m, hm, rfl⟩ := List.mem_map.1 hs
    exact hP m (List.mem_filter.1 hm).1
  have hsub : ∀ s ∈ outer :: linesOf ["inner"] ms, s ∈ linesOf ["outer", "inner"] ms := by
    intro s hs
    rw [mem_linesOf, ho]
    simpa using hs
  refine ⟨simpleCase eq cw outer (linesOf ["inner"] ms), ?_,
    C36_simple eq P he cw outer _ (fun s hs => hPs s (hsub s hs)) fun s hs => hc s (hsub s hs)⟩
  have hall : ((tagged ms).all fun s => isClosed eq s.2) = true := by
    rw [List.all_eq_true]
    intro s hs
    have hs' : s.2 ∈ linesOf ["outer", "inner"] ms := by rw [← tagged_all]; exact List.mem_map_of_mem hs
    exact (isClosed_iff he s.2 (hPs _ hs')).2 (hc _ hs')
  unfold process
  rw [collect_lines ms h]
  simp only [Outcome.bind, tagged_outers, tagged_inners, ho, hall, if_true]

/-- C36, a whole relation: if all members are present and there is no single outer line, or some line is not closed, then every area is a ring made of
whole lines of the members with the roles outer and inner, each line is used at most once, and lines are left over only if they do not join to a ring.
Partial: lines can be left over, see `C36_violated_open_way`. -/
theorem C36_relation_rings_partial (eq : C → C → Bool) (P : C → Prop) (he : Exact eq P) (cw : List C → Bool) (contains : List C → List C → Bool)
    (ms : List (Member C × Seq C)) (h : ∀ m ∈ ms, LineOf m.1 m.2) (hP : ∀ m ∈ ms, ∀ x ∈ m.2.coordinates, P x)
    (hcase : (linesOf ["outer"] ms).length ≠ 1 ∨ ∃ s ∈ linesOf ["outer", "inner"] ms, ¬ ClosedLine s.coordinates) (areas : List (NewArea C))
    (hok : process eq cw contains (ms.map Prod.fst) = .ok areas) :
    (∃ rings groups rest, (groups.flatten ++ rest).Perm (linesOf ["outer", "inner"] ms) ∧
      List.Forall₂ (fun r g => ClosedLine r.coordinates ∧ MadeOf r g) rings groups ∧ List.Forall₂ AreaOf rings areas ∧
      (rest = [] ∨ ∃ chain, MadeOf chain rest ∧ ¬ ClosedLine chain.coordinates)) ∨
    (areas = [] ∧ ∃ used chain group remaining, (used ++ group ++ remaining).Perm (linesOf ["outer", "inner"] ms) ∧ MadeOf chain group ∧
      ¬ ClosedLine chain.coordinates ∧ remaining ≠ [] ∧ ∀ w ∈ remaining, ¬ Touch chain.coordinates w.coordinates) := by
  have hPs : ∀ s ∈ linesOf ["outer", "inner"] ms, ∀ x ∈ s.coordinates, P x := by
    intro s hs
    obtain ⟨m, hm, rfl⟩ := List.mem_map.1 hs
    exact hP m (List.mem_filter.1 hm).1
  have hcomplex : process eq cw contains (ms.map Prod.fst) = complexCase eq cw contains (linesOf ["outer", "inner"] ms) := by
    unfold process
    rw [collect_lines ms h]
    simp only [Outcome.bind, tagged_outers, tagged_inners, tagged_all]
    split
    · rename_i outer hout
      rw [if_neg]
      rcases hcase with hcase | ⟨s, hs, hns⟩
      · rw [hout] at hcase; simp at hcase
      · rw [← tagged_all] at hs
        obtain ⟨t, ht, rfl⟩ := List.mem_map.1 hs
        intro hall
        refine hns ((isClosed_iff he t.2 (hPs _ ?_)).1 (List.all_eq_true.1 hall t ht))
        rw [← tagged_all]
        exact List.mem_map_of_mem ht
    · rfl
  rw [hcomplex] at hok
  obtain ⟨order, ho, hareas⟩ := C36_areas_partial eq P he cw contains _ hPs areas hok
  rcases C36_rings_partial eq P he _ hPs with ⟨groups, rest, h1, h2, h3⟩ | ⟨h1, h2⟩
  · left
    obtain ⟨groups', hg1, hg2⟩ := List.perm_comp_forall₂ ho h2
    refine ⟨order, groups', rest, ?_, hg1, hareas, h3⟩
    exact ((hg2.flatten).append_right rest).trans h1
  · right
    rw [h1] at ho
    rw [List.perm_nil.1 ho] at hareas
    cases hareas
    exact ⟨rfl, h2⟩

/-- C36: if the line of a member is missing in the data, no area is made. -/
theorem C36_relation_incomplete (eq : C → C → Bool) (cw : List C → Bool) (contains : List C → List C → Bool) (before after : List (Member C))
    (m : Member C) (hm : m.found = .missing) (hb : ∀ b ∈ before, b.found ≠ .area []) : process eq cw contains (before ++ m :: after) = .ok [] := by
  have : collect (before ++ m :: after) = .ok none := by
    induction before with
    | nil => simp [collect, hm, memberCoordinates, Outcome.bind]
    | cons b before ih =>
      have ih := ih fun b' h' => hb b' (by simp [h'])
      have hb' := hb b (by simp)
      have : ∃ r, memberCoordinates b.found = .ok r := by
        cases hf : b.found with
        | way cs => exact ⟨_, rfl⟩
        | area cs =>
          cases cs with
          | nil => exact absurd hf hb'
          | cons c cs => exact ⟨_, rfl⟩
        | relation => exact ⟨_, rfl⟩
        | missing => exact ⟨_, rfl⟩
      obtain ⟨r, hr⟩ := this
      simp only [List.cons_append, collect, hr, Outcome.bind]
      cases r with
      | none => rfl
      | some cs => simp [ih]
  simp [process, this, Outcome.bind]

/-- The hypotheses hold for a square with a hole, the square being an area and the hole a way. -/
example : (∀ m ∈ ([(⟨1, "outer", .area [0, 1, 2]⟩, ⟨1, [0, 1, 2, 0]⟩), (⟨2, "inner", .way [5, 6, 7, 5]⟩, ⟨2, [5, 6, 7, 5]⟩)] : List (Member Nat × Seq Nat)),
    LineOf m.1 m.2) := by
  intro m hm
  simp only [List.mem_cons, List.not_mem_nil, or_false] at hm
  rcases hm with rfl | rfl
  · exact ⟨rfl, by simp, .inr ⟨0, [1, 2], rfl, rfl⟩⟩
  · exact ⟨rfl, by simp, .inl rfl⟩

/-- A concrete case: two half rings in opposite directions and a separate triangle. -/
example : createRings (fun a b : Nat => a == b) [⟨1, [0, 1, 2]⟩, ⟨3, [7, 8, 9, 7]⟩, ⟨2, [0, 4, 2]⟩] = [⟨2, [0, 4, 2, 1, 0]⟩, ⟨3, [7, 8, 9, 7]⟩] := by
  decide

example : Exact (fun a b : Nat => a == b) (fun _ => True) := fun a b _ _ => by simp

end Verif.Props
