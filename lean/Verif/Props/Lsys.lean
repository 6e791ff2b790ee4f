import Mathlib.Logic.Function.Iterate
import Verif.Props.LsysSpec
import Verif.Props.Quaternion

/-! # C38, C39 and C62: L-systems -/
namespace Verif.Props
open Verif.Lsys Verif.LsysSpec Verif.Quaternion

namespace LsysProof

theorem wordLt_irrefl (a : List Char) : wordLt a a = false := by
  induction a with
  | nil => rfl
  | cons x a ih => simp [wordLt, ih]

theorem wordLt_trans (a b c : List Char) (h1 : wordLt a b = true) (h2 : wordLt b c = true) : wordLt a c = true := by
  induction a generalizing b c with
  | nil =>
    cases b with
    | nil => simp [wordLt] at h1
    | cons y b =>
      cases c with
      | nil => simp [wordLt] at h2
      | cons z c => rfl
  | cons x a ih =>
    cases b with
    | nil => simp [wordLt] at h1
    | cons y b =>
      cases c with
      | nil => simp [wordLt] at h2
      | cons z c =>
        simp only [wordLt] at h1 h2 ⊢
        split_ifs at h1 h2 ⊢ <;> first | rfl | omega | exact ih b c h1 h2

theorem wordLt_total (a b : List Char) (h1 : wordLt a b = false) (h2 : wordLt b a = false) : a = b := by
  induction a generalizing b with
  | nil =>
    cases b with
    | nil => rfl
    | cons y b => simp [wordLt] at h1
  | cons x a ih =>
    cases b with
    | nil => simp [wordLt] at h2
    | cons y b =>
      simp only [wordLt] at h1 h2
      split_ifs at h1 h2
      have : x.toNat = y.toNat := by omega
      have hxy : x = y := Char.toNat_inj.1 this
      rw [hxy, ih b h1 h2]

theorem ruleLt_ne_word {rank : Option Op → Nat} (a b : Rule) (h : ¬ (∃ v w, a = .word v ∧ b = .word w)) :
    ruleLt rank a b = decide (rank a.type < rank b.type) := by
  cases a with
  | op o => rfl
  | word v =>
    cases b with
    | op o => rfl
    | word w => exact absurd ⟨v, w, rfl, rfl⟩ h

end LsysProof

open LsysProof

/-- C38: the order of rules is a strict order in which different rules are never taken for the same one, whatever the order of the types is:
the production map finds exactly the productions of the given symbol. -/
theorem C38_comparator (rank : Option Op → Nat) (hr : ∀ a b, rank a = rank b → a = b) :
    (∀ a, ruleLt rank a a = false) ∧ (∀ a b c, ruleLt rank a b = true → ruleLt rank b c = true → ruleLt rank a c = true) ∧
    (∀ a b, equivalent (ruleLt rank) a b = true ↔ a = b) := by
  have irr : ∀ a, ruleLt rank a a = false := by
    intro a
    cases a with
    | op o => simp [ruleLt]
    | word w => exact wordLt_irrefl w
  refine ⟨irr, ?_, ?_⟩
  · intro a b c h1 h2
    by_cases hab : ∃ v w, a = .word v ∧ b = .word w
    · obtain ⟨v, w, rfl, rfl⟩ := hab
      cases c with
      | word u => exact wordLt_trans v w u h1 h2
      | op o =>
        rw [ruleLt_ne_word _ _ (by rintro ⟨_, _, _, h⟩; cases h)] at h2 ⊢
        exact h2
    · rw [ruleLt_ne_word _ _ hab] at h1
      by_cases hbc : ∃ v w, b = .word v ∧ c = .word w
      · obtain ⟨v, w, rfl, rfl⟩ := hbc
        rw [ruleLt_ne_word _ _ (by rintro ⟨x, _, hx, _⟩; exact hab ⟨x, v, hx, rfl⟩)]
        exact h1
      · rw [ruleLt_ne_word _ _ hbc] at h2
        simp only [decide_eq_true_eq] at h1 h2
        by_cases hac : ∃ v w, a = .word v ∧ c = .word w
        · obtain ⟨v, w, rfl, rfl⟩ := hac
          simp only [Rule.type] at h1 h2
          omega
        · rw [ruleLt_ne_word _ _ hac]
          simp only [decide_eq_true_eq]
          omega
  · intro a b
    constructor
    · intro h
      simp only [equivalent, Bool.and_eq_true, Bool.not_eq_true'] at h
      obtain ⟨h1, h2⟩ := h
      by_cases hab : ∃ v w, a = .word v ∧ b = .word w
      · obtain ⟨v, w, rfl, rfl⟩ := hab
        rw [wordLt_total v w h1 h2]
      · rw [ruleLt_ne_word _ _ hab] at h1
        rw [ruleLt_ne_word _ _ (by rintro ⟨v, w, hv, hw⟩; exact hab ⟨w, v, hw, hv⟩)] at h2
        simp only [decide_eq_false_iff_not, not_lt] at h1 h2
        have ht := hr _ _ (le_antisymm h2 h1)
        cases a with
        | op o =>
          cases b with
          | op o' => simp only [Rule.type, Option.some.injEq] at ht; rw [ht]
          | word w => simp [Rule.type] at ht
        | word v =>
          cases b with
          | op o' => simp [Rule.type] at ht
          | word w => exact absurd ⟨v, w, rfl, rfl⟩ hab
    · rintro rfl
      simp [equivalent, irr]

namespace LsysProof
variable {W : Type}

theorem find_insert {lt : Rule → Rule → Bool} (he : ∀ a b, equivalent lt a b = true ↔ a = b) (m : ProductionMap W) (r r' : Rule)
    (p : W × List Rule) : find lt (addProduction lt m r p) r' = if r = r' then some ((find lt m r).getD [] ++ [p]) else find lt m r' := by
  induction m with
  | nil =>
    by_cases h : r = r'
    · subst h; simp [addProduction, find, (he r r).2 rfl]
    · have : equivalent lt r r' = false := by rw [← Bool.not_eq_true, he]; exact h
      simp [addProduction, find, this, h]
  | cons k m ih =>
    obtain ⟨k, ps⟩ := k
    by_cases hk : k = r
    · subst hk
      have hkk : equivalent lt k k = true := (he k k).2 rfl
      by_cases h : k = r'
      · subst h; simp [addProduction, find, hkk]
      · have : equivalent lt k r' = false := by rw [← Bool.not_eq_true, he]; exact h
        simp [addProduction, find, hkk, this, h]
    · have hkr : equivalent lt k r = false := by rw [← Bool.not_eq_true, he]; exact hk
      by_cases h : r = r'
      · subst h
        simp only [addProduction, find, hkr, Bool.false_eq_true, if_false, ih, if_true]
      · by_cases hk' : k = r'
        · subst hk'; simp [addProduction, find, hkr, (he k k).2 rfl, h]
        · have : equivalent lt k r' = false := by rw [← Bool.not_eq_true, he]; exact hk'
          simp only [addProduction, find, hkr, this, Bool.false_eq_true, if_false, ih, if_neg h]

theorem find_map {lt : Rule → Rule → Bool} (he : ∀ a b, equivalent lt a b = true ↔ a = b) (grammar : List (Rule × W × List Rule)) (r : Rule) :
    find lt (productionMap lt grammar) r =
      if (grammar.filter fun p => decide (p.1 = r)) = [] then none else some ((grammar.filter fun p => decide (p.1 = r)).map Prod.snd) := by
  induction grammar using List.reverseRecOn with
  | nil => rfl
  | append_singleton g p ih =>
    have : productionMap lt (g ++ [p]) = addProduction lt (productionMap lt g) p.1 p.2 := by simp [productionMap]
    rw [this, find_insert he]
    by_cases h : p.1 = r
    · subst h
      rw [if_pos rfl, ih]
      simp only [List.filter_append, List.filter_cons, decide_true, if_true, List.filter_nil, List.map_append]
      by_cases h0 : (g.filter fun q => decide (q.1 = p.1)) = []
      · simp [h0]
      · simp [h0]
    · rw [if_neg h, ih]
      have : (g ++ [p]).filter (fun q => decide (q.1 = r)) = g.filter fun q => decide (q.1 = r) := by simp [List.filter_append, h]
      rw [this]

theorem find_none {lt : Rule → Rule → Bool} (he : ∀ a b, equivalent lt a b = true ↔ a = b) (grammar : List (Rule × W × List Rule)) (r : Rule)
    (h : find lt (productionMap lt grammar) r = none) : ∀ p ∈ grammar, p.1 ≠ r := by
  rw [find_map he] at h
  split at h
  · rename_i h0
    rw [List.filter_eq_nil_iff] at h0
    simpa using h0
  · simp at h

theorem find_some {lt : Rule → Rule → Bool} (he : ∀ a b, equivalent lt a b = true ↔ a = b) (grammar : List (Rule × W × List Rule)) (r : Rule)
    (ps : Productions W) (h : find lt (productionMap lt grammar) r = some ps) : ps ≠ [] ∧ ∀ p ∈ ps, (r, p) ∈ grammar := by
  rw [find_map he] at h
  split at h
  · simp at h
  · rename_i h0
    cases h
    refine ⟨by simpa using h0, ?_⟩
    intro p hp
    simp only [List.mem_map, List.mem_filter, decide_eq_true_eq] at hp
    obtain ⟨⟨a, b⟩, ⟨h1, h2⟩, h3⟩ := hp
    simp only at h2 h3
    subst h2 h3
    exact h1

theorem rewrite_spec {G : Type} {lt : Rule → Rule → Bool} (he : ∀ a b, equivalent lt a b = true ↔ a = b) {pick : G → List W → Nat × G}
    (hp : PicksOne pick) (grammar : List (Rule × W × List Rule)) (rs : List Rule) (g : G) :
    ∃ rs' g', rewrite lt pick (productionMap lt grammar) rs g = .ok (rs', g') ∧ Rewrites grammar rs rs' := by
  induction rs generalizing g with
  | nil => exact ⟨[], g, rfl, .nil⟩
  | cons r rs ih =>
    cases hf : find lt (productionMap lt grammar) r with
    | none =>
      obtain ⟨rs', g', h1, h2⟩ := ih g
      refine ⟨r :: rs', g', ?_, .keep r rs rs' (find_none he grammar r hf) h2⟩
      simp only [rewrite, hf, h1, Outcome.bind]
    | some ps =>
      obtain ⟨hne, hin⟩ := find_some he grammar r ps hf
      have hlt := hp g (ps.map Prod.fst) (by simpa using hne)
      rw [List.length_map] at hlt
      obtain ⟨rs', g', h1, h2⟩ := ih (pick g (ps.map Prod.fst)).2
      have hmem := List.getElem_mem hlt
      refine ⟨ps[(pick g (ps.map Prod.fst)).1].2 ++ rs', g', ?_, .replace r ps[(pick g (ps.map Prod.fst)).1].1 _ rs rs' (hin _ hmem) h2⟩
      simp only [rewrite, hf, select, List.getElem?_eq_getElem hlt, Outcome.bind, h1]

theorem generate_spec {G : Type} {lt : Rule → Rule → Bool} (he : ∀ a b, equivalent lt a b = true ↔ a = b) {pick : G → List W → Nat × G}
    (hp : PicksOne pick) (grammar : List (Rule × W × List Rule)) (n : Nat) (rs : List Rule) (g : G) :
    ∃ rs' g', generate lt pick (productionMap lt grammar) n rs g = .ok (rs', g') ∧ RewritesN grammar n rs rs' := by
  induction n generalizing rs g with
  | zero => exact ⟨rs, g, rfl, .zero rs⟩
  | succ n ih =>
    obtain ⟨b, g1, h1, h2⟩ := rewrite_spec he hp grammar rs g
    obtain ⟨c, g2, h3, h4⟩ := ih b g1
    exact ⟨c, g2, by simp only [generate, h1, Outcome.bind, h3], .succ n rs b c h2 h4⟩

theorem rewrites_det {grammar : List (Rule × W × List Rule)} (σ : Rule → List Rule) (h1 : ∀ p ∈ grammar, σ p.1 = p.2.2)
    (h2 : ∀ r, (∀ p ∈ grammar, p.1 ≠ r) → σ r = [r]) (a b : List Rule) (h : Rewrites grammar a b) : b = a.flatMap σ := by
  induction h with
  | nil => rfl
  | keep r rs rs' hr _ ih => rw [List.flatMap_cons, h2 r hr, ih]; rfl
  | replace r w succ rs rs' hm _ ih => rw [List.flatMap_cons, ← ih]; rw [show σ r = succ from h1 _ hm]

end LsysProof

variable {W : Type}

/-- C38: for every grammar, start word, number of generations and random generator, the program run in the end comes from the start word by
that many parallel rewritings. -/
theorem C38_rewriting {G : Type} (rank : Option Op → Nat) (hr : ∀ a b, rank a = rank b → a = b) (pick : G → List W → Nat × G)
    (hp : PicksOne pick) (grammar : List (Rule × W × List Rule)) (generations : Int) (start : List Rule) (g : G) :
    ∃ rs, expand (ruleLt rank) pick ⟨generations, start, productionMap (ruleLt rank) grammar⟩ g = .ok rs ∧
      RewritesN grammar generations.toNat start rs := by
  obtain ⟨rs, g', h1, h2⟩ := generate_spec (C38_comparator rank hr).2.2 hp grammar generations.toNat start g
  exact ⟨rs, by simp only [expand, h1, Outcome.bind], h2⟩

/-- C38: if every symbol has at most one right side the result is the repeated substitution, whatever the random generator does. -/
theorem C38_deterministic {G : Type} (rank : Option Op → Nat) (hr : ∀ a b, rank a = rank b → a = b) (pick : G → List W → Nat × G)
    (hp : PicksOne pick) (grammar : List (Rule × W × List Rule)) (generations : Int) (start : List Rule) (g : G) (σ : Rule → List Rule)
    (h1 : ∀ p ∈ grammar, σ p.1 = p.2.2) (h2 : ∀ r, (∀ p ∈ grammar, p.1 ≠ r) → σ r = [r]) :
    expand (ruleLt rank) pick ⟨generations, start, productionMap (ruleLt rank) grammar⟩ g =
      .ok ((fun l => l.flatMap σ)^[generations.toNat] start) := by
  obtain ⟨rs, h3, h4⟩ := C38_rewriting rank hr pick hp grammar generations start g
  rw [h3]
  clear h3
  congr 1
  generalize generations.toNat = n at h4
  induction h4 with
  | zero rs => rfl
  | succ n a b c hab _ ih =>
    rw [ih, rewrites_det σ h1 h2 a b hab]
    rw [Function.iterate_succ_apply]

/-- The algae system of Lindenmayer: `A -> AB`, `B -> A`. -/
example : expand (ruleLt fun _ => 0) (fun (g : Unit) (_ : List Nat) => (0, g))
    ⟨3, [.word ['A']], productionMap (ruleLt fun _ => 0)
      [(.word ['A'], 1, [.word ['A'], .word ['B']]), (.word ['B'], 1, [.word ['A']])]⟩ () =
    .ok [.word ['A'], .word ['B'], .word ['A'], .word ['A'], .word ['B']] := by
  with_unfolding_all rfl

example : ∃ rank : Option Op → Nat, ∀ a b, rank a = rank b → a = b := by
  refine ⟨fun a => match a with | none => 0 | some o => o.ctorIdx + 1, ?_⟩
  intro a b h
  cases a <;> cases b <;> simp at h ⊢
  rename_i a b
  cases a <;> cases b <;> simp [Op.ctorIdx] at h ⊢

/-! ## Brackets -/

namespace LsysProof

theorem balanced_append {a b : List Rule} (ha : Balanced a) (hb : Balanced b) : Balanced (a ++ b) := by
  induction ha with
  | nil => exact hb
  | other r rs h1 h2 _ ih => exact .other r _ h1 h2 ih
  | «section» body rs h _ _ ih =>
    have := Balanced.section body _ h ih
    simpa using this

theorem rewrites_append {grammar : List (Rule × W × List Rule)} {a b c : List Rule} (h : Rewrites grammar (a ++ b) c) :
    ∃ a' b', c = a' ++ b' ∧ Rewrites grammar a a' ∧ Rewrites grammar b b' := by
  induction a generalizing c with
  | nil => exact ⟨[], c, rfl, .nil, h⟩
  | cons r a ih =>
    rw [List.cons_append] at h
    cases h with
    | keep _ _ rs' hr h =>
      obtain ⟨a', b', rfl, h1, h2⟩ := ih h
      exact ⟨r :: a', b', rfl, .keep r a a' hr h1, h2⟩
    | replace _ w succ _ rs' hm h =>
      obtain ⟨a', b', rfl, h1, h2⟩ := ih h
      exact ⟨succ ++ a', b', by simp, .replace r w succ a a' hm h1, h2⟩

theorem rewrites_bracket {grammar : List (Rule × W × List Rule)} {r : Rule} {a c : List Rule} (hr : ∀ p ∈ grammar, p.1 ≠ r)
    (h : Rewrites grammar (r :: a) c) : ∃ a', c = r :: a' ∧ Rewrites grammar a a' := by
  cases h with
  | keep _ _ rs' _ h => exact ⟨rs', rfl, h⟩
  | replace _ w succ _ rs' hm h => exact absurd rfl (hr _ hm)

theorem rewrites_balanced {grammar : List (Rule × W × List Rule)} (hb : ∀ p ∈ grammar, Balanced p.2.2)
    (h1 : ∀ p ∈ grammar, p.1 ≠ .op .save) (h2 : ∀ p ∈ grammar, p.1 ≠ .op .restore) {a b : List Rule} (ha : Balanced a)
    (h : Rewrites grammar a b) : Balanced b := by
  induction ha generalizing b with
  | nil => cases h; exact .nil
  | other r rs hs hr _ ih =>
    cases h with
    | keep _ _ rs' _ h => exact .other r rs' hs hr (ih h)
    | replace _ w succ _ rs' hm h => exact balanced_append (hb _ hm) (ih h)
  | «section» body rs _ _ ih1 ih2 =>
    obtain ⟨c, rfl, h'⟩ := rewrites_bracket h1 h
    obtain ⟨body', c', rfl, h3, h4⟩ := rewrites_append h'
    obtain ⟨rs', rfl, h5⟩ := rewrites_bracket h2 h4
    exact .section body' rs' (ih1 h3) (ih2 h5)

variable {K : Type} [Field K]

theorem runRules_append (set : Settings K) (a b : List Rule) (t : Turtle K) :
    runRules set t (a ++ b) = (runRules set t a).bind fun t => runRules set t b := by
  induction a generalizing t with
  | nil => rfl
  | cons r a ih =>
    simp only [List.cons_append, runRules]
    cases apply set t r with
    | ok t => exact ih t
    | throw e => rfl
    | ub w => rfl

theorem apply_other (set : Settings K) (t : Turtle K) (r : Rule) (h1 : r ≠ .op .save) (h2 : r ≠ .op .restore) :
    (∃ e, apply set t r = .throw e) ∨ ∃ t', apply set t r = .ok t' ∧ t'.stack = t.stack := by
  cases r with
  | op o =>
    right
    cases o <;> first | exact ⟨_, rfl, rfl⟩ | exact absurd rfl h1 | exact absurd rfl h2
  | word w =>
    simp only [apply, say]
    split_ifs
    · exact .inr ⟨_, rfl, rfl⟩
    · exact .inr ⟨_, rfl, rfl⟩
    · exact .inr ⟨_, rfl, rfl⟩
    · exact .inl ⟨_, rfl⟩

theorem run_balanced (set : Settings K) (rs : List Rule) (h : Balanced rs) (t : Turtle K) :
    (∃ e, runRules set t rs = .throw e) ∨ ∃ t', runRules set t rs = .ok t' ∧ t'.stack = t.stack := by
  induction h generalizing t with
  | nil => exact .inr ⟨t, rfl, rfl⟩
  | other r rs h1 h2 _ ih =>
    simp only [runRules]
    rcases apply_other set t r h1 h2 with ⟨e, he⟩ | ⟨t', ht, hs⟩
    · exact .inl ⟨e, by rw [he]; rfl⟩
    · rw [ht]
      rcases ih t' with h | ⟨t'', h, hs'⟩
      · exact .inl h
      · exact .inr ⟨t'', h, hs'.trans hs⟩
  | «section» body rs _ _ ih1 ih2 =>
    simp only [runRules, apply, step, Outcome.bind, runRules_append]
    rcases ih1 { t with stack := t.state :: t.stack } with ⟨e, he⟩ | ⟨t', ht, hs⟩
    · exact .inl ⟨e, by rw [he]⟩
    · rw [ht]
      simp only [hs]
      rcases ih2 { t' with state := t.state, stack := t.stack } with h | ⟨t'', h, hs'⟩
      · exact .inl h
      · exact .inr ⟨t'', h, hs'⟩

end LsysProof

open LsysProof
variable {K : Type} [Field K]

/-- C39: a bracketed section leaves the state of the turtle and its stack as they were. Partial: the appearance in use is not part of the
saved state, see `C39_violated_style`. -/
theorem C39_section_partial (set : Settings K) (t t' : Turtle K) (body : List Rule) (hb : Balanced body)
    (h : runRules set t (.op .save :: (body ++ [.op .restore])) = .ok t') : t'.state = t.state ∧ t'.stack = t.stack := by
  simp only [runRules, apply, step, Outcome.bind, runRules_append] at h
  rcases run_balanced set body hb { t with stack := t.state :: t.stack } with ⟨e, he⟩ | ⟨u, hu, hs⟩
  · rw [he] at h; simp at h
  · rw [hu] at h
    simp only [hs] at h
    cases h
    exact ⟨rfl, rfl⟩

/-- C39: if start word and right sides are balanced and brackets themselves have no productions, the run never restores from an empty
stack and leaves the stack as it was, after any number of generations and for any random choices. -/
theorem C39_no_underflow {G : Type} (rank : Option Op → Nat) (hr : ∀ a b, rank a = rank b → a = b) (pick : G → List W → Nat × G)
    (hp : PicksOne pick) (grammar : List (Rule × W × List Rule)) (generations : Int) (start : List Rule) (g : G)
    (hs : Balanced start) (hb : ∀ p ∈ grammar, Balanced p.2.2) (h1 : ∀ p ∈ grammar, p.1 ≠ .op .save)
    (h2 : ∀ p ∈ grammar, p.1 ≠ .op .restore) (set : Settings K) (t : Turtle K) :
    (∃ e, run (ruleLt rank) pick set ⟨generations, start, productionMap (ruleLt rank) grammar⟩ g t = .throw e) ∨
    ∃ t', run (ruleLt rank) pick set ⟨generations, start, productionMap (ruleLt rank) grammar⟩ g t = .ok t' ∧ t'.stack = t.stack := by
  obtain ⟨rs, h3, h4⟩ := C38_rewriting rank hr pick hp grammar generations start g
  simp only [run, h3, Outcome.bind]
  apply run_balanced
  clear h3
  generalize generations.toNat = n at h4
  induction h4 with
  | zero rs => exact hs
  | succ n a b c hab _ ih => exact ih (rewrites_balanced hb h1 h2 hs hab)

/-- C39 needs its assumption on brackets: with the production `[ -> F` the balanced word `[F]` underflows the stack. -/
theorem C39_violated_bracket_production (set : Settings K) (t : Turtle K) (ht : t.stack = []) :
    Balanced [.op .save, .op .moveForward, .op .restore] ∧ Balanced [.op .moveForward] ∧
    ∃ w, run (ruleLt fun o => match o with | none => 0 | some o => o.ctorIdx + 1) (fun (g : Unit) (_ : List Nat) => (0, g)) set
      ⟨1, [.op .save, .op .moveForward, .op .restore], [(.op .save, [(1, [.op .moveForward])])]⟩ () t = .ub w := by
  refine ⟨.section [.op .moveForward] [] (.other _ _ (by simp) (by simp) .nil) .nil, .other _ _ (by simp) (by simp) .nil, "top of an empty stack", ?_⟩
  have : expand (ruleLt fun o => match o with | none => 0 | some o => o.ctorIdx + 1) (fun (g : Unit) (_ : List Nat) => (0, g))
      ⟨1, [.op .save, .op .moveForward, .op .restore], [(.op .save, [(1, [.op .moveForward])])]⟩ () =
      .ok [.op .moveForward, .op .moveForward, .op .restore] := by with_unfolding_all rfl
  simp only [run, this, Outcome.bind, runRules, apply, step, draw, ht]

/-- C39 is false for the appearance: after `[@]` the saved texture number is back, but the next cylinder is drawn with the other texture. -/
theorem C39_violated_style (set : Settings K) (h : 2 ≤ set.appearances) (size : K) :
    ∃ t, runRules set (initial size) [.op .save, .op .switchStyle, .op .restore, .op .moveForward] = .ok t ∧
      t.state.texture = 0 ∧ t.drawn = [(.cylinder, (initial size).state, 1)] ∧
      ∃ t0, runRules set (initial size) [.op .moveForward] = .ok t0 ∧ t0.drawn = [(.cylinder, (initial size).state, 0)] := by
  refine ⟨_, rfl, rfl, ?_, _, rfl, ?_⟩
  · have : 1 % set.appearances = 1 := Nat.mod_eq_of_lt (by omega)
    simp [draw, initial, this]
  · simp [draw, initial]

/-! ## The frame of the turtle -/

namespace LsysProof

theorem createRotation_frame {s c : K} (hsc : s ^ 2 + c ^ 2 = 1) {st : State K} (h : Frame st.direction st.right) :
    Frame ((createRotation s c st).apply st.direction) ((createRotation s c st).apply st.right) := by
  obtain ⟨h1, h2, h3⟩ := h
  have haxis : QuaternionSpec.lengthSq (Vec3.cross st.direction st.right) = 1 := by
    simp only [QuaternionSpec.lengthSq, Vec3.cross]
    linear_combination h1 * (st.right.x ^ 2 + st.right.y ^ 2 + st.right.z ^ 2) + h2 - (st.direction.x * st.right.x + st.direction.y * st.right.y + st.direction.z * st.right.z) * h3
  have hu : QuaternionSpec.sizeSq (createRotation s c st) ≠ 0 := by
    rw [createRotation, C54_unit s c hsc _ haxis]; exact one_ne_zero
  obtain ⟨i1, i2⟩ := C54_isometry _ hu st.right st.direction
  obtain ⟨i3, -⟩ := C54_isometry _ hu st.right st.right
  refine ⟨?_, ?_, ?_⟩
  · have := i1; simp only [QuaternionSpec.lengthSq] at this; rw [this]; exact h1
  · have := i3; simp only [QuaternionSpec.lengthSq] at this; rw [this]; exact h2
  · have := i2; simp only [Vec3.dot] at this
    linear_combination this + h3

end LsysProof

/-- C62: programs without pitch and roll keep direction and right perpendicular unit vectors, in the state and in all saved states. Partial:
pitch and roll do not, see `C62_violated_pitch`. -/
theorem C62_frame_partial (set : Settings K) (hsc : set.sinHalf ^ 2 + set.cosHalf ^ 2 = 1) (rs : List Rule)
    (hrs : ∀ r ∈ rs, r ≠ .op .pitchUp ∧ r ≠ .op .pitchDown ∧ r ≠ .op .rollLeft ∧ r ≠ .op .rollRight) (t t' : Turtle K)
    (h0 : ∀ s ∈ t.state :: t.stack, Frame s.direction s.right) (h : runRules set t rs = .ok t') :
    ∀ s ∈ t'.state :: t'.stack, Frame s.direction s.right := by
  induction rs generalizing t with
  | nil => simp only [runRules, Outcome.ok.injEq] at h; subst h; exact h0
  | cons r rs ih =>
    obtain ⟨n1, n2, n3, n4⟩ := hrs r (by simp)
    simp only [runRules] at h
    cases ha : apply set t r with
    | throw e => rw [ha] at h; simp [Outcome.bind] at h
    | ub w => rw [ha] at h; simp [Outcome.bind] at h
    | ok u =>
      rw [ha] at h
      refine ih (fun r hr => hrs r (by simp [hr])) u ?_ h
      have hst := h0 t.state (by simp)
      have hstack : ∀ s ∈ t.stack, Frame s.direction s.right := fun s hs => h0 s (by simp [hs])
      have keep : ∀ st : State K, Frame st.direction st.right → u.state = st → u.stack = t.stack →
          ∀ s ∈ u.state :: u.stack, Frame s.direction s.right := by
        rintro st hf h1 h2 s hs
        rw [h1, h2] at hs
        rcases List.mem_cons.1 hs with rfl | hs
        · exact hf
        · exact hstack s hs
      cases r with
      | word w =>
        simp only [apply, say] at ha
        split_ifs at ha <;> cases ha <;> exact keep (jump t.state) hst rfl rfl
      | op o =>
        cases o with
        | pitchUp => exact absurd rfl n1
        | pitchDown => exact absurd rfl n2
        | rollLeft => exact absurd rfl n3
        | rollRight => exact absurd rfl n4
        | turnLeft =>
          cases ha
          exact keep (turn (-set.sinHalf) set.cosHalf t.state) (createRotation_frame (by linear_combination hsc) hst) rfl rfl
        | turnRight =>
          cases ha
          exact keep (turn set.sinHalf set.cosHalf t.state) (createRotation_frame hsc hst) rfl rfl
        | turnAround =>
          cases ha
          exact keep (turn 1 0 t.state) (createRotation_frame (by ring) hst) rfl rfl
        | save =>
          cases ha
          intro s hs
          simp only [List.mem_cons] at hs
          rcases hs with rfl | rfl | hs
          · exact hst
          · exact hst
          · exact hstack s hs
        | restore =>
          simp only [apply, step] at ha
          cases hk : t.stack with
          | nil => rw [hk] at ha; simp at ha
          | cons x stack =>
            rw [hk] at ha
            cases ha
            intro s hs
            exact hstack s (by rw [hk]; exact hs)
        | _ => cases ha; refine keep _ ?_ rfl rfl; exact hst

/-- C62 is false for pitch: after one the vectors are no longer perpendicular. -/
theorem C62_violated_pitch : ∃ (set : Settings ℚ) (t : Turtle ℚ), set.sinHalf ^ 2 + set.cosHalf ^ 2 = 1 ∧
    runRules set (initial 1) [.op .pitchUp] = .ok t ∧ ¬ Frame t.state.direction t.state.right := by
  refine ⟨⟨3 / 5, 4 / 5, 1, 1⟩, _, by norm_num, rfl, ?_⟩
  rintro ⟨-, -, h⟩
  norm_num [createRotation, fromAngleAxis, Vec3.cross, initial, Quat.apply, Quat.norm, Vec3.scale] at h

namespace LsysProof

/-- Position and both vectors lie in the plane `z = 0`. -/
def Planar (s : State K) : Prop := s.position.z = 0 ∧ s.direction.z = 0 ∧ s.right.z = 0

theorem planar_rotation {st : State K} (h : Planar st) (s c : K) (v : Vec3 K) (hv : v.z = 0) : ((createRotation s c st).apply v).z = 0 := by
  obtain ⟨-, h2, h3⟩ := h
  simp [createRotation, fromAngleAxis, Quat.apply, Vec3.cross, Vec3.scale, h2, h3, hv]

end LsysProof

/-- C62 is false: the "3d" turtle never leaves the plane in which it starts, whatever program is run: pitch and roll turn about the same axis
as turn left and right. -/
theorem C62_violated_planar (set : Settings K) (rs : List Rule) (size : K) (t' : Turtle K)
    (h : runRules set (initial size) rs = .ok t') : t'.state.position.z = 0 ∧ t'.state.direction.z = 0 ∧
      ∀ d ∈ t'.drawn, d.2.1.position.z = 0 ∧ d.2.1.direction.z = 0 := by
  have key : ∀ (rs : List Rule) (t t' : Turtle K), (∀ s ∈ t.state :: t.stack, Planar s) → (∀ d ∈ t.drawn, Planar d.2.1) →
      runRules set t rs = .ok t' → (∀ s ∈ t'.state :: t'.stack, Planar s) ∧ ∀ d ∈ t'.drawn, Planar d.2.1 := by
    intro rs
    induction rs with
    | nil => intro t t' h0 hd h; simp only [runRules, Outcome.ok.injEq] at h; subst h; exact ⟨h0, hd⟩
    | cons r rs ih =>
      intro t t' h0 hd h
      simp only [runRules] at h
      cases ha : apply set t r with
      | throw e => rw [ha] at h; simp [Outcome.bind] at h
      | ub w => rw [ha] at h; simp [Outcome.bind] at h
      | ok u =>
        rw [ha] at h
        have hst := h0 t.state (by simp)
        have hstack : ∀ s ∈ t.stack, Planar s := fun s hs => h0 s (by simp [hs])
        have hjump : Planar (jump t.state) := by
          obtain ⟨h1, h2, h3⟩ := hst
          exact ⟨by simp [jump, Vec3.add, Vec3.scale, h1, h2], h2, h3⟩
        have keep : ∀ st : State K, Planar st → u.state = st → u.stack = t.stack → (∀ s ∈ u.state :: u.stack, Planar s) := by
          rintro st hf h1 h2 s hs
          rw [h1, h2] at hs
          rcases List.mem_cons.1 hs with rfl | hs
          · exact hf
          · exact hstack s hs
        have hdraw : ∀ shape, ∀ d ∈ (draw set shape t).drawn, Planar d.2.1 := by
          intro shape d hmem
          simp only [draw, List.mem_append, List.mem_singleton] at hmem
          rcases hmem with hmem | rfl
          · exact hd d hmem
          · exact hst
        have hturn : ∀ s c, Planar (turn s c t.state) := fun s c =>
          ⟨hst.1, planar_rotation hst s c _ hst.2.1, planar_rotation hst s c _ hst.2.2⟩
        have both : (∀ s ∈ u.state :: u.stack, Planar s) ∧ ∀ d ∈ u.drawn, Planar d.2.1 := by
          cases r with
          | word w =>
            simp only [apply, say] at ha
            split_ifs at ha <;> cases ha
            · exact ⟨keep (jump t.state) hjump rfl rfl, hdraw .cone⟩
            · exact ⟨keep (jump t.state) hjump rfl rfl, hdraw .sphere⟩
            · exact ⟨keep (jump t.state) hjump rfl rfl, hdraw .cylinder⟩
          | op o =>
            cases o with
            | moveForward => cases ha; exact ⟨keep (jump t.state) hjump rfl rfl, hdraw .cylinder⟩
            | jumpForward => cases ha; exact ⟨keep (jump t.state) hjump rfl rfl, hd⟩
            | turnLeft => cases ha; exact ⟨keep _ (hturn _ _) rfl rfl, hd⟩
            | turnRight => cases ha; exact ⟨keep _ (hturn _ _) rfl rfl, hd⟩
            | turnAround => cases ha; exact ⟨keep _ (hturn _ _) rfl rfl, hd⟩
            | pitchUp => cases ha; refine ⟨keep _ ?_ rfl rfl, hd⟩; exact ⟨hst.1, planar_rotation hst _ _ _ hst.2.1, hst.2.2⟩
            | pitchDown => cases ha; refine ⟨keep _ ?_ rfl rfl, hd⟩; exact ⟨hst.1, planar_rotation hst _ _ _ hst.2.1, hst.2.2⟩
            | rollLeft => cases ha; refine ⟨keep _ ?_ rfl rfl, hd⟩; exact ⟨hst.1, hst.2.1, planar_rotation hst _ _ _ hst.2.2⟩
            | rollRight => cases ha; refine ⟨keep _ ?_ rfl rfl, hd⟩; exact ⟨hst.1, hst.2.1, planar_rotation hst _ _ _ hst.2.2⟩
            | save =>
              cases ha
              refine ⟨?_, hd⟩
              intro s hs
              simp only [List.mem_cons] at hs
              rcases hs with rfl | rfl | hs
              · exact hst
              · exact hst
              · exact hstack s hs
            | restore =>
              simp only [apply, step] at ha
              cases hk : t.stack with
              | nil => rw [hk] at ha; simp at ha
              | cons x stack =>
                rw [hk] at ha
                cases ha
                exact ⟨fun s hs => hstack s (by rw [hk]; exact hs), hd⟩
            | _ => cases ha; refine ⟨keep _ ?_ rfl rfl, hd⟩; exact hst
        exact ih u t' both.1 both.2 h
  obtain ⟨h1, h2⟩ := key rs (initial size) t' (by simp [initial, Planar]) (by simp [initial]) h
  exact ⟨(h1 _ (by simp)).1, (h1 _ (by simp)).2.1, fun d hd => ⟨(h2 d hd).1, (h2 d hd).2.1⟩⟩

example : Frame (initial (5 : ℚ)).state.direction (initial (5 : ℚ)).state.right := by norm_num [Frame, initial]
example : Balanced [.op .save, .op .turnLeft, .op .save, .op .moveForward, .op .restore, .op .restore, .op .moveForward] :=
  .section [.op .turnLeft, .op .save, .op .moveForward, .op .restore] [.op .moveForward]
    (.other _ _ (by simp) (by simp) (.section [.op .moveForward] [] (.other _ _ (by simp) (by simp) .nil) .nil))
    (.other _ _ (by simp) (by simp) .nil)

end Verif.Props
