import Verif.Props.CacheBuilderSpec
import Verif.Props.MeshCache

/-! # C94: builds through the cache -/
namespace Verif.Props
open Verif.MeshCache (Path Item)
open Verif.CacheBuilder Verif.CacheBuilderSpec Verif.Streams Verif.StreamsSpec
open Verif.MeshCacheSpec (put ItemFits replayed cut Build)

namespace CacheBuilderProof
open Verif.Props.MeshCacheProof (Inv step_inv put_same put_ne)

variable {K S E D : Type}

theorem put_self {α β : Type} [DecidableEq α] (f : α → β) (a : α) (b : β) (h : f a = b) : put f a b = f := by
  funext x; unfold put; split
  · rename_i hx; rw [hx, h]
  · rfl

theorem put_put {α β : Type} [DecidableEq α] (f : α → β) (a : α) (b c : β) : put (put f a b) a c = put f a c := by
  funext x; unfold put; split <;> rfl

theorem deliver_ok (fc : FloatConv D) (b : Nat) (q : QuadKey) (c : Bool) (l : List (Item D)) :
    ∀ {s : MeshCache.State} {u : MeshCacheSpec.Track D} {bd : Build D}, Inv fc s u → u.building q = some bd → bd.owner = b →
      (c = false → ∀ i ∈ l, ItemFits i) → ∃ s', deliver fc b q c s l = .ok (s', if c then [] else l) ∧
        Inv fc s' { u with building := put u.building q (some { bd with items := bd.items ++ if c then [] else l }) } := by
  induction l with
  | nil =>
    intro s u bd h hb ho hf
    refine ⟨s, by cases c <;> rfl, ?_⟩
    have e : ({ bd with items := bd.items ++ if c = true then [] else [] } : Build D) = bd := by cases bd; cases c <;> simp
    rw [e, put_self _ _ _ hb]
    exact h
  | cons i l ih =>
    intro s u bd h hb ho hf
    cases c with
    | true =>
      obtain ⟨s', h1, h2⟩ := ih h hb ho (by simp)
      refine ⟨s', ?_, h2⟩
      simp only [deliver, MeshCache.callback, if_true, Outcome.bind, h1]
      rfl
    | false =>
      have hall : MeshCacheSpec.Allowed u (.callback b q i false) := ⟨⟨bd, hb, ho⟩, hf rfl i (by simp)⟩
      obtain ⟨ha, hi⟩ := step_inv h (.callback b q i false) hall
      simp only [MeshCache.step, MeshCacheSpec.Answer, MeshCacheSpec.next, hb, Bool.false_eq_true, if_false] at ha hi
      cases hc : MeshCache.callback fc s b q i false with
      | ok r =>
        rw [hc] at ha hi
        simp only [MeshCache.Out.delivered.injEq] at ha hi
        obtain ⟨s', h1, h2⟩ := ih hi (bd := { bd with items := bd.items ++ [i] }) (put_same _ _ _) ho
          (fun _ j hj => hf rfl j (by simp [hj]))
        refine ⟨s', ?_, ?_⟩
        · simp only [deliver, hc, Outcome.bind, h1, ha, Bool.false_eq_true, if_false]
          rfl
        · simpa [put_put] using h2
      | throw e => rw [hc] at ha; simp at ha
      | ub e => rw [hc] at ha; simp at ha

theorem shownFrom_append (B : Builder K S E D) (es : List E) (e : E) : ∀ s, shownFrom B s (es ++ [e]) =
    shownFrom B s es ++ (B.visit false (es.foldl (fun s e => (B.visit false s e).1) s) e).2 := by
  induction es with
  | nil => intro s; simp [shownFrom]
  | cons a es ih => intro s; simp [shownFrom, ih]

theorem state_append (B : Builder K S E D) (k : K) (es : List E) (e : E) :
    state B k (es ++ [e]) = (B.visit false (state B k es) e).1 := by simp [state]

/-- The builder object of a job. -/
def PhaseOf (B : Builder K S E D) (j : Job K E) : Phase S → Prop
  | .missed => j.mode = .pending ∧ j.seen = []
  | .empty => j.mode = .replay
  | .real false s => j.mode = .plain ∧ (j.cancelled = false → s = state B j.context j.seen)
  | .real true s => recorded j = true ∧ (j.cancelled = false → s = state B j.context j.seen)

structure Rel (fc : FloatConv D) (B : Builder K S E D) (s : State K S) (t : Track K E) (u : MeshCacheSpec.Track D) : Prop where
  inv : Inv fc s.cache u
  enabled : s.enabled = t.enabled
  stored : ∀ p, u.complete p = (t.stored p).map fun x => whole B x.1 x.2
  idle : ∀ b, t.jobs b = none → s.runs.find b = none
  job : ∀ b j, t.jobs b = some j → ∃ ph, s.runs.find b = some ⟨j.path, j.context, j.cancelled, ph⟩ ∧ PhaseOf B j ph
  single : ∀ b b' j j', t.jobs b = some j → t.jobs b' = some j' → j.path.2 = j'.path.2 → b = b'
  free : ∀ q, (∀ b j, t.jobs b = some j → recorded j = true → j.path.2 ≠ q) → u.building q = none
  busy : ∀ b j h, t.jobs b = some j → j.mode = .record h → ∃ items, u.building j.path.2 = some ⟨b, j.path, items, h⟩ ∧
    (j.cancelled = false → items = shownFrom B (B.start j.context) j.seen)

theorem Rel.init (fc : FloatConv D) (B : Builder K S E D) : Rel fc B CacheBuilder.init start MeshCacheSpec.start :=
  ⟨Inv.init fc, rfl, fun _ => rfl, fun _ _ => rfl, by simp [start], by simp [start], fun _ _ => rfl, by simp [start]⟩

theorem recorded_iff (j : Job K E) : recorded j = true ↔ ∃ h, j.mode = .record h := by
  unfold recorded; cases j.mode <;> simp

/-- A change of a job which is not recorded before and after, the cache is not touched. -/
theorem Rel.change {fc : FloatConv D} {B : Builder K S E D} {s : State K S} {t : Track K E} {u : MeshCacheSpec.Track D}
    (h : Rel fc B s t u) (b : Nat) (j : Job K E) (ph : Phase S) (hr : recorded j = false) (hp : PhaseOf B j ph)
    (hold : (∃ j0, t.jobs b = some j0 ∧ j0.path = j.path ∧ recorded j0 = false) ∨
      (t.jobs b = none ∧ ∀ b' j', t.jobs b' = some j' → j'.path.2 ≠ j.path.2)) :
    Rel fc B { s with runs := s.runs.set b ⟨j.path, j.context, j.cancelled, ph⟩ } { t with jobs := put t.jobs b (some j) } u := by
  have other : ∀ b' j', b' ≠ b → t.jobs b' = some j' → j'.path.2 ≠ j.path.2 := by
    intro b' j' hne hj'
    rcases hold with ⟨j0, h0, hp0, -⟩ | ⟨-, hf⟩
    · intro he
      exact hne (h.single b' b j' j0 hj' h0 (by rw [he, hp0]))
    · exact hf b' j' hj'
  refine ⟨h.inv, h.enabled, h.stored, ?_, ?_, ?_, ?_, ?_⟩
  · intro b' hb'
    simp only [put] at hb'
    split at hb'
    · cases hb'
    · rename_i hne
      simp only [Assoc.find_set, if_neg hne]; exact h.idle b' hb'
  · intro b' j' hj'
    simp only [put] at hj'
    split at hj'
    · rename_i he; cases hj'; subst he; exact ⟨ph, by simp [Assoc.find_set], hp⟩
    · rename_i hne
      simp only [Assoc.find_set, if_neg hne]; exact h.job b' j' hj'
  · intro b1 b2 j1 j2 h1 h2 he
    simp only [put] at h1 h2
    split at h1
    · rename_i e1; cases h1
      split at h2
      · rename_i e2; rw [e1, e2]
      · rename_i e2; exact absurd he.symm (other b2 j2 e2 h2)
    · rename_i e1
      split at h2
      · cases h2; exact absurd he (other b1 j1 e1 h1)
      · exact h.single b1 b2 j1 j2 h1 h2 he
  · intro q hq
    apply h.free q
    intro b' j' hj' hr'
    by_cases hb : b' = b
    · subst hb
      rcases hold with ⟨j0, h0, -, hr0⟩ | ⟨h0, -⟩
      · rw [h0] at hj'; cases hj'; rw [hr0] at hr'; cases hr'
      · rw [h0] at hj'; cases hj'
    · exact hq b' j' (by simp [put, hb, hj']) hr'
  · intro b' j' hh hj' hm
    simp only [put] at hj'
    split at hj'
    · cases hj'
      rw [(recorded_iff j).2 ⟨hh, hm⟩] at hr; cases hr
    · exact h.busy b' j' hh hj' hm

/-- A change of a recorded job together with its build in the cache. -/
theorem Rel.rechange {fc : FloatConv D} {B : Builder K S E D} {s : State K S} {t : Track K E} {u : MeshCacheSpec.Track D}
    (h : Rel fc B s t u) (b : Nat) (j0 j : Job K E) (st : S) (hj0 : t.jobs b = some j0) (hpath : j0.path = j.path)
    (hst : j.cancelled = false → st = state B j.context j.seen) (hh : Bool) (hm : j.mode = .record hh)
    (c : MeshCache.State) (items : List (Item D)) (hi : j.cancelled = false → items = shownFrom B (B.start j.context) j.seen)
    (hinv : Inv fc c { u with building := put u.building j.path.2 (some ⟨b, j.path, items, hh⟩) }) :
    Rel fc B { s with cache := c, runs := s.runs.set b ⟨j.path, j.context, j.cancelled, .real true st⟩ }
      { t with jobs := put t.jobs b (some j) } { u with building := put u.building j.path.2 (some ⟨b, j.path, items, hh⟩) } := by
  have other : ∀ b' j', b' ≠ b → t.jobs b' = some j' → j'.path.2 ≠ j.path.2 := by
    intro b' j' hne hj' he
    exact hne (h.single b' b j' j0 hj' hj0 (by rw [he, hpath]))
  have hr : recorded j = true := (recorded_iff j).2 ⟨hh, hm⟩
  refine ⟨hinv, h.enabled, h.stored, ?_, ?_, ?_, ?_, ?_⟩
  · intro b' hb'
    simp only [put] at hb'
    split at hb'
    · cases hb'
    · rename_i hne
      simp only [Assoc.find_set, if_neg hne]; exact h.idle b' hb'
  · intro b' j' hj'
    simp only [put] at hj'
    split at hj'
    · rename_i he; cases hj'; subst he; exact ⟨.real true st, by simp only [Assoc.find_set, if_true], hr, hst⟩
    · rename_i hne
      simp only [Assoc.find_set, if_neg hne]; exact h.job b' j' hj'
  · intro b1 b2 j1 j2 h1 h2 he
    simp only [put] at h1 h2
    split at h1
    · rename_i e1; cases h1
      split at h2
      · rename_i e2; rw [e1, e2]
      · rename_i e2; exact absurd he.symm (other b2 j2 e2 h2)
    · rename_i e1
      split at h2
      · cases h2; exact absurd he (other b1 j1 e1 h1)
      · exact h.single b1 b2 j1 j2 h1 h2 he
  · intro q hq
    have hne : q ≠ j.path.2 := fun he => hq b j (put_same _ _ _) hr he.symm
    simp only [put_ne _ _ hne]
    apply h.free q
    intro b' j' hj' hr'
    by_cases hb : b' = b
    · subst hb; rw [hj0] at hj'; cases hj'; rw [hpath]; exact hne.symm
    · exact hq b' j' (by simp [put, hb, hj']) hr'
  · intro b' j' hh' hj' hm'
    simp only [put] at hj'
    split at hj'
    · rename_i he; cases hj'; subst he
      rw [hm] at hm'; cases hm'
      exact ⟨items, put_same _ _ _, hi⟩
    · rename_i hne
      simp only [put_ne _ _ (other b' j' hne hj')]
      exact h.busy b' j' hh' hj' hm'

/-- A job ends. -/
theorem Rel.drop {fc : FloatConv D} {B : Builder K S E D} {s : State K S} {t : Track K E} {u : MeshCacheSpec.Track D}
    (h : Rel fc B s t u) (b : Nat) (hr : ∀ j, t.jobs b = some j → recorded j = false) :
    Rel fc B { s with runs := s.runs.erase b } { t with jobs := put t.jobs b none } u := by
  refine ⟨h.inv, h.enabled, h.stored, ?_, ?_, ?_, ?_, ?_⟩
  · intro b' hb'
    simp only [Assoc.find_erase]
    by_cases he : b' = b
    · rw [if_pos he]
    · rw [if_neg he]; simp only [put_ne _ _ he] at hb'; exact h.idle b' hb'
  · intro b' j' hj'
    by_cases he : b' = b
    · subst he; simp [put] at hj'
    · simp only [put_ne _ _ he] at hj'
      simp only [Assoc.find_erase, if_neg he]; exact h.job b' j' hj'
  · intro b1 b2 j1 j2 h1 h2 he
    simp only [put] at h1 h2
    split at h1
    · cases h1
    · split at h2
      · cases h2
      · exact h.single b1 b2 j1 j2 h1 h2 he
  · intro q hq
    apply h.free q
    intro b' j' hj' hr'
    by_cases he : b' = b
    · subst he; rw [hr j' hj'] at hr'; cases hr'
    · exact hq b' j' (by simp [put, he, hj']) hr'
  · intro b' j' hh hj' hm
    simp only [put] at hj'
    split at hj'
    · cases hj'
    · exact h.busy b' j' hh hj' hm

/-- No build of the tile is recorded. -/
theorem Rel.quiet {fc : FloatConv D} {B : Builder K S E D} {s : State K S} {t : Track K E} {u : MeshCacheSpec.Track D}
    (h : Rel fc B s t u) {b : Nat} {j : Job K E} (hj : t.jobs b = some j) (hr : recorded j = false) : u.building j.path.2 = none := by
  apply h.free
  intro b' j' hj' hr' he
  have := h.single b' b j' j hj' hj he
  subst this
  rw [hj] at hj'; cases hj'; rw [hr] at hr'; cases hr'

theorem step_rel {fc : FloatConv D} {B : Builder K S E D} {s : State K S} {t : Track K E} {u : MeshCacheSpec.Track D}
    (h : Rel fc B s t u) (op : Op K E) (ha : Allowed B t op) :
    Answer fc B t op (step fc B s op).2 ∧ ∃ u', Rel fc B (step fc B s op).1 (next t op) u' := by
  cases op with
  | fetch b p k g budget =>
    obtain ⟨hb, hfree⟩ := ha
    have hq : u.building p.2 = none := h.free p.2 fun b' j' hj' _ => hfree b' j' hj'
    have miss : inCache t p = none → Rel fc B { s with runs := s.runs.set b ⟨p, k, false, .missed⟩ }
        { t with jobs := put t.jobs b (some ⟨p, k, if (inCache t p).isSome then .replay else .pending, [], false⟩) } u := by
      intro hn
      rw [hn]
      exact h.change b ⟨p, k, .pending, [], false⟩ .missed rfl ⟨rfl, rfl⟩ (.inr ⟨hb, hfree⟩)
    simp only [step, CacheBuilder.fetch, Answer, next]
    rcases Bool.eq_false_or_eq_true t.enabled with he | he
    case inr =>
      have hn : inCache t p = none := by simp [inCache, he]
      rw [if_neg (by rw [h.enabled, he]; simp)]
      have := miss hn
      rw [hn] at this ⊢
      exact ⟨rfl, u, this⟩
    case inl =>
      obtain ⟨h1, -⟩ := step_inv h.inv (.fetch p g budget) trivial
      have hc : MeshCacheSpec.cached u p = (inCache t p).map fun x => whole B x.1 x.2 := by
        simp [MeshCacheSpec.cached, hq, h.stored, inCache, he]
      simp only [MeshCache.step, MeshCacheSpec.Answer, hc] at h1
      rw [if_pos (by rw [h.enabled, he])]
      cases hf : MeshCache.fetch fc s.cache p g budget with
      | throw e => rw [hf] at h1; simp at h1
      | ub e => rw [hf] at h1; simp at h1
      | ok r =>
        rw [hf] at h1
        simp only [MeshCache.Out.fetched.injEq] at h1
        subst h1
        cases hn : inCache t p with
        | none =>
          have := miss hn
          rw [hn] at this
          exact ⟨rfl, u, this⟩
        | some x =>
          exact ⟨rfl, u, h.change b ⟨p, k, .replay, [], false⟩ .empty rfl rfl (.inr ⟨hb, hfree⟩)⟩
  | wrap b g opens =>
    obtain ⟨j, hj, hm⟩ := ha
    obtain ⟨ph, hph, hphase⟩ := h.job b j hj
    have hr : recorded j = false := by simp [recorded, hm]
    have hq := h.quiet hj hr
    cases ph with
    | empty => simp [PhaseOf, hm] at hphase
    | real w st => cases w <;> simp [PhaseOf, hm, recorded] at hphase
    | missed =>
      have hseen : j.seen = [] := hphase.2
      have hst : B.start j.context = state B j.context j.seen := by rw [hseen]; rfl
      obtain ⟨hp1, hp2⟩ := step_inv h.inv (.wrap b j.path g opens) hq
      have hc : MeshCacheSpec.cached u j.path = (t.stored j.path).map fun x => whole B x.1 x.2 := by
        simp [MeshCacheSpec.cached, hq, h.stored]
      simp only [MeshCache.step, MeshCacheSpec.Answer, hc, MeshCache.Out.wrapped.injEq] at hp1
      simp only [MeshCache.step, MeshCacheSpec.next, hc] at hp2
      simp only [step, CacheBuilder.wrap, hph, Answer, true_and, next, hj]
      have plain : Rel fc B { s with runs := s.runs.set b ⟨j.path, j.context, j.cancelled, .real false (B.start j.context)⟩ }
          { t with jobs := put t.jobs b (some { j with mode := .plain }) } u :=
        h.change b { j with mode := .plain } (.real false (B.start j.context)) rfl ⟨rfl, fun _ => hst⟩ (.inl ⟨j, hj, rfl, hr⟩)
      rcases Bool.eq_false_or_eq_true t.enabled with he | he
      case inr =>
        rw [if_neg (by rw [h.enabled, he]; simp)]
        have e1 : (if (t.enabled && (t.stored j.path).isNone) = true then Mode.record opens else .plain) = .plain := by simp [he]
        rw [e1]
        exact ⟨u, plain⟩
      case inl =>
        rw [if_pos (by rw [h.enabled, he])]
        cases hs : t.stored j.path with
        | some x =>
          rw [hs] at hp1
          have hw : (MeshCache.wrap s.cache b j.path g opens) = (s.cache, false) := by
            have : (MeshCache.wrap s.cache b j.path g opens).2 = false := hp1
            unfold MeshCache.wrap at this ⊢
            by_cases hi : MeshCache.isCacheHit g s.cache j.path = true
            · rw [if_pos hi]
            · rw [if_neg hi] at this; cases this
          rw [hw]
          have e1 : (if (t.enabled && (some x).isNone) = true then Mode.record opens else .plain) = .plain := by simp
          rw [e1]
          exact ⟨u, plain⟩
        | none =>
          rw [hs] at hp1 hp2
          simp only [Option.map_none, Option.isNone_none] at hp1 hp2
          have hcomp : put u.complete j.path none = u.complete := put_self _ _ _ (by rw [h.stored, hs]; rfl)
          rw [hcomp] at hp2
          have hw : (MeshCache.wrap s.cache b j.path g opens).2 = true := hp1
          rw [hw]
          have := h.rechange b j { j with mode := .record opens } (B.start j.context) hj rfl (fun _ => hst) opens rfl
            _ [] (fun _ => by simp [hseen, shownFrom]) hp2
          have e1 : (if (t.enabled && (none : Option (K × List E)).isNone) = true then Mode.record opens else .plain) = .record opens := by
            simp [he]
          rw [e1]
          exact ⟨_, this⟩
  | visit b e =>
    obtain ⟨j, hj, hm, hfit⟩ := ha
    obtain ⟨ph, hph, hphase⟩ := h.job b j hj
    simp only [step, CacheBuilder.visit, hph, Answer, next, hj, Option.some.injEq, forall_eq']
    cases ph with
    | missed => exact absurd hphase.1 hm
    | empty =>
      have hm' : j.mode = .replay := hphase
      have hr : recorded j = false := by simp [recorded, hm']
      refine ⟨by simp [Gets, hm'], u, ?_⟩
      have := h.change b { j with seen := j.seen ++ [e] } .empty hr hm' (.inl ⟨j, hj, rfl, hr⟩)
      have e1 : (s.runs.set b ⟨j.path, j.context, j.cancelled, .empty⟩).find = s.runs.find := by
        funext x; rw [Assoc.find_set]; split
        · rename_i hx; rw [hx, hph]
        · rfl
      exact ⟨this.inv, this.enabled, this.stored, fun b' hb' => by rw [← e1]; exact this.idle b' hb',
        fun b' j' hj' => by rw [← e1]; exact this.job b' j' hj', this.single, this.free, this.busy⟩
    | real w st =>
      cases w with
      | false =>
        obtain ⟨hm', hst⟩ := hphase
        have hr : recorded j = false := by simp [recorded, hm']
        simp only [Bool.false_eq_true, if_false]
        refine ⟨?_, u, ?_⟩
        · simp only [Gets, hm']
          cases hc : j.cancelled with
          | true => exact ⟨_, rfl⟩
          | false => simp [shown, hst hc]
        · exact h.change b { j with seen := j.seen ++ [e] } (.real false (B.visit j.cancelled st e).1) hr
            ⟨hm', fun hc => by
              have hc' : j.cancelled = false := hc
              rw [state_append, hst hc', hc']⟩ (.inl ⟨j, hj, rfl, hr⟩)
      | true =>
        obtain ⟨hr, hst⟩ := hphase
        obtain ⟨hh, hm'⟩ := (recorded_iff j).1 hr
        obtain ⟨items, hb, hitems⟩ := h.busy b j hh hj hm'
        have hl : j.cancelled = false → (B.visit j.cancelled st e).2 = shown B j.context j.seen e := by
          intro hc; rw [hc, hst hc]; rfl
        obtain ⟨c', h1, h2⟩ := deliver_ok fc b j.path.2 j.cancelled (B.visit j.cancelled st e).2 h.inv hb rfl
          (fun hc => by rw [hl hc]; exact hfit hr hc)
        simp only [if_true, h1]
        refine ⟨?_, _, h.rechange b j { j with seen := j.seen ++ [e] } (B.visit j.cancelled st e).1 hj rfl ?_ hh hm' c' _ ?_ h2⟩
        · simp only [Gets, hm']
          cases hc : j.cancelled with
          | true => simp
          | false => rw [← hl hc, hc]
        · intro hc
          have hc' : j.cancelled = false := hc
          rw [state_append, hst hc', hc']
        · intro hc
          have hc' : j.cancelled = false := hc
          simp only [shownFrom_append, hc', Bool.false_eq_true, if_false, hitems hc']
          rw [hst hc']
          rfl
  | complete b =>
    obtain ⟨j, hj, hm, hfit⟩ := ha
    obtain ⟨ph, hph, hphase⟩ := h.job b j hj
    simp only [step, CacheBuilder.complete, hph, Answer, next, hj, Option.some.injEq, forall_eq']
    cases ph with
    | missed => exact absurd hphase.1 hm
    | empty =>
      have hm' : j.mode = .replay := hphase
      have hr : recorded j = false := by simp [recorded, hm']
      refine ⟨by simp [Gets, hm'], u, ?_⟩
      rw [hr]
      exact h.drop b (fun j' hj' => by rw [hj] at hj'; cases hj'; exact hr)
    | real w st =>
      cases w with
      | false =>
        obtain ⟨hm', hst⟩ := hphase
        have hr : recorded j = false := by simp [recorded, hm']
        have hq := h.quiet hj hr
        have hun : MeshCache.unwrap s.cache j.path j.cancelled = s.cache := by
          simp only [MeshCache.unwrap, (h.inv.none_iff _).2 hq]
        simp only [Bool.false_eq_true, if_false, hun, hr]
        refine ⟨?_, u, h.drop b (fun j' hj' => by rw [hj] at hj'; cases hj'; exact hr)⟩
        simp only [Gets, hm']
        cases hc : j.cancelled with
        | true => exact ⟨_, rfl⟩
        | false => simp [final, hst hc]
      | true =>
        obtain ⟨hr, hst⟩ := hphase
        obtain ⟨hh, hm'⟩ := (recorded_iff j).1 hr
        obtain ⟨items, hb, hitems⟩ := h.busy b j hh hj hm'
        have hl : j.cancelled = false → B.complete j.cancelled st = final B j.context j.seen := by
          intro hc; rw [hc, hst hc]; rfl
        obtain ⟨c', h1, h2⟩ := deliver_ok fc b j.path.2 j.cancelled (B.complete j.cancelled st) h.inv hb rfl
          (fun hc => by rw [hl hc]; exact hfit hr hc)
        simp only [if_true, h1, hr]
        obtain ⟨-, h3⟩ := step_inv h2 (.unwrap b j.path j.cancelled) (by
          intro bd hbd
          simp only [put_same, Option.some.injEq] at hbd
          subst hbd
          exact ⟨rfl, rfl⟩)
        simp only [MeshCache.step, MeshCacheSpec.next, put_same] at h3
        refine ⟨?_, _, h3, h.enabled, ?_, ?_, ?_, ?_, ?_, ?_⟩
        · simp only [Gets, hm']
          cases hc : j.cancelled with
          | true => simp
          | false => rw [← hl hc, hc]
        · intro p
          by_cases hp : p = j.path
          · subst hp
            simp only [put_same]
            cases hc : j.cancelled with
            | true => simp [put_same, keeps, hc]
            | false =>
              cases hh with
              | false => simp [put_same, keeps, hm']
              | true =>
                have := hl hc
                rw [hc] at this
                simp [put_same, keeps, hm', hc, whole, hitems hc, this]
          · simp only [put_ne _ _ hp]
            split
            · rw [put_ne _ _ hp]; exact h.stored p
            · rw [put_ne _ _ hp]; exact h.stored p
        · intro b' hb'
          simp only [Assoc.find_erase]
          by_cases he : b' = b
          · rw [if_pos he]
          · rw [if_neg he]; simp only [put_ne _ _ he] at hb'; exact h.idle b' hb'
        · intro b' j' hj'
          by_cases he : b' = b
          · subst he; simp [put] at hj'
          · simp only [put_ne _ _ he] at hj'
            simp only [Assoc.find_erase, if_neg he]; exact h.job b' j' hj'
        · intro b1 b2 j1 j2 h1 h2 he
          simp only [put] at h1 h2
          split at h1
          · cases h1
          · split at h2
            · cases h2
            · exact h.single b1 b2 j1 j2 h1 h2 he
        · intro q hq
          by_cases he : q = j.path.2
          · subst he; simp [put]
          · simp only [put_ne _ _ he]
            apply h.free q
            intro b' j' hj' hr'
            by_cases he' : b' = b
            · subst he'; rw [hj] at hj'; cases hj'; exact fun h => he h.symm
            · exact hq b' j' (by simp [put, he', hj']) hr'
        · intro b' j' hh' hj' hm2
          simp only [put] at hj'
          split at hj'
          · cases hj'
          · rename_i hne
            have hne2 : j'.path.2 ≠ j.path.2 := fun he => hne (h.single b' b j' j hj' hj he)
            simp only [put_ne _ _ hne2]
            exact h.busy b' j' hh' hj' hm2
  | cancel b =>
    simp only [step, Answer, next]
    cases hj : t.jobs b with
    | none => rw [h.idle b hj]; exact ⟨rfl, u, h⟩
    | some j =>
      obtain ⟨ph, hph, hphase⟩ := h.job b j hj
      rw [hph]
      refine ⟨rfl, ?_⟩
      cases hr : recorded j with
      | false =>
        refine ⟨u, h.change b { j with cancelled := true } ph hr ?_ (.inl ⟨j, hj, rfl, hr⟩)⟩
        cases ph with
        | missed => exact hphase
        | empty => exact hphase
        | real w st =>
          cases w with
          | false => exact ⟨hphase.1, fun hc => by cases hc⟩
          | true => rw [hphase.1] at hr; cases hr
      | true =>
        obtain ⟨hh, hm'⟩ := (recorded_iff j).1 hr
        obtain ⟨items, hb, hitems⟩ := h.busy b j hh hj hm'
        have hu : ({ u with building := put u.building j.path.2 (some ⟨b, j.path, items, hh⟩) } : MeshCacheSpec.Track D) = u := by
          rw [put_self _ _ _ hb]
        cases ph with
        | missed => rw [(recorded_iff j).2 ⟨hh, hm'⟩] at hr; simp [PhaseOf, hm'] at hphase
        | empty => simp [PhaseOf, hm'] at hphase
        | real w st =>
          cases w with
          | false => simp [PhaseOf, hm'] at hphase
          | true => exact ⟨_, h.rechange b j { j with cancelled := true } st hj rfl (fun hc => by cases hc) hh hm' s.cache items
              (fun hc => by cases hc) (by rw [hu]; exact h.inv)⟩
  | enable v => exact ⟨rfl, u, h.inv, rfl, h.stored, h.idle, h.job, h.single, h.free, h.busy⟩
  | diskFull q n =>
    obtain ⟨-, h3⟩ := step_inv h.inv (.diskFull q n) ha
    refine ⟨rfl, _, h3, h.enabled, ?_, ?_, ?_, ?_, ?_, ?_⟩
    · intro p
      simp only [MeshCacheSpec.next, next]
      split <;> exact h.stored p
    · intro b hb
      simp only [next, Option.map_eq_none_iff] at hb
      exact h.idle b hb
    · intro b j hj
      simp only [next, Option.map_eq_some_iff] at hj
      obtain ⟨j0, hj0, rfl⟩ := hj
      obtain ⟨ph, hph, hphase⟩ := h.job b j0 hj0
      refine ⟨ph, ?_, ?_⟩
      · simp only [step]; split <;> exact hph
      · split
        · rename_i hc
          cases ph with
          | missed => rw [PhaseOf, hc.2] at hphase; exact absurd hphase.1 (by simp)
          | empty => rw [PhaseOf, hc.2] at hphase; exact absurd hphase (by simp)
          | real w st =>
            cases w with
            | false => rw [PhaseOf, hc.2] at hphase; exact absurd hphase.1 (by simp)
            | true => exact ⟨rfl, hphase.2⟩
        · exact hphase
    · intro b1 b2 j1 j2 h1 h2 he
      simp only [next, Option.map_eq_some_iff] at h1 h2
      obtain ⟨i1, g1, rfl⟩ := h1
      obtain ⟨i2, g2, rfl⟩ := h2
      refine h.single b1 b2 i1 i2 g1 g2 ?_
      split at he <;> split at he <;> exact he
    · intro q' hq'
      have hfree : u.building q' = none := by
        apply h.free
        intro b j hj hr
        have := hq' b _ (by simp only [next, hj, Option.map_some]; rfl)
        split at this
        · exact this rfl
        · exact this hr
      simp only [MeshCacheSpec.next]
      split
      · rename_i bd hbd
        have hne : q' ≠ q := by rintro rfl; rw [hfree] at hbd; cases hbd
        simp only [put_ne _ _ hne]; exact hfree
      · exact hfree
    · intro b j hh hj hm
      simp only [next, Option.map_eq_some_iff] at hj
      obtain ⟨j0, hj0, rfl⟩ := hj
      by_cases hq : j0.path.2 = q
      · subst hq
        cases hm0 : j0.mode with
        | record h0 =>
          obtain ⟨items, hb, hitems⟩ := h.busy b j0 h0 hj0 hm0
          have hhf : hh = false := by
            cases h0 with
            | true => simp [hm0] at hm; exact hm
            | false => simp [hm0] at hm; exact hm
          refine ⟨items, ?_, ?_⟩
          · simp only [MeshCacheSpec.next, hb, hhf]
            cases h0 <;> simp [hm0, put]
          · cases h0 <;> simpa [hm0] using hitems
        | pending => simp [hm0] at hm
        | replay => simp [hm0] at hm
        | plain => simp [hm0] at hm
      · rw [if_neg (fun hc => hq hc.1)] at hm ⊢
        obtain ⟨items, hb, hitems⟩ := h.busy b j0 hh hj0 hm
        refine ⟨items, ?_, hitems⟩
        simp only [MeshCacheSpec.next]
        split
        · simp only [put_ne _ _ hq]; exact hb
        · exact hb
  | restart f =>
    obtain ⟨-, h3⟩ := step_inv h.inv (.crash f) ha
    exact ⟨rfl, _, h3, rfl, h.stored, fun _ _ => rfl, by simp [next], by simp [next], fun _ _ => rfl, by simp [next]⟩
  | abandon b => exact ⟨rfl, u, h.drop b ha⟩

theorem run_rel {fc : FloatConv D} {B : Builder K S E D} (ops : List (Op K E)) {s : State K S} {t : Track K E}
    {u : MeshCacheSpec.Track D} (h : Rel fc B s t u) (ha : AllAllowed B t ops) :
    Agrees fc B t ops (run fc B s ops).2 ∧ ∃ u', Rel fc B (run fc B s ops).1 (after t ops) u' := by
  induction ops generalizing s t u with
  | nil => exact ⟨trivial, u, h⟩
  | cons op ops ih =>
    obtain ⟨h1, u1, h2⟩ := step_rel h op ha.1
    obtain ⟨i1, i2⟩ := ih h2 ha.2
    exact ⟨⟨h1, i1⟩, i2⟩

theorem agrees_length {fc : FloatConv D} {B : Builder K S E D} (ops : List (Op K E)) : ∀ {t : Track K E} {os : List (Out D)},
    Agrees fc B t ops os → os.length = ops.length := by
  induction ops with
  | nil => intro t os h; cases os with
    | nil => rfl
    | cons o os => exact h.elim
  | cons op ops ih => intro t os h; cases os with
    | nil => exact h.elim
    | cons o os => simp [ih h.2]

/-- The rest of a build which is not cancelled and not taken from the cache. -/
theorem visits_items {fc : FloatConv D} {B : Builder K S E D} (b : Nat) (es : List E) : ∀ {t : Track K E} {j : Job K E} {os : List (Out D)},
    t.jobs b = some j → j.cancelled = false → (j.mode = .plain ∨ recorded j = true) →
    Agrees fc B t (es.map (.visit b) ++ [.complete b]) os →
    items os = some (shownFrom B (state B j.context j.seen) es ++ final B j.context (j.seen ++ es)) := by
  induction es with
  | nil =>
    intro t j os hj hc hm h
    have hl := agrees_length _ h
    match os, hl with
    | [o], _ =>
      have h1 := h.1 j hj
      have : o = .delivered (final B j.context j.seen) := by
        rcases hm with hm | hm
        · simpa [Gets, hm, hc] using h1
        · obtain ⟨hh, hm⟩ := (recorded_iff j).1 hm
          simpa [Gets, hm, hc] using h1
      simp [this, items, shownFrom]
  | cons e es ih =>
    intro t j os hj hc hm h
    cases os with
    | nil => exact h.elim
    | cons o os =>
      have h1 := h.1 j hj
      have ho : o = .delivered (shown B j.context j.seen e) := by
        rcases hm with hm | hm
        · simpa [Gets, hm, hc] using h1
        · obtain ⟨hh, hm⟩ := (recorded_iff j).1 hm
          simpa [Gets, hm, hc] using h1
      have h2 := h.2
      simp only [next, hj] at h2
      have := ih (j := { j with seen := j.seen ++ [e] }) (put_same _ _ _) hc hm h2
      simp only [ho, items, this, Option.map_some, state_append, shownFrom, shown]
      simp

/-- The rest of a build which is taken from the cache. -/
theorem visits_replay {fc : FloatConv D} {B : Builder K S E D} (b : Nat) (es : List E) : ∀ {t : Track K E} {j : Job K E} {os : List (Out D)},
    t.jobs b = some j → j.mode = .replay → Agrees fc B t (es.map (.visit b) ++ [.complete b]) os → items os = some [] := by
  induction es with
  | nil =>
    intro t j os hj hm h
    have hl := agrees_length _ h
    match os, hl with
    | [o], _ =>
      have h1 := h.1 j hj
      have : o = .delivered [] := by simpa [Gets, hm] using h1
      simp [this, items]
  | cons e es ih =>
    intro t j os hj hm h
    cases os with
    | nil => exact h.elim
    | cons o os =>
      have h1 := h.1 j hj
      have ho : o = .delivered [] := by simpa [Gets, hm] using h1
      have h2 := h.2
      simp only [next, hj] at h2
      have := ih (j := { j with seen := j.seen ++ [e] }) (put_same _ _ _) hm h2
      simp [ho, items, this]

theorem visits_allowed {B : Builder K S E D} (b : Nat) (es : List E) : ∀ {t : Track K E} {j : Job K E},
    t.jobs b = some j → j.mode ≠ .pending →
    (recorded j = true → ∀ i ∈ shownFrom B (state B j.context j.seen) es ++ final B j.context (j.seen ++ es), ItemFits i) →
    AllAllowed B t (es.map (.visit b) ++ [.complete b]) := by
  induction es with
  | nil =>
    intro t j hj hm hf
    refine ⟨⟨j, hj, hm, fun hr _ => ?_⟩, trivial⟩
    simpa [shownFrom] using hf hr
  | cons e es ih =>
    intro t j hj hm hf
    refine ⟨⟨j, hj, hm, fun hr _ i hi => hf hr i ?_⟩, ?_⟩
    · simp only [shownFrom, List.mem_append]; exact .inl (.inl hi)
    · simp only [next, hj]
      refine ih (j := { j with seen := j.seen ++ [e] }) (put_same _ _ _) hm fun hr i hi => hf hr i ?_
      simp only [state_append] at hi
      simp only [shownFrom]
      simp only [List.append_assoc, List.cons_append, List.nil_append, List.mem_append] at hi ⊢
      exact .inr hi

theorem visits_after {t : Track K E} (b : Nat) (es : List E) : ∀ {t : Track K E} {j : Job K E}, t.jobs b = some j →
    after t (es.map (.visit b) ++ [.complete b]) = ⟨t.enabled,
      if recorded j then put t.stored j.path (keeps { j with seen := j.seen ++ es }) else t.stored, put t.jobs b none⟩ := by
  induction es with
  | nil => intro t j hj; simp [after, next, hj]
  | cons e es ih =>
    intro t j hj
    have e1 : after t ((e :: es).map (.visit b) ++ [.complete b]) = after (next t (.visit b e)) (es.map (.visit b) ++ [.complete b]) := rfl
    rw [e1]
    simp only [next, hj]
    rw [ih (j := { j with seen := j.seen ++ [e] }) (put_same _ _ _)]
    simp only [put_put, List.append_assoc, List.cons_append, List.nil_append]
    rfl

/-- The calls of one build. -/
def calls (t : Track K E) (b : Nat) (p : Path) (k : K) (es : List E) (g : UInt8) (opens : Bool) : List (Op K E) :=
  .fetch b p k g none :: ((if (inCache t p).isSome then [] else [.wrap b g opens]) ++ (es.map (.visit b) ++ [.complete b]))

theorem build_calls {fc : FloatConv D} {B : Builder K S E D} {s : State K S} {t : Track K E} {u : MeshCacheSpec.Track D}
    (h : Rel fc B s t u) (b : Nat) (p : Path) (k : K) (es : List E) (g : UInt8) (opens : Bool)
    (hb : t.jobs b = none) (hfree : ∀ b' j, t.jobs b' = some j → j.path.2 ≠ p.2) :
    build fc B s b p k es g opens = run fc B s (calls t b p k es g opens) := by
  obtain ⟨-, u', h1⟩ := step_rel h (.fetch b p k g none) ⟨hb, hfree⟩
  have hjob : (next t (.fetch b p k g none)).jobs b = some ⟨p, k, if (inCache t p).isSome then .replay else .pending, [], false⟩ :=
    put_same _ _ _
  obtain ⟨ph, hph, hphase⟩ := h1.job b _ hjob
  unfold build prepare calls
  cases hc : (inCache t p).isSome with
  | true =>
    rw [hc] at hphase
    cases ph with
    | missed => simp [PhaseOf] at hphase
    | real w st => cases w <;> simp [PhaseOf, recorded] at hphase
    | empty =>
      simp only [hph]
      simp [run]
  | false =>
    rw [hc] at hphase
    cases ph with
    | empty => simp [PhaseOf] at hphase
    | real w st => cases w <;> simp [PhaseOf, recorded] at hphase
    | missed =>
      simp only [hph]
      simp [run]

theorem calls_allowed {B : Builder K S E D} {t : Track K E} (b : Nat) (p : Path) (k : K) (es : List E) (g : UInt8) (opens : Bool)
    (hb : t.jobs b = none) (hfree : ∀ b' j, t.jobs b' = some j → j.path.2 ≠ p.2) (hfit : ∀ i ∈ whole B k es, ItemFits i) :
    AllAllowed B t (calls t b p k es g opens) := by
  refine ⟨⟨hb, hfree⟩, ?_⟩
  cases hc : (inCache t p).isSome with
  | true =>
    simp only [if_true, List.nil_append, next, hc]
    exact visits_allowed b es (put_same _ _ _) (by simp) (by simp [recorded])
  | false =>
    simp only [Bool.false_eq_true, if_false, next, hc]
    refine ⟨⟨_, put_same _ _ _, rfl⟩, ?_⟩
    simp only [next, put_same]
    refine visits_allowed b es (put_same _ _ _) ?_ fun _ => by simpa [whole, state] using hfit
    split <;> simp

theorem calls_items {fc : FloatConv D} {B : Builder K S E D} {t : Track K E} (b : Nat) (p : Path) (k : K) (es : List E) (g : UInt8)
    (opens : Bool) (os : List (Out D)) (h : Agrees fc B t (calls t b p k es g opens) os) :
    items os = some (match inCache t p with
      | some (k', es') => (whole B k' es').map (replayed fc)
      | none => whole B k es) := by
  unfold calls at h
  cases os with
  | nil => exact h.elim
  | cons o os =>
    obtain ⟨h1, h2⟩ := h
    cases hc : inCache t p with
    | some x =>
      simp only [Answer, hc] at h1
      simp only [hc, Option.isSome_some, if_true, List.nil_append, next] at h2
      rw [h1, items, visits_replay b es (put_same _ _ _) rfl h2]
      simp [cut]
    | none =>
      simp only [Answer, hc] at h1
      simp only [hc, Option.isSome_none, Bool.false_eq_true, if_false, next] at h2
      cases os with
      | nil => exact h2.elim
      | cons o' os =>
        obtain ⟨h3, h4⟩ := h2
        simp only [Answer] at h3
        simp only [next, put_same] at h4
        have := visits_items b es (put_same _ _ _) (by rfl) (by simp only [recorded]; split <;> simp) h4
        simp only [h1, h3, items, this]
        simp [whole, state]

theorem calls_after {t : Track K E} (b : Nat) (p : Path) (k : K) (es : List E) (g : UInt8) (opens : Bool) :
    after t (calls t b p k es g opens) = ⟨t.enabled,
      if t.enabled && (t.stored p).isNone then put t.stored p (if opens then some (k, es) else none) else t.stored,
      put t.jobs b none⟩ := by
  unfold calls
  cases hc : (inCache t p).isSome with
  | true =>
    have e1 : after t (.fetch b p k g none :: ((if true = true then [] else [.wrap b g opens]) ++ (es.map (.visit b) ++ [.complete b]))) =
      after (next t (.fetch b p k g none)) (es.map (.visit b) ++ [.complete b]) := rfl
    rw [e1, visits_after (t := t) b es (j := ⟨p, k, .replay, [], false⟩) (by simp [next, hc, put])]
    have hs : (t.stored p).isNone = false := by
      unfold inCache at hc
      split at hc
      · cases hx : t.stored p with
        | none => rw [hx] at hc; cases hc
        | some x => rfl
      · cases hc
    simp [next, recorded, hs, put_put]
  | false =>
    have e1 : after t (.fetch b p k g none :: ((if false = true then [] else [.wrap b g opens]) ++ (es.map (.visit b) ++ [.complete b]))) =
      after (next (next t (.fetch b p k g none)) (.wrap b g opens)) (es.map (.visit b) ++ [.complete b]) := rfl
    rw [e1]
    simp only [next, hc, put_same, Bool.false_eq_true, if_false]
    rw [visits_after (t := t) b es (put_same _ _ _)]
    simp only [put_put]
    cases he : (t.enabled && (t.stored p).isNone) with
    | false => simp [recorded]
    | true =>
      cases opens <;> simp [recorded, keeps]

/-- What is stored stays. -/
theorem step_stays {fc : FloatConv D} {B : Builder K S E D} {s : State K S} {t : Track K E} {u : MeshCacheSpec.Track D}
    (h : Rel fc B s t u) (op : Op K E) (p : Path) (x : K × List E) (hp : t.stored p = some x) : (next t op).stored p = some x := by
  cases op with
  | complete b =>
    simp only [next]
    cases hj : t.jobs b with
    | none => exact hp
    | some j =>
      simp only
      split
      · rename_i hr
        obtain ⟨hh, hm⟩ := (recorded_iff j).1 hr
        obtain ⟨items, hb, -⟩ := h.busy b j hh hj hm
        have hne : p ≠ j.path := by
          rintro rfl
          cases hst : s.cache.caching.find j.path.2 with
          | none => rw [(h.inv.none_iff _).1 hst] at hb; cases hb
          | some st =>
            have := (h.inv.running _ st _ hst hb).incomplete
            simp only at this
            rw [h.stored, hp] at this
            cases this
        rw [put_ne _ _ hne]; exact hp
      · exact hp
  | fetch b p' k g budget => exact hp
  | wrap b g opens => simp only [next]; split <;> exact hp
  | visit b e => simp only [next]; split <;> exact hp
  | cancel b => simp only [next]; split <;> exact hp
  | enable v => exact hp
  | diskFull q n => exact hp
  | restart f => exact hp
  | abandon b => exact hp

theorem run_stays {fc : FloatConv D} {B : Builder K S E D} (ops : List (Op K E)) {s : State K S} {t : Track K E}
    {u : MeshCacheSpec.Track D} (h : Rel fc B s t u) (ha : AllAllowed B t ops) (p : Path) (x : K × List E) (hp : t.stored p = some x) :
    (after t ops).stored p = some x := by
  induction ops generalizing s t u with
  | nil => exact hp
  | cons op ops ih =>
    obtain ⟨-, u1, h2⟩ := step_rel h op ha.1
    exact ih h2 ha.2 (step_stays h op p x hp)

theorem run_append (fc : FloatConv D) (B : Builder K S E D) (l l' : List (Op K E)) : ∀ s : State K S,
    (run fc B s (l ++ l')).1 = (run fc B (run fc B s l).1 l').1 := by
  induction l with
  | nil => intro s; rfl
  | cons op l ih => intro s; exact ih _

theorem after_append (l l' : List (Op K E)) (t : Track K E) : after t (l ++ l') = after (after t l) l' := by simp [after]

end CacheBuilderProof

open CacheBuilderProof
variable {K S E D : Type}

/-- C94 (partial): in every allowed history of builds, of any number of tiles and threads, with errors of the disk, cancellations, restarts and
changes of the switch: builds not in the cache deliver with each call what they deliver without cache; builds in the cache deliver at
once what the build which filled the file delivered as a whole, meshes in single precision, and nothing afterwards. Missing: the cases which
`Allowed` excludes (`C94_violated_exception`, C24). -/
theorem C94_history_partial (fc : FloatConv D) (B : Builder K S E D) (ops : List (Op K E)) (ha : AllAllowed B start ops) :
    Agrees fc B start ops (run fc B CacheBuilder.init ops).2 :=
  (run_rel ops (Rel.init fc B) ha).1

/-- C94 (partial): after every allowed history a whole build of a tile, if none of this tile is under way, delivers what it delivers without cache
or, if the tile is in the cache, what the build which filled the file delivers without cache, in single precision. -/
theorem C94_build_partial (fc : FloatConv D) (B : Builder K S E D) (ops : List (Op K E)) (ha : AllAllowed B start ops) (b : Nat) (p : Path)
    (k : K) (es : List E) (g : UInt8) (opens : Bool) (hfree : Free (after start ops) b p)
    (hfit : ∀ i ∈ whole B k es, ItemFits i) :
    items (build fc B (run fc B CacheBuilder.init ops).1 b p k es g opens).2 = some (match inCache (after start ops) p with
      | some (k', es') => (whole B k' es').map (replayed fc)
      | none => whole B k es) := by
  obtain ⟨-, u, h⟩ := run_rel ops (Rel.init fc B) ha
  rw [build_calls h b p k es g opens hfree.1 hfree.2]
  exact calls_items b p k es g opens _ (run_rel _ h (calls_allowed b p k es g opens hfree.1 hfree.2 hfit)).1

/-- C94: with the cache switched off every build delivers exactly what it delivers without cache, whatever the files contain. -/
theorem C94_disabled (fc : FloatConv D) (B : Builder K S E D) (ops : List (Op K E)) (ha : AllAllowed B start ops)
    (hoff : (after start ops).enabled = false) (b : Nat) (p : Path)
    (k : K) (es : List E) (g : UInt8) (opens : Bool) (hfree : Free (after start ops) b p)
    (hfit : ∀ i ∈ whole B k es, ItemFits i) :
    items (build fc B (run fc B CacheBuilder.init ops).1 b p k es g opens).2 = some (whole B k es) := by
  rw [C94_build_partial fc B ops ha b p k es g opens hfree hfit]
  simp [inCache, hoff]

/-- C94 (partial), and the violation in general: the first build of a tile with the cache switched on delivers what it delivers without
cache; all later builds of this tile with this stylesheet, after any allowed history in which builds may go on, data may be added and
the process may be restarted, deliver the same items in the same order, meshes in single precision. This holds whatever the
context `k'` and the elements `es'` of the later build are: right if they are the same, wrong otherwise (`C94_violated_data`,
`C94_violated_elevation`). Missing: exact doubles (C23). -/
theorem C94_kept_partial (fc : FloatConv D) (B : Builder K S E D) (ops ops' : List (Op K E)) (b b' : Nat) (p : Path)
    (k k' : K) (es es' : List E) (g g' : UInt8) (opens' : Bool) (ha : AllAllowed B start ops) (hfree : Free (after start ops) b p)
    (hfit : ∀ i ∈ whole B k es, ItemFits i) (hfit' : ∀ i ∈ whole B k' es', ItemFits i)
    (hnew : (after start ops).stored p = none) (hon : (after start ops).enabled = true)
    (ha' : AllAllowed B (filled (after start ops) p k es) ops') (hfree' : Free (after (filled (after start ops) p k es) ops') b' p)
    (hon' : (after (filled (after start ops) p k es) ops').enabled = true) :
    let first := build fc B (run fc B CacheBuilder.init ops).1 b p k es g true
    items first.2 = some (whole B k es) ∧
      items (build fc B (run fc B first.1 ops').1 b' p k' es' g' opens').2 = some ((whole B k es).map (replayed fc)) := by
  intro first
  obtain ⟨-, u, h⟩ := run_rel ops (Rel.init fc B) ha
  have hcalls := calls_allowed b p k es g true hfree.1 hfree.2 hfit
  have hafter : after (after start ops) (calls (after start ops) b p k es g true) = filled (after start ops) p k es := by
    rw [calls_after, hon, hnew]
    simp only [Option.isNone_none, Bool.and_self, if_true, filled, put_self _ _ _ hfree.1, ← hon]
  constructor
  · rw [C94_build_partial fc B ops ha b p k es g true hfree hfit]
    simp [inCache, hon, hnew]
  · have hfirst : first.1 = (run fc B (run fc B CacheBuilder.init ops).1 (calls (after start ops) b p k es g true)).1 := by
      rw [← build_calls h b p k es g true hfree.1 hfree.2]
    obtain ⟨-, u1, h1⟩ := run_rel _ h hcalls
    rw [hafter, ← hfirst] at h1
    obtain ⟨-, u2, h2⟩ := run_rel ops' h1 ha'
    rw [build_calls h2 b' p k' es' g' opens' hfree'.1 hfree'.2]
    have := calls_items b' p k' es' g' opens' _ (run_rel _ h2 (calls_allowed b' p k' es' g' opens' hfree'.1 hfree'.2 hfit')).1
    rw [this]
    have hst : (after (filled (after start ops) p k es) ops').stored p = some (k, es) :=
      run_stays ops' h1 ha' p (k, es) (MeshCacheProof.put_same _ _ _)
    simp [inCache, hon', hst]

/-- C94 (partial): a tile is built once more with the same context and the same elements. -/
theorem C94_again_partial (fc : FloatConv D) (B : Builder K S E D) (ops ops' : List (Op K E)) (b b' : Nat) (p : Path)
    (k : K) (es : List E) (g g' : UInt8) (opens' : Bool) (ha : AllAllowed B start ops) (hfree : Free (after start ops) b p)
    (hfit : ∀ i ∈ whole B k es, ItemFits i) (hnew : (after start ops).stored p = none) (hon : (after start ops).enabled = true)
    (ha' : AllAllowed B (filled (after start ops) p k es) ops') (hfree' : Free (after (filled (after start ops) p k es) ops') b' p)
    (hon' : (after (filled (after start ops) p k es) ops').enabled = true)
    (hexact : ∀ i ∈ whole B k es, replayed fc i = i) :
    let first := build fc B (run fc B CacheBuilder.init ops).1 b p k es g true
    items (build fc B (run fc B first.1 ops').1 b' p k es g' opens').2 = items first.2 := by
  intro first
  obtain ⟨h1, h2⟩ := C94_kept_partial fc B ops ops' b b' p k k es es g g' opens' ha hfree hfit hfit hnew hon ha' hfree' hon'
  rw [h1, h2]
  congr 1
  exact (List.map_congr_left hexact).trans (List.map_id' _)

/-- A builder which passes elements on. -/
def passing (D : Type) : Builder D Unit (Element Coord) D :=
  ⟨fun _ => (), fun _ s e => (s, [.element e]), fun _ _ => []⟩

/-- A builder which delivers a mesh at the height of the context. -/
def ground (D : Type) : Builder D D (Element Coord) D :=
  ⟨fun k => k, fun _ s _ => (s, []), fun _ s => [.mesh ⟨[], [s], [], [], [], []⟩]⟩

/-- C94 is violated: if data are added after a tile was built, builds of the tile go on to deliver the elements of the old data only. No
code removes files of the cache but `unwrap` of a cancelled build (MeshCache.cpp:56-64). -/
theorem C94_violated_data (fc : FloatConv D) (p : Path) (k : D) (e e' : Element Coord) (he : Fits e) (he' : Fits e') :
    let first := build fc (passing D) CacheBuilder.init 0 p k [e] 0 true
    items first.2 = some [.element e] ∧ whole (passing D) k [e, e'] = [.element e, .element e'] ∧
      items (build fc (passing D) first.1 1 p k [e, e'] 0 true).2 = some [.element e] := by
  have w1 : whole (passing D) k [e] = [.element e] := rfl
  have w2 : whole (passing D) k [e, e'] = [.element e, .element e'] := rfl
  obtain ⟨h1, h2⟩ := C94_kept_partial fc (passing D) [] [] 0 1 p k k [e] [e, e'] 0 0 true trivial ⟨rfl, by simp [after, start]⟩
    (by rw [w1]; simpa [ItemFits] using he) (by rw [w2]; simpa [ItemFits] using ⟨he, he'⟩) rfl rfl trivial
    ⟨rfl, by simp [after, start, filled]⟩ rfl
  exact ⟨h1, w2, h2⟩

/-- C94 is violated: the elevation data chosen by the caller of `getDataByQuadKey` (shared/Search.hpp:42-70) are not part of the name of the
file (MeshCache.cpp:89-95): a tile built on flat ground stays flat when it is asked for with other elevation data. -/
theorem C94_violated_elevation (fc : FloatConv D) (p : Path) (flat hill : D) (hf : fc.ofFloat (fc.toFloat flat) = flat) (hne : flat ≠ hill) :
    let first := build fc (ground D) CacheBuilder.init 0 p flat [] 0 true
    ∃ l, items (build fc (ground D) first.1 1 p hill [] 0 true).2 = some l ∧ l = whole (ground D) flat [] ∧
      l ≠ whole (ground D) hill [] := by
  have w : ∀ k, whole (ground D) k [] = [.mesh ⟨[], [k], [], [], [], []⟩] := fun _ => rfl
  obtain ⟨h1, h2⟩ := C94_kept_partial fc (ground D) [] [] 0 1 p flat hill [] [] 0 0 true trivial ⟨rfl, by simp [after, start]⟩
    (by rw [w]; simp [ItemFits, MeshFits]) (by rw [w]; simp [ItemFits, MeshFits]) rfl rfl trivial
    ⟨rfl, by simp [after, start, filled]⟩ rfl
  refine ⟨_, h2, ?_, ?_⟩
  · rw [w]; simp [replayed, rounded, hf]
  · rw [w, w]; simp [replayed, rounded, hf, hne]

/-- C94 is violated: after an exception of the builder the next build of the tile has undefined behaviour at its first item. -/
theorem C94_violated_exception (fc : FloatConv D) (p : Path) (k : D) (e : Element Coord) :
    (run fc (passing D) CacheBuilder.init [.fetch 0 p k 0 none, .wrap 0 0 true, .visit 0 e, .abandon 0,
      .fetch 1 p k 0 none, .wrap 1 0 true, .visit 1 e]).2 =
      [.delivered [], .delivered [], .delivered [.element e], .delivered [], .delivered [], .delivered [],
        .failed (.ub "stream destroyed")] := by
  simp [run, step, CacheBuilder.fetch, CacheBuilder.wrap, CacheBuilder.visit, CacheBuilder.init, MeshCache.fetch, MeshCache.isCacheHit,
    MeshCache.init, Assoc.find_nil, Assoc.find_set, Assoc.find_emplace, MeshCache.wrap, deliver, passing, MeshCache.callback, Outcome.bind,
    MeshCache.forget]

/-- The hypotheses of `C94_history_partial` and `C94_kept_partial` hold for histories with builds of two tiles at the same time, a cancelled
build, a restart and the switch. -/
example (e : Element Coord) (he : Fits e) : AllAllowed (passing Nat) start
    [.fetch 0 (['a'], ⟨1, 0, 0⟩) 5 0 none, .fetch 1 (['a'], ⟨1, 0, 1⟩) 5 0 none, .wrap 0 0 true, .wrap 1 0 true, .visit 0 e, .visit 1 e,
      .cancel 1, .complete 1, .complete 0, .fetch 2 (['a'], ⟨1, 0, 0⟩) 5 0 none, .visit 2 e, .complete 2, .enable false,
      .fetch 3 (['a'], ⟨1, 0, 0⟩) 5 0 none, .wrap 3 0 true, .visit 3 e, .abandon 3, .restart (fun _ => 1)] := by
  simp [AllAllowed, Allowed, next, inCache, start, put, recorded, shown, final, passing, ItemFits, he, keeps]
  grind

end Verif.Props
