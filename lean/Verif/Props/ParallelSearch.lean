import Verif.Props.ParallelSearchSpec
import Verif.Props.DiskImport

/-! # C101: several threads search tiles of a store on disk -/
namespace Verif.Props
open Verif.ParallelSearch Verif.ParallelSearchSpec
open Verif.PersistentStore (El Store Op filesOf Files dataBytes indexBytes indexBytes_append indexBytes_length dataBytes_append Good)
open Verif.Props.StoreSpec (holds)
open Verif.Props.PersistentSpec
open Verif.Streams (readLe readElement writeElement)
open Verif.DiskImportSpec (events)

namespace ParallelSearchProof

section read
variable {els : List El} (hg : Good els) {k : Nat} {e : El} (hk : els[k]? = some e)
include hk

theorem idx_drop : (indexBytes 0 els).drop (12 * k) = leBytes 8 e.id.toNat ++ (leBytes 4 (dataBytes (els.take k)).length ++
    indexBytes ((dataBytes (els.take k)).length + (writeElement e).length) (els.drop (k + 1))) := by
  obtain ⟨hlt, hke⟩ := List.getElem?_eq_some_iff.1 hk
  have hsplit : els = els.take k ++ e :: els.drop (k + 1) := by
    rw [← hke, ← List.drop_eq_getElem_cons hlt, List.take_append_drop]
  have hlen : (els.take k).length = k := by rw [List.length_take]; omega
  conv_lhs => rw [hsplit]
  rw [indexBytes_append, List.drop_left' (by rw [indexBytes_length, hlen])]
  simp [indexBytes]

theorem read_id : ∃ r, readLe 8 ((indexBytes 0 els).drop (12 * k)) = some (e.id.toNat, r) := by
  rw [idx_drop hk, StreamsProof.readLe_write, Nat.mod_eq_of_lt (by have := e.id.toNat_lt; simpa using this)]
  exact ⟨_, rfl⟩

include hg

theorem read_offset : ∃ r, readLe 4 ((indexBytes 0 els).drop (12 * k + 8)) = some ((dataBytes (els.take k)).length, r) := by
  obtain ⟨hlt, hke⟩ := List.getElem?_eq_some_iff.1 hk
  rw [← List.drop_drop, idx_drop hk, List.drop_left' (leBytes_length _ _), StreamsProof.readLe_write, Nat.mod_eq_of_lt (by simpa using hg.small k hlt)]
  exact ⟨_, rfl⟩

theorem read_element : ∃ r, readElement (UInt64.ofNat e.id.toNat) ((dataBytes els).drop (dataBytes (els.take k)).length) = .ok (e, r) := by
  obtain ⟨hlt, hke⟩ := List.getElem?_eq_some_iff.1 hk
  have hsplit : els = els.take k ++ e :: els.drop (k + 1) := by
    rw [← hke, ← List.drop_eq_getElem_cons hlt, List.take_append_drop]
  have hdat : (dataBytes els).drop (dataBytes (els.take k)).length = writeElement e ++ dataBytes (els.drop (k + 1)) := by
    conv_lhs => rw [hsplit]
    rw [dataBytes_append, List.drop_left' (by rw [← hsplit])]
    simp [dataBytes]
  have hfe : StreamsSpec.Fits e := hg.fits e (List.mem_of_getElem? hk)
  refine ⟨dataBytes (els.drop (k + 1)), ?_⟩
  rw [hdat, show UInt64.ofNat e.id.toNat = e.id by simp]
  unfold readElement
  rw [StreamsProof.readElementAux_write e hfe _ (by simp)]
  cases e <;> rfl

end read

variable (els : QuadKey → List El)

/-- The place of a thread fits to the positions of the files which it uses. -/
def Fits (h : Handle) : At → Prop
  | .idle | .failed => True
  | .opened q _ => h.tile = q ∧ h.iPos = 12 * (els q).length
  | .counted q _ n => h.tile = q ∧ n = (els q).length
  | .next q _ n out => h.tile = q ∧ ∃ k, k + n = (els q).length ∧ h.iPos = 12 * k ∧ out = (els q).take k
  | .gotId q _ n id out => h.tile = q ∧ ∃ k e, k + (n + 1) = (els q).length ∧ (els q)[k]? = some e ∧ h.iPos = 12 * k + 8 ∧ id = e.id.toNat ∧ out = (els q).take k
  | .gotEntry q _ n id off out => h.tile = q ∧ ∃ k e, k + (n + 1) = (els q).length ∧ (els q)[k]? = some e ∧ h.iPos = 12 * (k + 1) ∧ id = e.id.toNat ∧
      off = (dataBytes ((els q).take k)).length ∧ out = (els q).take k
  | .sought q _ n id out => h.tile = q ∧ ∃ k e, k + (n + 1) = (els q).length ∧ (els q)[k]? = some e ∧ h.iPos = 12 * (k + 1) ∧ id = e.id.toNat ∧
      h.dPos = (dataBytes ((els q).take k)).length ∧ out = (els q).take k

/-- The invariant. -/
structure Inv (todo : Nat → List QuadKey) (s : State) : Prop where
  files : ∀ q, (filesOf s.shared.disk q).dat = dataBytes (els q) ∧ (filesOf s.shared.disk q).idx = indexBytes 0 (els q)
  live : ∀ t, (s.threads t).pos ≠ .failed ∧ ∀ p, (s.threads t).pos.pointer = some p → ∃ h, s.shared.heap[p]? = some h ∧ Fits els h (s.threads t).pos
  cache : ∀ x ∈ s.shared.cache, ∃ h, s.shared.heap[x.2]? = some h ∧ h.tile = x.1 ∧ ((∀ t, busy (s.threads t) ≠ some x.1) → h.iPos = 12 * (els x.1).length) ∧
    ∀ t, busy (s.threads t) = some x.1 → (s.threads t).pos.pointer = some x.2
  apart : ∀ t t' q, t ≠ t' → busy (s.threads t) = some q → busy (s.threads t') ≠ some q
  right : ∀ t, ∀ x ∈ (s.threads t).results, x.2 = els x.1
  order : ∀ t, (s.threads t).results.map (·.1) ++ (busy (s.threads t)).toList ++ (s.threads t).todo = todo t

variable {els}

theorem fits_tile {h : Handle} {th : Thread} (hf : Fits els h th.pos) {q : QuadKey} (hb : busy th = some q) : h.tile = q := by
  unfold busy at hb
  split at hb <;> simp_all [Fits]

theorem busy_iff {th : Thread} (hf : th.pos ≠ .failed) : (busy th = none ↔ th.pos = .idle) ∧ (th.pos.pointer = none ↔ th.pos = .idle) := by
  unfold busy
  cases hp : th.pos <;> simp_all [At.pointer]

theorem filesOf_set (disk : Assoc QuadKey Files) (q q' : QuadKey) : filesOf (disk.set q (filesOf disk q)) q' = filesOf disk q' := by
  unfold filesOf
  rw [Assoc.find_set]
  split
  · rename_i h; subst h; rfl
  · rfl

/-- The tile at a place of the search. -/
def tileAt : At → Option QuadKey
  | .opened q _ | .counted q _ _ | .next q _ _ _ | .gotId q _ _ _ _ | .gotEntry q _ _ _ _ _ | .sought q _ _ _ _ => some q
  | .idle | .failed => none

theorem busy_eq (th : Thread) : busy th = tileAt th.pos := by unfold busy tileAt; split <;> simp_all

/-- How many steps are left for this tile. -/
def left (els : QuadKey → List El) : At → Nat
  | .idle | .failed => 0
  | .opened q _ => 3 + 4 * (els q).length
  | .counted _ _ n => 2 + 4 * n
  | .next _ _ n _ => 1 + 4 * n
  | .gotId _ _ n _ _ => 4 + 4 * n
  | .gotEntry _ _ n _ _ _ => 3 + 4 * n
  | .sought _ _ n _ _ => 2 + 4 * n

theorem use_spec {f : Files} {h : Handle} {x : At} {q : QuadKey} (hg : Good (els q)) (hq : tileAt x = some q) (hd : f.dat = dataBytes (els q)) (hi : f.idx = indexBytes 0 (els q))
    (hf : Fits els h x) (hn : ∀ q p out, x ≠ .next q p 0 out) :
    (use f h x).1.tile = h.tile ∧ (use f h x).2 ≠ .failed ∧ tileAt (use f h x).2 = some q ∧ (use f h x).2.pointer = x.pointer ∧
      Fits els (use f h x).1 (use f h x).2 ∧ left els (use f h x).2 + 1 = left els x := by
  cases x with
  | idle => simp [tileAt] at hq
  | failed => simp [tileAt] at hq
  | opened q' p =>
    cases hq
    obtain ⟨h1, h2⟩ := hf
    have hl := hg.length
    have : h.iPos / 12 % 2 ^ 32 = (els q).length := by rw [h2, Nat.mul_div_cancel_left _ (by decide), Nat.mod_eq_of_lt (by omega)]
    simp only [use, this, tileAt, At.pointer, Fits, left]
    simp [h1]; omega
  | counted q' p n =>
    cases hq
    obtain ⟨h1, h2⟩ := hf
    simp only [use, tileAt, At.pointer, Fits, left]
    exact ⟨trivial, by simp, trivial, trivial, ⟨h1, 0, by omega, by simp, by simp⟩, by omega⟩
  | next q' p n out =>
    cases hq
    obtain ⟨h1, k, h2, h3, h4⟩ := hf
    cases n with
    | zero => exact absurd rfl (hn q p out)
    | succ n =>
      have hlt : k < (els q).length := by omega
      have hk := List.getElem?_eq_getElem hlt
      obtain ⟨r, hr⟩ := read_id hk
      simp only [use, hi, h3, hr, tileAt, At.pointer, Fits, left]
      exact ⟨trivial, by simp, trivial, trivial, ⟨h1, k, _, by omega, hk, rfl, rfl, h4⟩, by omega⟩
  | gotId q' p n id out =>
    cases hq
    obtain ⟨h1, k, e, h2, hk, h3, h4, h5⟩ := hf
    obtain ⟨r, hr⟩ := read_offset hg hk
    simp only [use, hi, h3, hr, tileAt, At.pointer, Fits, left]
    exact ⟨trivial, by simp, trivial, trivial, ⟨h1, k, e, by omega, hk, by omega, h4, rfl, h5⟩, by omega⟩
  | gotEntry q' p n id off out =>
    cases hq
    obtain ⟨h1, k, e, h2, hk, h3, h4, h5, h6⟩ := hf
    simp only [use, tileAt, At.pointer, Fits, left]
    exact ⟨trivial, by simp, trivial, trivial, ⟨h1, k, e, by omega, hk, by omega, h4, h5, h6⟩, by omega⟩
  | sought q' p n id out =>
    cases hq
    obtain ⟨h1, k, e, h2, hk, h3, h4, h5, h6⟩ := hf
    obtain ⟨r, hr⟩ := read_element hg hk
    simp only [use, hd, h4, h5, hr, tileAt, At.pointer, Fits, left]
    refine ⟨trivial, by simp, trivial, trivial, ⟨h1, k + 1, by omega, h3, ?_⟩, by omega⟩
    rw [h6, List.take_add_one, hk]; rfl

/-- What a thread has still to do. -/
def cost (els : QuadKey → List El) (th : Thread) : Nat := left els th.pos + steps els th.todo

theorem step_same (s : State) (t : Nat) : (step s t).threads t = (threadStep s.shared (s.threads t)).2 := by simp [step]
theorem step_other (s : State) {t i : Nat} (h : i ≠ t) : (step s t).threads i = s.threads i := by simp [step, h]

variable {todo : Nat → List QuadKey}

theorem step_open {s : State} (hi : Inv els todo s) {t : Nat} (hp : (s.threads t).pos = .idle) {q : QuadKey} {qs : List QuadKey} (ht : (s.threads t).todo = q :: qs)
    (ha : ∀ t', busy (s.threads t') ≠ some q) : Inv els todo (step s t) ∧ cost els ((step s t).threads t) + 1 = cost els (s.threads t) := by
  have hstep : threadStep s.shared (s.threads t) = ((getData s.shared q).1, ⟨qs, .opened q (getData s.shared q).2, (s.threads t).results⟩) := by
    unfold threadStep; rw [hp, ht]
  have hself : (step s t).threads t = ⟨qs, .opened q (getData s.shared q).2, (s.threads t).results⟩ := by rw [step_same, hstep]
  have hsh : (step s t).shared = (getData s.shared q).1 := by simp only [step]; rw [hstep]
  -- what `getData` does
  have hget : (∀ q', filesOf (getData s.shared q).1.disk q' = filesOf s.shared.disk q') ∧
      (∀ (p : Nat) h, s.shared.heap[p]? = some h → (getData s.shared q).1.heap[p]? = some h) ∧
      (∃ h, (getData s.shared q).1.heap[(getData s.shared q).2]? = some h ∧ h.tile = q ∧ h.iPos = 12 * (els q).length) ∧
      (∀ x ∈ (getData s.shared q).1.cache, x = (q, (getData s.shared q).2) ∨ x ∈ s.shared.cache ∧ x.1 ≠ q) := by
    unfold getData
    cases hc : Assoc.find s.shared.cache q with
    | some p =>
      have hm := Assoc.mem_of_find _ _ _ hc
      obtain ⟨h, h1, h2, h3, h4⟩ := hi.cache _ hm
      refine ⟨fun _ => rfl, fun _ _ h => h, ⟨h, h1, h2, h3 ha⟩, ?_⟩
      intro x hx
      rcases List.mem_cons.1 hx with rfl | hx
      · exact .inl rfl
      · have := List.mem_filter.1 hx
        exact .inr ⟨this.1, by simpa using this.2⟩
    | none =>
      refine ⟨fun q' => filesOf_set _ _ _, ?_, ⟨⟨q, (filesOf s.shared.disk q).dat.length, (filesOf s.shared.disk q).idx.length⟩, by simp, rfl, ?_⟩, ?_⟩
      · intro p h h1
        have hlt := (List.getElem?_eq_some_iff.1 h1).1
        simp only
        rw [List.getElem?_append_left hlt, h1]
      · simp only
        rw [(hi.files q).2, indexBytes_length]
      · intro x hx
        rcases List.mem_cons.1 hx with rfl | hx
        · exact .inl rfl
        · have hx := List.mem_of_mem_take hx
          refine .inr ⟨hx, fun e => ?_⟩
          exact (Assoc.find_eq_none_iff _ _).1 hc x hx e
  obtain ⟨g1, g2, g3, g4⟩ := hget
  generalize getData s.shared q = gd at *
  obtain ⟨sh, p⟩ := gd
  simp only at *
  have hbt : busy (s.threads t) = none := by rw [busy_eq, hp]; rfl
  have hb' : busy ((step s t).threads t) = some q := by rw [hself]; rfl
  have hbusy : ∀ i q', busy ((step s t).threads i) = some q' → (i = t ∧ q' = q) ∨ (i ≠ t ∧ q' ≠ q ∧ busy (s.threads i) = some q') := by
    intro i q' hb
    by_cases h : i = t
    · subst h; rw [hb'] at hb; cases hb; exact .inl ⟨rfl, rfl⟩
    · rw [step_other s h] at hb
      refine .inr ⟨h, ?_, hb⟩
      rintro rfl; exact ha _ hb
  refine ⟨⟨?_, ?_, ?_, ?_, ?_, ?_⟩, ?_⟩
  · intro q'; rw [hsh, g1]; exact hi.files q'
  · intro i
    by_cases h : i = t
    · subst h
      rw [hself]
      refine ⟨by simp, ?_⟩
      intro p' hp'
      simp only [At.pointer, Option.some.injEq] at hp'
      subst hp'
      obtain ⟨h, h1, h2, h3⟩ := g3
      exact ⟨h, by rw [hsh]; exact h1, h2, h3⟩
    · rw [step_other s h]
      refine ⟨(hi.live i).1, fun p' hp' => ?_⟩
      obtain ⟨h, h1, h2⟩ := (hi.live i).2 p' hp'
      exact ⟨h, by rw [hsh]; exact g2 _ _ h1, h2⟩
  · intro x hx
    rw [hsh] at hx ⊢
    rcases g4 x hx with rfl | ⟨h1, h2⟩
    · obtain ⟨h, h1, h2, h3⟩ := g3
      refine ⟨h, h1, h2, fun _ => h3, fun i hb => ?_⟩
      rcases hbusy i _ hb with ⟨rfl, -⟩ | ⟨-, h, -⟩
      · rw [hself]; rfl
      · exact absurd rfl h
    · obtain ⟨h, e1, e2, e3, e4⟩ := hi.cache x h1
      refine ⟨h, g2 _ _ e1, e2, fun hn => e3 fun i hb => ?_, fun i hb => ?_⟩
      · by_cases hit : i = t
        · subst hit; rw [hbt] at hb; cases hb
        · exact hn i (by rw [step_other s hit]; exact hb)
      · rcases hbusy i _ hb with ⟨-, h⟩ | ⟨hit, -, hb⟩
        · exact absurd h h2
        · rw [step_other s hit]; exact e4 i hb
  · intro i j q' hij hb hb2
    rcases hbusy i _ hb with ⟨rfl, rfl⟩ | ⟨h1, h2, h3⟩ <;> rcases hbusy j _ hb2 with ⟨rfl, h⟩ | ⟨h4, h5, h6⟩
    · exact hij rfl
    · exact h5 rfl
    · exact h2 h
    · exact hi.apart i j q' hij h3 h6
  · intro i
    by_cases h : i = t
    · subst h; rw [hself]; exact hi.right i
    · rw [step_other s h]; exact hi.right i
  · intro i
    by_cases h : i = t
    · subst h
      have := hi.order i
      rw [hbt, ht] at this
      rw [hb', hself]
      simpa using this
    · rw [step_other s h]; exact hi.order i
  · rw [hself]
    unfold cost
    rw [hp, ht]
    simp only [left, steps, List.map_cons, List.sum_cons]
    omega

theorem step_finish {s : State} (hi : Inv els todo s) {t : Nat} {q : QuadKey} {p : Nat} {out : List El} (hp : (s.threads t).pos = .next q p 0 out) :
    Inv els todo (step s t) ∧ cost els ((step s t).threads t) + 1 = cost els (s.threads t) := by
  have hstep : threadStep s.shared (s.threads t) = (s.shared, ⟨(s.threads t).todo, .idle, (s.threads t).results ++ [(q, out)]⟩) := by
    simp only [threadStep, hp]
  have hself : (step s t).threads t = ⟨(s.threads t).todo, .idle, (s.threads t).results ++ [(q, out)]⟩ := by rw [step_same, hstep]
  have hsh : (step s t).shared = s.shared := by simp only [step]; rw [hstep]
  have hbt : busy (s.threads t) = some q := by rw [busy_eq, hp]; rfl
  have hb' : busy ((step s t).threads t) = none := by rw [hself]; rfl
  obtain ⟨h, h1, h2, k, h3, h4, h5⟩ := (by have := (hi.live t).2 p (by rw [hp]; rfl); rw [hp] at this; exact this : ∃ h, s.shared.heap[p]? = some h ∧ Fits els h (.next q p 0 out))
  have hout : out = els q := by rw [h5, List.take_of_length_le (by omega)]
  have hbusy : ∀ i q', busy ((step s t).threads i) = some q' → i ≠ t ∧ busy (s.threads i) = some q' := by
    intro i q' hb
    by_cases h : i = t
    · subst h; rw [hb'] at hb; cases hb
    · rw [step_other s h] at hb; exact ⟨h, hb⟩
  refine ⟨⟨?_, ?_, ?_, ?_, ?_, ?_⟩, ?_⟩
  · intro q'; rw [hsh]; exact hi.files q'
  · intro i
    by_cases h : i = t
    · subst h
      rw [hself]
      exact ⟨by simp, by simp [At.pointer]⟩
    · rw [step_other s h, hsh]; exact hi.live i
  · intro x hx
    rw [hsh] at hx ⊢
    obtain ⟨h', e1, e2, e3, e4⟩ := hi.cache x hx
    refine ⟨h', e1, e2, fun hn => ?_, fun i hb => ?_⟩
    · by_cases hx1 : x.1 = q
      · have := e4 t (by rw [hbt, hx1])
        rw [hp] at this
        simp only [At.pointer, Option.some.injEq] at this
        rw [← this, h1] at e1
        cases e1
        rw [h4, hx1]; omega
      · refine e3 fun i hb => ?_
        by_cases hit : i = t
        · subst hit; rw [hbt] at hb; exact hx1 (Option.some.inj hb).symm
        · exact hn i (by rw [step_other s hit]; exact hb)
    · obtain ⟨h6, h7⟩ := hbusy i _ hb
      rw [step_other s h6]; exact e4 i h7
  · intro i j q' hij hb hb2
    exact hi.apart i j q' hij (hbusy i _ hb).2 (hbusy j _ hb2).2
  · intro i
    by_cases h : i = t
    · subst h; rw [hself]
      intro x hx
      rcases List.mem_append.1 hx with hx | hx
      · exact hi.right i x hx
      · rw [List.mem_singleton.1 hx]; exact hout
    · rw [step_other s h]; exact hi.right i
  · intro i
    by_cases h : i = t
    · subst h
      have := hi.order i
      rw [hbt] at this
      rw [hb', hself]
      simpa using this
    · rw [step_other s h]; exact hi.order i
  · rw [hself]
    unfold cost
    rw [hp]
    simp only [left]
    omega

theorem step_use {s : State} (hg : ∀ q, Good (els q)) (hi : Inv els todo s) {t : Nat} (hn : (s.threads t).pos ≠ .idle) (hf : ∀ q p out, (s.threads t).pos ≠ .next q p 0 out) :
    Inv els todo (step s t) ∧ cost els ((step s t).threads t) + 1 = cost els (s.threads t) := by
  have hnf := (hi.live t).1
  obtain ⟨p, hp⟩ : ∃ p, (s.threads t).pos.pointer = some p := by
    cases h : (s.threads t).pos.pointer with
    | none => exact absurd ((busy_iff hnf).2.1 h) hn
    | some p => exact ⟨p, rfl⟩
  obtain ⟨q, hbt⟩ : ∃ q, busy (s.threads t) = some q := by
    cases h : busy (s.threads t) with
    | none => exact absurd ((busy_iff hnf).1.1 h) hn
    | some p => exact ⟨p, rfl⟩
  obtain ⟨h, h1, h2⟩ := (hi.live t).2 p hp
  have htile := fits_tile h2 hbt
  obtain ⟨f1, f2⟩ := hi.files q
  obtain ⟨u1, u2, u3, u4, u5, u6⟩ := use_spec (hg q) (by rw [← busy_eq]; exact hbt) f1 f2 h2 hf
  have hstep : threadStep s.shared (s.threads t) = ({ s.shared with heap := s.shared.heap.set p (use (filesOf s.shared.disk q) h (s.threads t).pos).1 },
      { s.threads t with pos := (use (filesOf s.shared.disk q) h (s.threads t).pos).2 }) := by
    unfold threadStep
    split
    · rename_i he; exact absurd he hn
    · rename_i he; exact absurd he (hf _ _ _)
    · rw [hp]; simp only [h1, htile]
  generalize hu : use (filesOf s.shared.disk q) h (s.threads t).pos = u at *
  obtain ⟨h', x'⟩ := u
  simp only at *
  have hself : (step s t).threads t = { s.threads t with pos := x' } := by rw [step_same, hstep]
  have hsh : (step s t).shared = { s.shared with heap := s.shared.heap.set p h' } := by simp only [step]; rw [hstep]
  have hlt := (List.getElem?_eq_some_iff.1 h1).1
  have hheap : ∀ i, (s.shared.heap.set p h')[i]? = if i = p then some h' else s.shared.heap[i]? := by
    intro i
    rw [List.getElem?_set]
    by_cases e : p = i
    · subst e; simp [hlt]
    · simp [e, Ne.symm e]
  have hb' : busy ((step s t).threads t) = some q := by rw [hself, busy_eq]; exact u3
  have hbusy : ∀ i, busy ((step s t).threads i) = busy (s.threads i) := by
    intro i
    by_cases h : i = t
    · subst h; rw [hb', hbt]
    · rw [step_other s h]
  have hptr : ∀ i, ((step s t).threads i).pos.pointer = (s.threads i).pos.pointer := by
    intro i
    by_cases h : i = t
    · subst h; rw [hself]; exact u4
    · rw [step_other s h]
  refine ⟨⟨?_, ?_, ?_, ?_, ?_, ?_⟩, ?_⟩
  · intro q'; rw [hsh]; exact hi.files q'
  · intro i
    by_cases hit : i = t
    · subst hit
      rw [hself]
      refine ⟨u2, fun p' hp' => ?_⟩
      simp only at hp'
      rw [u4, hp] at hp'
      cases hp'
      exact ⟨h', by rw [hsh]; simp only; rw [hheap]; simp, u5⟩
    · rw [step_other s hit]
      refine ⟨(hi.live i).1, fun p' hp' => ?_⟩
      obtain ⟨h3, h4, h5⟩ := (hi.live i).2 p' hp'
      refine ⟨h3, ?_, h5⟩
      rw [hsh]; simp only; rw [hheap, if_neg, h4]
      rintro rfl
      rw [h1] at h4; cases h4
      cases hbi : busy (s.threads i) with
      | none => rw [(busy_iff (hi.live i).1).1.1 hbi] at hp'; cases hp'
      | some q' =>
        have := fits_tile h5 hbi
        rw [htile] at this
        subst this
        exact hi.apart i t _ hit hbi hbt
  · intro x hx
    rw [hsh] at hx ⊢
    obtain ⟨h3, e1, e2, e3, e4⟩ := hi.cache x hx
    simp only at hx ⊢
    rw [hheap]
    by_cases hx2 : x.2 = p
    · rw [hx2, h1] at e1
      cases e1
      refine ⟨h', by rw [if_pos hx2], by rw [u1, e2], fun hn => ?_, fun i hb => ?_⟩
      · exact absurd (by rw [hb', ← htile, e2]) (hn t)
      · rw [hptr]; exact e4 i (by rw [← hbusy]; exact hb)
    · refine ⟨h3, by rw [if_neg hx2, e1], e2, fun hn => e3 fun i => by rw [← hbusy]; exact hn i, fun i hb => ?_⟩
      rw [hptr]; exact e4 i (by rw [← hbusy]; exact hb)
  · intro i j q' hij
    rw [hbusy, hbusy]; exact hi.apart i j q' hij
  · intro i
    by_cases h : i = t
    · subst h; rw [hself]; exact hi.right i
    · rw [step_other s h]; exact hi.right i
  · intro i
    rw [hbusy]
    by_cases h : i = t
    · subst h; rw [hself]; exact hi.order i
    · rw [step_other s h]; exact hi.order i
  · rw [hself]
    unfold cost
    simp only
    omega

theorem step_inv {s : State} (hg : ∀ q, Good (els q)) (hi : Inv els todo s) (t : Nat)
    (ha : (s.threads t).pos = .idle → ∀ q, (s.threads t).todo.head? = some q → ∀ t', busy (s.threads t') ≠ some q) :
    Inv els todo (step s t) ∧ cost els ((step s t).threads t) = cost els (s.threads t) - 1 := by
  by_cases h1 : (s.threads t).pos = .idle
  · cases h2 : (s.threads t).todo with
    | nil =>
      have hstep : threadStep s.shared (s.threads t) = (s.shared, s.threads t) := by unfold threadStep; rw [h1, h2]
      have : step s t = s := by
        unfold step; rw [hstep]
        obtain ⟨sh, th⟩ := s
        simp only [State.mk.injEq, true_and]
        funext i
        split
        · subst_vars; rfl
        · rfl
      rw [this]
      refine ⟨hi, ?_⟩
      unfold cost
      rw [h1, h2]; simp [left, steps]
    | cons q qs =>
      obtain ⟨a, b⟩ := step_open hi h1 h2 (ha h1 q (by rw [h2]; rfl))
      exact ⟨a, by omega⟩
  · by_cases h2 : ∃ q p out, (s.threads t).pos = .next q p 0 out
    · obtain ⟨q, p, out, h2⟩ := h2
      obtain ⟨a, b⟩ := step_finish hi h2
      exact ⟨a, by omega⟩
    · push Not at h2
      obtain ⟨a, b⟩ := step_use hg hi h1 h2
      exact ⟨a, by omega⟩

theorem run_inv (hg : ∀ q, Good (els q)) (sched : List Nat) : ∀ {s : State}, Inv els todo s → Apart s sched →
    Inv els todo (run s sched) ∧ ∀ t, cost els ((run s sched).threads t) = cost els (s.threads t) - sched.count t := by
  induction sched with
  | nil => intro s hi _; exact ⟨hi, fun t => by simp [run]⟩
  | cons u us ih =>
    intro s hi ha
    obtain ⟨h1, h2⟩ := step_inv hg hi u ha.1
    obtain ⟨h3, h4⟩ := ih h1 ha.2
    refine ⟨h3, fun t => ?_⟩
    rw [run, h4 t, List.count_cons]
    by_cases h : t = u
    · subst h; rw [h2]; simp; omega
    · rw [step_other s h]; simp [Ne.symm h]

theorem left_zero {th : Thread} (hf : th.pos ≠ .failed) (h : left els th.pos = 0) : th.pos = .idle := by
  cases hp : th.pos <;> simp_all [left]

theorem start_inv {tokens : El → List UInt32} {bad : UInt32 → Prop} {st : Store} {h : List (StoreSpec.Event El)} (hl : DiskImportProof.Live tokens bad st h) (todo : Nat → List QuadKey) :
    Inv (fun q => holds q h) todo (start st todo) ∧ ∀ q, Good (holds q h) := by
  obtain ⟨tr, hi, ht⟩ := hl
  refine ⟨⟨fun q => ⟨(hi.disk q).dat, (hi.disk q).idx⟩, fun t => ⟨by simp [start], by simp [start, At.pointer]⟩, ?_, fun t t' q _ hb => by simp [start, busy] at hb,
    fun t => by simp [start], fun t => by simp [start, busy]⟩, hi.good⟩
  intro x hx
  obtain ⟨⟨⟨q, hd⟩, i⟩, h1, rfl⟩ := List.mem_map.1 hx
  have h2 := List.mem_zipIdx_iff_getElem?.1 h1
  simp only at h2
  refine ⟨⟨q, hd.dPos, hd.iPos⟩, by simp [start, h2], rfl, fun _ => ?_, fun t hb => by simp [start, busy] at hb⟩
  obtain ⟨hlt, e⟩ := List.getElem?_eq_some_iff.1 h2
  have hlen := hi.cache.length_eq
  have := List.Forall₂.get hi.cache hlt (by omega)
  simp only [List.get_eq_getElem, e] at this
  exact (this.2.2.pos (ht _ (List.getElem_mem _))).2

end ParallelSearchProof
open ParallelSearchProof

variable {tokens : El → List UInt32} {bad : UInt32 → Prop}

/-- C101, partial: threads search tiles of a store on disk at the same time, after any calls of the store which C16 covers. If no thread begins to search a tile while another one is searching it,
then in every order of steps every search which is finished has handed on exactly the elements the tile holds, no read fails, every thread has searched its tiles in order, and a thread
which got enough steps has searched all of them. Missing: saves, text searches, erasures and cancelled searches at the same time; C++ has no order of steps where threads use one file at once. -/
theorem C101_parallel_partial (ops : List ((QuadKey → UInt32) × Op)) (hg : ∀ p ∈ ops, ∀ q, bad (p.1 q)) (hw : ∀ q e, .save q e ∈ ops.map (·.2) → ∀ u ∈ tokens e, ¬ bad u)
    (hp : AllPlain [] (ops.map (·.2))) (todo : Nat → List QuadKey) (schedule : List Nat)
    (ha : Apart (start (PersistentStore.run tokens PersistentStore.init ops).1 todo) schedule) (t : Nat) :
    let th := (run (start (PersistentStore.run tokens PersistentStore.init ops).1 todo) schedule).threads t
    th.pos ≠ .failed ∧ (∀ x ∈ th.results, x.2 = holds x.1 (events ops)) ∧ th.results.map (·.1) <+: todo t ∧
      (steps (fun q => holds q (events ops)) (todo t) ≤ schedule.count t → th.results = (todo t).map fun q => (q, holds q (events ops))) := by
  have hl := DiskImportProof.live_run ops ⟨Track.start, PersistentStore.Inv.init, by simp [Track.start]⟩ hg hw hp
  obtain ⟨hs, hgood⟩ := start_inv hl todo
  change ParallelSearchProof.Inv (fun q => holds q (events ops)) _ _ at hs
  obtain ⟨hi, hc⟩ := ParallelSearchProof.run_inv hgood schedule hs ha
  have horder := hi.order t
  have hnf := (hi.live t).1
  have hright := hi.right t
  refine ⟨hnf, hright, ⟨_, by rw [← horder, List.append_assoc]⟩, fun hn => ?_⟩
  have hct := hc t
  have h0 : cost (fun q => holds q (events ops)) ((start (PersistentStore.run tokens PersistentStore.init ops).1 todo).threads t) = steps (fun q => holds q (events ops)) (todo t) := by
    simp [cost, start, left]
  have hz : cost (fun q => holds q (events ops)) ((run (start (PersistentStore.run tokens PersistentStore.init ops).1 todo) schedule).threads t) = 0 := by
    rw [← Nat.sub_eq_zero_of_le hn, ← h0]; exact hct
  generalize (run (start (PersistentStore.run tokens PersistentStore.init ops).1 todo) schedule).threads t = th at *
  unfold cost at hz
  have hidle := left_zero (els := fun q => holds q (events ops)) hnf (by omega)
  have hb : busy th = none := by rw [busy_eq, hidle]; rfl
  have htodo : th.todo = [] := by
    cases h : th.todo with
    | nil => rfl
    | cons q qs => rw [h] at hz; simp [steps] at hz
  rw [hb, htodo] at horder
  simp only [Option.toList_none, List.append_nil] at horder
  rw [← horder, List.map_map]
  conv_lhs => rw [← List.map_id th.results]
  apply List.map_congr_left
  intro x hx
  exact Prod.ext rfl (hright x hx)

namespace ParallelSearchProof

theorem use_tile (f : Files) (h : Handle) (x : At) : tileAt (use f h x).2 = tileAt x ∨ tileAt (use f h x).2 = none := by
  unfold use
  split <;> (try split) <;> simp [tileAt]

theorem suffix_step {todo : Nat → List QuadKey} {s : State} (h : ∀ t, (busy (s.threads t)).toList ++ (s.threads t).todo <:+ todo t) (u t : Nat) :
    (busy ((step s u).threads t)).toList ++ ((step s u).threads t).todo <:+ todo t := by
  by_cases hu : t = u
  · subst hu
    have ht := h t
    rw [step_same]
    generalize s.threads t = th at *
    have hdrop : th.todo <:+ todo t := (List.suffix_append _ _).trans ht
    unfold threadStep
    split
    · split
      · exact ht
      · rename_i hp _ _ _ hq
        rw [busy_eq, hp, hq] at ht
        simpa [busy, tileAt] using ht
    · simpa [busy] using hdrop
    · split
      · exact ht
      · split
        · simpa [busy] using hdrop
        · rw [busy_eq] at ht ⊢
          rcases use_tile (filesOf s.shared.disk (by assumption : Handle).tile) (by assumption) th.pos with e | e <;> simp only [e]
          · exact ht
          · exact hdrop
  · rw [step_other s hu]; exact h t

theorem apart_of_disjoint {todo : Nat → List QuadKey} (hd : ∀ t t', t ≠ t' → (todo t).Disjoint (todo t')) (schedule : List Nat) : ∀ {s : State},
    (∀ t, (busy (s.threads t)).toList ++ (s.threads t).todo <:+ todo t) → Apart s schedule := by
  induction schedule with
  | nil => intro s _; trivial
  | cons u us ih =>
    intro s h
    refine ⟨fun hp q hq t' hb => ?_, ih fun t => suffix_step h u t⟩
    by_cases e : t' = u
    · subst e; rw [busy_eq, hp] at hb; cases hb
    · refine hd u t' (Ne.symm e) (a := q) ?_ ?_
      · exact (h u).subset (List.mem_append_right _ (List.mem_of_mem_head? hq))
      · exact (h t').subset (by rw [hb]; simp)

end ParallelSearchProof

/-- C101, partial: threads which search different tiles never disturb each other: in every order of steps, each of them gets what the tiles hold. -/
theorem C101_different_tiles_partial (ops : List ((QuadKey → UInt32) × Op)) (hg : ∀ p ∈ ops, ∀ q, bad (p.1 q)) (hw : ∀ q e, .save q e ∈ ops.map (·.2) → ∀ u ∈ tokens e, ¬ bad u)
    (hp : AllPlain [] (ops.map (·.2))) (todo : Nat → List QuadKey) (hd : ∀ t t', t ≠ t' → (todo t).Disjoint (todo t')) (schedule : List Nat) (t : Nat) :
    let th := (run (start (PersistentStore.run tokens PersistentStore.init ops).1 todo) schedule).threads t
    th.pos ≠ .failed ∧ (∀ x ∈ th.results, x.2 = holds x.1 (events ops)) ∧ th.results.map (·.1) <+: todo t ∧
      (steps (fun q => holds q (events ops)) (todo t) ≤ schedule.count t → th.results = (todo t).map fun q => (q, holds q (events ops))) :=
  C101_parallel_partial ops hg hw hp todo schedule (apart_of_disjoint hd schedule fun t => by simp [start, busy]) t

/-! ## Violations and examples -/

namespace ParallelSearchExample

def tile₂ : QuadKey := ⟨1, 1, 0⟩

/-- Two tiles with two elements and one. -/
def saves : List ((QuadKey → UInt32) × Op) := [.save tile₁ (point 1 [97]), .save tile₂ (point 2 [98]), .save tile₁ (point 3 [99]), .tile tile₁ none].map fun op => (fun _ => 0, op)

/-- What was found in a tile: ids and keys of the elements. -/
structure Got where
  tile : QuadKey
  ids : List UInt64
  keys : List (List UInt32)
deriving DecidableEq

/-- What threads 0 and 1 have got, and whether they failed. -/
def got (s : State) : List (List Got × Bool) := [0, 1].map fun t => ((s.threads t).results.map fun x => ⟨x.1, x.2.map (·.id), x.2.map keyTokens⟩, (s.threads t).pos = .failed)

def both : Nat → List QuadKey
  | 0 => [tile₁, tile₁]
  | 1 => [tile₂]
  | _ => []

def same : Nat → List QuadKey
  | 0 => [tile₁]
  | 1 => [tile₁]
  | _ => []

theorem saves_plain : AllPlain [] (saves.map (·.2)) := by
  refine ⟨⟨?_, ?_⟩, ⟨?_, ?_⟩, ⟨?_, ?_⟩, rfl, trivial⟩ <;> first | (with_unfolding_all decide) | (unfold StreamsSpec.Fits point; simp)

/-- The hypotheses of the theorems are met, with two threads which alternate. -/
example : (∀ p ∈ saves, ∀ q, (fun u : UInt32 => u = 0) (p.1 q)) ∧ (∀ q e, .save q e ∈ saves.map (·.2) → ∀ u ∈ keyTokens e, ¬ (fun u : UInt32 => u = 0) u) ∧
    AllPlain [] (saves.map (·.2)) ∧ (∀ t t', t ≠ t' → (both t).Disjoint (both t')) ∧
    got (run (start (PersistentStore.run keyTokens PersistentStore.init saves).1 both) ((List.replicate 24 [0, 1]).flatten)) =
      [([⟨tile₁, [1, 3], [[97], [99]]⟩, ⟨tile₁, [1, 3], [[97], [99]]⟩], false), ([⟨tile₂, [2], [[98]]⟩], false)] := by
  refine ⟨?_, ?_, saves_plain, ?_, by decide +kernel⟩
  · intro p hp q
    simp only [saves, List.map_cons, List.map_nil, List.mem_cons, List.not_mem_nil, or_false] at hp
    rcases hp with h | h | h | h <;> rw [h]
  · intro q e he
    simp only [saves, List.map_cons, List.map_nil, List.mem_cons, List.not_mem_nil, or_false] at he
    rcases he with h | h | h | h <;> cases h <;> decide
  · intro t t' h
    match t, t' with
    | 0, 0 => exact absurd rfl h
    | 0, 1 => simp [both, tile₁, tile₂]
    | 1, 0 => simp [both, tile₁, tile₂]
    | 1, 1 => exact absurd rfl h
    | _ + 2, _ => simp [both]
    | 0, _ + 2 => simp [both]
    | 1, _ + 2 => simp [both]

end ParallelSearchExample
open ParallelSearchExample

/-- C101 is violated when two threads search one tile: the second one asks for the position (PersistentElementStore.cpp:152) after the first one went to the beginning, and gets nothing. -/
theorem C101_violated_nothing_found :
    got (run (start (PersistentStore.run keyTokens PersistentStore.init saves).1 same) ([0, 0, 0] ++ List.replicate 12 1 ++ List.replicate 12 0)) =
      [([⟨tile₁, [1, 3], [[97], [99]]⟩], false), ([⟨tile₁, [], []⟩], false)] := by decide +kernel

/-- C101 is violated when two threads search one tile: before the first one reads the first element, the second one reads it (it has counted one entry of two). So the first one reads the
second element with the id of the first (162), and the second one misses an element. -/
theorem C101_violated_wrong_element :
    got (run (start (PersistentStore.run keyTokens PersistentStore.init saves).1 same) (List.replicate 6 0 ++ List.replicate 12 1 ++ List.replicate 12 0)) =
      [([⟨tile₁, [1, 3], [[99], [99]]⟩], false), ([⟨tile₁, [1], [[97]]⟩], false)] := by decide +kernel

end Verif.Props
