import Mathlib.Data.List.Basic
import Verif.Props.MeshCacheSpec
import Verif.Props.Streams

/-! # C22, C23, C24: the mesh cache -/
namespace Verif.Props
open Verif.MeshCache Verif.MeshCacheSpec Verif.Streams Verif.StreamsSpec

namespace MeshCacheProof
variable {D : Type}

def body (fc : FloatConv D) (l : List (Item D)) : Bytes := l.flatMap (encode fc)

theorem body_append (fc : FloatConv D) (l : List (Item D)) (i : Item D) : body fc (l ++ [i]) = body fc l ++ encode fc i := by
  simp [body]

theorem encode_pos (fc : FloatConv D) (i : Item D) : 0 < (encode fc i).length := by
  cases i <;> simp [encode]

theorem body_length (fc : FloatConv D) (l : List (Item D)) : l.length ≤ (body fc l).length := by
  induction l with
  | nil => simp
  | cons i l ih =>
    have := encode_pos fc i
    simp only [body, List.flatMap_cons, List.length_append, List.length_cons] at ih ⊢
    omega

theorem space1 : isSpace 1 = false := by decide
theorem space0 : isSpace 0 = false := by decide

theorem drop_type (ty : UInt8) (h : isSpace ty = false) (bs : Bytes) : (ty :: bs).dropWhile isSpace = ty :: bs := by
  simp [List.dropWhile, h]

theorem readItems_body (fc : FloatConv D) (l : List (Item D)) (hl : ∀ i ∈ l, ItemFits i) (fuel : Nat) (hf : l.length ≤ fuel)
    (budget : Option Nat) : readItems fc fuel budget (body fc l) = .ok (cut budget (l.map (replayed fc))) := by
  induction l generalizing fuel budget with
  | nil =>
    cases fuel with
    | zero => cases budget <;> simp [readItems, cut]
    | succ fuel =>
      cases budget with
      | none => simp [readItems, body, cut]
      | some n => cases n <;> simp [readItems, body, cut]
  | cons i l ih =>
    cases fuel with
    | zero => simp at hf
    | succ fuel =>
      have hrest := ih (fun j hj => hl j (by simp [hj])) fuel (by simpa using hf)
      have hbody : body fc (i :: l) = encode fc i ++ body fc l := by simp [body]
      have hi := hl i (by simp)
      have main : ∀ budget : Option Nat, budget ≠ some 0 → readItems fc (fuel + 1) budget (body fc (i :: l)) =
          .ok (replayed fc i :: cut (budget.map (· - 1)) (l.map (replayed fc))) := by
        intro budget hb
        rw [hbody, readItems.eq_3 fc budget _ fuel hb]
        cases i with
        | mesh m =>
          simp only [encode, List.cons_append, drop_type 1 space1, if_true]
          rw [C08_mesh_round_trip fc m hi]
          simp only [hrest, Outcome.bind]
          rfl
        | element e =>
          simp only [encode, List.cons_append, drop_type 0 space0, List.append_assoc]
          rw [if_neg (by decide), if_pos trivial, Verif.StreamsProof.readLe_write]
          have hid : UInt64.ofNat (e.id.toNat % 256 ^ 8) = e.id := by
            rw [Nat.mod_eq_of_lt (by have := e.id.toNat_lt; simpa using this)]; simp
          simp only [hid, C07_element_round_trip_partial e hi, Outcome.bind, hrest]
          rfl
      cases budget with
      | none => rw [main none (by simp)]; rfl
      | some n =>
        cases n with
        | zero => simp [readItems, cut]
        | succ n => rw [main _ (by simp)]; simp [cut]

/-- No entry is hidden by another one with the same key. -/
def NoShadow (m : Assoc QuadKey Stream) : Prop := ∀ k v, (k, v) ∈ m → m.find k = some v

theorem noShadow_erase {m : Assoc QuadKey Stream} (h : NoShadow m) (k : QuadKey) : NoShadow (m.erase k) := by
  intro k' v hm
  unfold Assoc.erase at hm
  obtain ⟨h1, h2⟩ := List.mem_filter.1 hm
  rw [Assoc.find_erase, if_neg (by simpa using h2)]
  exact h k' v h1

theorem noShadow_set {m : Assoc QuadKey Stream} (h : NoShadow m) (k : QuadKey) (v : Stream) : NoShadow (m.set k v) := by
  intro k' v' hm
  rw [Assoc.find_set]
  rcases List.mem_cons.1 hm with heq | hm
  · cases heq; simp
  · have := hm
    unfold Assoc.erase at this
    have h2 := (List.mem_filter.1 this).2
    rw [if_neg (by simpa using h2)]
    have h3 := noShadow_erase h k k' v' hm
    rw [Assoc.find_erase, if_neg (by simpa using h2)] at h3
    exact h3

theorem noShadow_emplace {m : Assoc QuadKey Stream} (h : NoShadow m) {k : QuadKey} (hk : m.find k = none) (v : Stream) :
    NoShadow (m.emplace k v) := by
  unfold Assoc.emplace
  rw [hk]
  intro k' v' hm
  rcases List.mem_cons.1 hm with heq | hm
  · cases heq; simp [Assoc.find]
  · rw [Assoc.find_cons, if_neg]
    · exact h k' v' hm
    · rintro rfl
      rw [h _ _ hm] at hk; cases hk

/-- The file begins with the mark of an incomplete file, or does not exist. -/
def Unmarked (f : Option Bytes) : Prop := ∀ c, f = some c → ∃ r, c = 0 :: r

structure Running (fc : FloatConv D) (s : State) (t : Track D) (q : QuadKey) (st : Stream) (bd : Build D) : Prop where
  path : st.path = bd.path
  owner : st.owner = bd.owner
  good : st.good = bd.healthy
  tile : bd.path.2 = q
  incomplete : t.complete bd.path = none
  fits : ∀ i ∈ bd.items, ItemFits i
  file : bd.healthy = true → s.disk.find bd.path = some (0 :: body fc bd.items) ∧ st.pos = (0 :: body fc bd.items).length

structure Inv (fc : FloatConv D) (s : State) (t : Track D) : Prop where
  none_iff : ∀ q, s.caching.find q = none ↔ t.building q = none
  running : ∀ q st bd, s.caching.find q = some st → t.building q = some bd → Running fc s t q st bd
  noShadow : NoShadow s.caching
  complete : ∀ p items, t.complete p = some items → s.disk.find p = some (1 :: body fc items) ∧ ∀ i ∈ items, ItemFits i
  incomplete : ∀ p, t.complete p = none → Unmarked (s.disk.find p)

theorem Inv.init (fc : FloatConv D) : Inv fc MeshCache.init start :=
  ⟨by simp [MeshCache.init, Assoc.find, start], by simp [MeshCache.init, Assoc.find], by simp [NoShadow, MeshCache.init],
    by simp [start], by simp [Unmarked, MeshCache.init, Assoc.find]⟩

theorem Inv.hit {fc : FloatConv D} {s : State} {t : Track D} (h : Inv fc s t) (p : Path) (g : UInt8) :
    isCacheHit g s p = (cached t p).isSome := by
  unfold isCacheHit cached
  cases hc : s.caching.find p.2 with
  | some st =>
    cases hb : t.building p.2 with
    | none => rw [(h.none_iff p.2).2 hb] at hc; cases hc
    | some bd => rfl
  | none =>
    rw [(h.none_iff p.2).1 hc]
    simp only
    cases hp : t.complete p with
    | some items =>
      rw [(h.complete p items hp).1]
      simp [isGood, drop_type 1 space1]
    | none =>
      cases hd : s.disk.find p with
      | none => rfl
      | some c =>
        obtain ⟨r, rfl⟩ := h.incomplete p hp c hd
        simp [isGood, drop_type 0 space0]

theorem put_same {α β : Type} [DecidableEq α] (f : α → β) (a : α) (b : β) : put f a b a = b := by simp [put]
theorem put_ne {α β : Type} [DecidableEq α] (f : α → β) {a x : α} (b : β) (h : x ≠ a) : put f a b x = f x := by simp [put, h]

theorem step_inv {fc : FloatConv D} {s : State} {t : Track D} (h : Inv fc s t) (op : Op D) (ha : Allowed t op) :
    Answer fc t op (step fc s op).2 ∧ Inv fc (step fc s op).1 (next t op) := by
  cases op with
  | wrap b p g opens =>
    have hb : t.building p.2 = none := ha
    have hc := (h.none_iff p.2).2 hb
    simp only [step, MeshCache.wrap, next, Answer, h.hit p g]
    cases hcd : cached t p with
    | some l => exact ⟨by simp, by simpa using h⟩
    | none =>
      simp only [Option.isSome_none, Bool.false_eq_true, if_false, Option.isNone_none, true_and]
      have hcp : t.complete p = none := by simpa [cached, hb] using hcd
      have hdisk : ∀ p', p' ≠ p → (if opens = true then s.disk.set p [0] else s.disk).find p' = s.disk.find p' := by
        intro p' hne; split
        · rw [Assoc.find_set, if_neg hne]
        · rfl
      have hdisk0 : opens = true → (if opens = true then s.disk.set p [0] else s.disk).find p = some [0] := by
        intro ho; rw [if_pos ho, Assoc.find_set, if_pos rfl]
      refine ⟨?_, ?_, noShadow_emplace h.noShadow hc _, ?_, ?_⟩
      · intro q
        simp only [Assoc.find_emplace, hc, Option.getD_none]
        by_cases hq : q = p.2
        · subst hq; simp [put]
        · rw [if_neg hq, put_ne _ _ hq]; exact h.none_iff q
      · intro q st bd h1 h2
        simp only [Assoc.find_emplace, hc, Option.getD_none] at h1
        by_cases hq : q = p.2
        · subst hq
          rw [if_pos rfl] at h1
          simp only [put_same] at h2
          cases h1; cases h2
          exact ⟨rfl, rfl, rfl, rfl, put_same _ _ _, by simp, fun ho => ⟨hdisk0 ho, rfl⟩⟩
        · rw [if_neg hq] at h1
          simp only at h2
          rw [put_ne _ _ hq] at h2
          have r := h.running q st bd h1 h2
          have hne : bd.path ≠ p := by rintro rfl; exact hq r.tile.symm
          exact ⟨r.path, r.owner, r.good, r.tile, by simp only; rw [put_ne _ _ hne]; exact r.incomplete, r.fits,
            fun hh => ⟨by simp only; rw [hdisk _ hne]; exact (r.file hh).1, (r.file hh).2⟩⟩
      · intro p' items hp
        by_cases hpe : p' = p
        · subst hpe; simp only [put_same] at hp; cases hp
        · simp only [put_ne _ _ hpe] at hp
          simp only
          rw [hdisk _ hpe]; exact h.complete p' items hp
      · intro p' hp
        by_cases hpe : p' = p
        · subst hpe
          cases opens with
          | true => intro c hcc; rw [hdisk0 rfl] at hcc; cases hcc; exact ⟨[], rfl⟩
          | false => exact h.incomplete p' hcp
        · simp only [put_ne _ _ hpe] at hp
          simp only
          rw [hdisk _ hpe]; exact h.incomplete p' hp
  | callback b q i c =>
    obtain ⟨⟨bd, hbd, ho⟩, hfit⟩ := ha
    cases hst : s.caching.find q with
    | none => rw [(h.none_iff q).1 hst] at hbd; cases hbd
    | some st =>
      have r := h.running q st bd hst hbd
      cases c with
      | true => simpa [step, callback, next, hbd, Answer] using h
      | false =>
        cases hg : bd.healthy with
        | false =>
          have hg' : st.good = false := by rw [r.good, hg]
          simp only [step, callback, hst, hg', r.owner, ho, next, hbd, Answer]
          refine ⟨by simp, ?_⟩
          simp only [Bool.false_eq_true, if_false, if_true]
          refine ⟨?_, ?_, h.noShadow, h.complete, h.incomplete⟩
          · intro q'
            by_cases hq : q' = q
            · subst hq; simp [put, hst]
            · simp only [put_ne _ _ hq]; exact h.none_iff q'
          · intro q' st' bd' h1 h2
            by_cases hq : q' = q
            · subst hq
              simp only [put_same, Option.some.injEq] at h2
              subst h2
              rw [hst] at h1; cases h1
              refine ⟨r.path, r.owner.trans ho, r.good, r.tile, r.incomplete, ?_, ?_⟩
              · intro j hj
                rcases List.mem_append.1 hj with hj | hj
                · exact r.fits j hj
                · rw [List.mem_singleton.1 hj]; exact hfit
              · intro hh; rw [hg] at hh; cases hh
            · simp only [put_ne _ _ hq] at h2
              have r' := h.running q' st' bd' h1 h2
              exact ⟨r'.path, r'.owner, r'.good, r'.tile, r'.incomplete, r'.fits, r'.file⟩
        | true =>
          have hg' : st.good = true := by rw [r.good, hg]
          obtain ⟨f1, f2⟩ := r.file hg
          have hw : writeAt (0 :: body fc bd.items) st.pos (encode fc i) = 0 :: body fc (bd.items ++ [i]) := by
            rw [f2, body_append]
            unfold writeAt
            rw [List.take_length, Nat.sub_self, List.drop_eq_nil_of_le (by omega)]
            simp
          simp only [step, callback, hst, hg', r.owner, ho, next, hbd, Answer]
          refine ⟨by simp, ?_⟩
          simp only [Bool.false_eq_true, if_false, if_true, writeFile, r.path, f1, hw]
          refine ⟨?_, ?_, noShadow_set h.noShadow _ _, ?_, ?_⟩
          · intro q'
            simp only [Assoc.find_set]
            by_cases hq : q' = q
            · subst hq; simp [put]
            · rw [if_neg hq, put_ne _ _ hq]; exact h.none_iff q'
          · intro q' st' bd' h1 h2
            simp only [Assoc.find_set] at h1
            by_cases hq : q' = q
            · subst hq
              rw [if_pos rfl] at h1
              simp only [put_same, Option.some.injEq] at h2
              subst h2
              cases h1
              refine ⟨rfl, rfl, hg.symm, r.tile, r.incomplete, ?_, ?_⟩
              · intro j hj
                rcases List.mem_append.1 hj with hj | hj
                · exact r.fits j hj
                · rw [List.mem_singleton.1 hj]; exact hfit
              · intro _
                refine ⟨by simp only [Assoc.find_set, if_true], ?_⟩
                simp only [f2, body_append, List.length_cons, List.length_append]; omega
            · rw [if_neg hq] at h1
              simp only [put_ne _ _ hq] at h2
              have r' := h.running q' st' bd' h1 h2
              have hne : bd'.path ≠ bd.path := by
                intro he
                apply hq
                rw [← r'.tile, he, r.tile]
              exact ⟨r'.path, r'.owner, r'.good, r'.tile, r'.incomplete, r'.fits,
                fun hh => ⟨by simp only [Assoc.find_set]; rw [if_neg hne]; exact (r'.file hh).1, (r'.file hh).2⟩⟩
          · intro p' items hp
            have hne : p' ≠ bd.path := by rintro rfl; rw [r.incomplete] at hp; cases hp
            simp only [Assoc.find_set, if_neg hne]
            exact h.complete p' items hp
          · intro p' hp
            simp only [Assoc.find_set]
            by_cases hpe : p' = bd.path
            · rw [if_pos hpe]; intro c hc; cases hc; exact ⟨_, rfl⟩
            · rw [if_neg hpe]; exact h.incomplete p' hp
  | unwrap b p c =>
    cases hst : s.caching.find p.2 with
    | none =>
      have hb := (h.none_iff p.2).1 hst
      simp only [step, unwrap, hst, next, hb, Answer]
      exact ⟨trivial, h⟩
    | some st =>
      cases hbd : t.building p.2 with
      | none => rw [(h.none_iff p.2).2 hbd] at hst; cases hst
      | some bd =>
        have r := h.running p.2 st bd hst hbd
        obtain ⟨ho, hpath⟩ := ha bd hbd
        simp only [step, unwrap, hst, next, hbd, Answer, true_and]
        have hsp : st.path = p := r.path.trans hpath
        -- the file afterwards
        have hother : ∀ p', p' ≠ p →
            (if st.good = true then (if c = true then s.disk.erase p else writeFile s.disk st.path 0 [1]) else s.disk).find p' =
              s.disk.find p' := by
          intro p' hne
          split
          · split
            · rw [Assoc.find_erase, if_neg hne]
            · unfold writeFile
              split
              · rfl
              · rw [Assoc.find_set, hsp, if_neg hne]
          · rfl
        refine ⟨?_, ?_, noShadow_erase h.noShadow _, ?_, ?_⟩
        · intro q
          simp only [Assoc.find_erase]
          by_cases hq : q = p.2
          · subst hq; simp [put]
          · rw [if_neg hq, put_ne _ _ hq]; exact h.none_iff q
        · intro q st' bd' h1 h2
          simp only [Assoc.find_erase] at h1
          by_cases hq : q = p.2
          · subst hq; rw [if_pos rfl] at h1; cases h1
          · rw [if_neg hq] at h1
            simp only [put_ne _ _ hq] at h2
            have r' := h.running q st' bd' h1 h2
            have hne : bd'.path ≠ p := by rintro he; apply hq; rw [← r'.tile, he]
            refine ⟨r'.path, r'.owner, r'.good, r'.tile, ?_, r'.fits, ?_⟩
            · simp only
              split <;> (rw [put_ne _ _ hne]; exact r'.incomplete)
            · intro hh
              simp only
              rw [hother _ hne]; exact r'.file hh
        · intro p' items hp
          by_cases hpe : p' = p
          · subst hpe
            simp only at hp ⊢
            split at hp
            · rename_i hcond
              simp only [Bool.and_eq_true, Bool.not_eq_true'] at hcond
              rw [put_same] at hp
              cases hp
              obtain ⟨f1, f2⟩ := r.file hcond.1
              rw [r.good, hcond.1, hcond.2, hsp]
              simp only [if_true, Bool.false_eq_true, if_false, writeFile]
              rw [hpath] at f1
              rw [f1]
              simp only [Assoc.find_set, if_true]
              exact ⟨by simp [writeAt], r.fits⟩
            · rw [put_same] at hp; cases hp
          · have hp' : t.complete p' = some items := by
              simp only at hp
              split at hp <;> (rw [put_ne _ _ hpe] at hp; exact hp)
            simp only
            rw [hother _ hpe]
            exact h.complete p' items hp'
        · intro p' hp
          by_cases hpe : p' = p
          · subst hpe
            simp only at hp ⊢
            have hinc : t.complete p' = none := by rw [← hpath]; exact r.incomplete
            split at hp
            · rw [put_same] at hp; cases hp
            · rename_i hcond
              rw [r.good]
              cases hh : bd.healthy with
              | false => simp only [Bool.false_eq_true, if_false]; exact h.incomplete p' hinc
              | true =>
                have hcc : c = true := by simpa [hh] using hcond
                simp only [hcc, if_true]
                rw [Assoc.find_erase, if_pos rfl]
                intro c hc; cases hc
          · have hp' : t.complete p' = none := by
              simp only at hp
              split at hp <;> (rw [put_ne _ _ hpe] at hp; exact hp)
            simp only
            rw [hother _ hpe]
            exact h.incomplete p' hp'
  | fetch p g budget =>
    simp only [step, MeshCache.fetch, h.hit p g, next, Answer]
    cases hcd : cached t p with
    | none => simp; exact h
    | some l =>
      have hb : t.building p.2 = none := by
        cases hbb : t.building p.2 with
        | none => rfl
        | some bd => simp [cached, hbb] at hcd
      have hcp : t.complete p = some l := by simpa [cached, hb] using hcd
      obtain ⟨f1, f2⟩ := h.complete p l hcp
      have hlen := body_length fc l
      have : readCache fc g budget (1 :: body fc l) = .ok (cut budget (l.map (replayed fc))) := by
        simp only [readCache, isGood, drop_type 1 space1, decide_true, if_true, List.drop_succ_cons, List.drop_zero]
        exact readItems_body fc l f2 _ (by simp only [List.length_cons]; omega) budget
      simp only [Option.isSome_some, if_true, f1, Option.getD_some, this, Outcome.bind, Option.map_some, true_and]
      exact h
  | crash f =>
    simp only [step, MeshCache.crash, next, Answer, true_and]
    have hpos : ∀ q, 0 < f q := ha
    have fold : ∀ (l : List (QuadKey × Stream)) (d : Assoc Path Bytes) (p : Path),
        (((∀ e ∈ l, e.2.path ≠ p) → (l.foldl (crashOne f) d).find p = d.find p)) ∧
        (Unmarked (d.find p) → Unmarked ((l.foldl (crashOne f) d).find p)) := by
      intro l
      induction l with
      | nil => intro d p; exact ⟨fun _ => rfl, id⟩
      | cons e l ih =>
        intro d p
        rw [List.foldl_cons]
        have hone : (e.2.path ≠ p → (crashOne f d e).find p = d.find p) ∧
            (Unmarked (d.find p) → Unmarked ((crashOne f d e).find p)) := by
          unfold crashOne
          constructor
          · intro hne
            split
            · rfl
            · split
              · rw [Assoc.find_set, if_neg hne.symm]
              · rfl
          · intro hu
            split
            · exact hu
            · rename_i c hc
              split
              · rw [Assoc.find_set]
                split
                · rename_i hpe
                  intro c' hc'
                  cases hc'
                  subst hpe
                  obtain ⟨r, rfl⟩ := hu c hc
                  obtain ⟨n, hn⟩ := Nat.exists_eq_succ_of_ne_zero (Nat.pos_iff_ne_zero.1 (hpos e.1))
                  exact ⟨r.take n, by rw [hn]; rfl⟩
                · exact hu
              · exact hu
        refine ⟨fun hne => ?_, fun hu => (ih _ p).2 (hone.2 hu)⟩
        rw [(ih _ p).1 (fun e' he' => hne e' (by simp [he'])), hone.1 (hne e (by simp))]
    refine ⟨by simp [Assoc.find], by simp [Assoc.find], by simp [NoShadow], ?_, ?_⟩
    · intro p items hp
      have hp' : t.complete p = some items := hp
      simp only
      rw [(fold s.caching s.disk p).1]
      · exact h.complete p items hp'
      · rintro ⟨q, st⟩ he heq
        have hfind := h.noShadow q st he
        cases hbd : t.building q with
        | none => rw [(h.none_iff q).2 hbd] at hfind; cases hfind
        | some bd =>
          have r := h.running q st bd hfind hbd
          rw [← heq, r.path, r.incomplete] at hp'
          cases hp'
    · intro p hp
      exact (fold s.caching s.disk p).2 (h.incomplete p hp)
  | diskFull q n =>
    have hn : 0 < n := ha
    simp only [step, next, Answer, true_and]
    cases hst : s.caching.find q with
    | none =>
      have hb := (h.none_iff q).1 hst
      simp only [MeshCache.diskFull, hst, hb]; exact h
    | some st =>
      cases hbd : t.building q with
      | none => rw [(h.none_iff q).2 hbd] at hst; cases hst
      | some bd =>
        have r := h.running q st bd hst hbd
        simp only [MeshCache.diskFull, hst]
        cases hg : st.good with
        | false =>
          have hh : bd.healthy = false := by rw [← r.good, hg]
          have e : ({ bd with healthy := false } : Build D) = bd := by cases bd; simp_all
          rw [e]
          have e2 : put t.building q (some bd) = t.building := by
            funext x; unfold put; split
            · rename_i hx; rw [hx, hbd]
            · rfl
          rw [e2]
          simpa using h
        | true =>
          have hh : bd.healthy = true := by rw [← r.good, hg]
          obtain ⟨f1, f2⟩ := r.file hh
          simp only [if_true, r.path, f1]
          refine ⟨?_, ?_, noShadow_set h.noShadow _ _, ?_, ?_⟩
          · intro q'
            simp only [Assoc.find_set]
            by_cases hq : q' = q
            · subst hq; simp [put]
            · rw [if_neg hq, put_ne _ _ hq]; exact h.none_iff q'
          · intro q' st' bd' h1 h2
            simp only [Assoc.find_set] at h1
            by_cases hq : q' = q
            · subst hq
              rw [if_pos rfl] at h1
              simp only [put_same, Option.some.injEq] at h2
              subst h2
              cases h1
              exact ⟨rfl, r.owner, rfl, r.tile, r.incomplete, r.fits, by simp⟩
            · rw [if_neg hq] at h1
              simp only [put_ne _ _ hq] at h2
              have r' := h.running q' st' bd' h1 h2
              have hne : bd'.path ≠ bd.path := by intro he; apply hq; rw [← r'.tile, he, r.tile]
              exact ⟨r'.path, r'.owner, r'.good, r'.tile, r'.incomplete, r'.fits,
                fun hh => ⟨by simp only [Assoc.find_set]; rw [if_neg hne]; exact (r'.file hh).1, (r'.file hh).2⟩⟩
          · intro p' items hp
            have hne : p' ≠ bd.path := by rintro rfl; rw [r.incomplete] at hp; cases hp
            simp only [Assoc.find_set, if_neg hne]
            exact h.complete p' items hp
          · intro p' hp
            simp only [Assoc.find_set]
            by_cases hpe : p' = bd.path
            · rw [if_pos hpe]
              intro c hc
              cases hc
              obtain ⟨m, rfl⟩ := Nat.exists_eq_succ_of_ne_zero (Nat.pos_iff_ne_zero.1 hn)
              exact ⟨_, rfl⟩
            · rw [if_neg hpe]; exact h.incomplete p' hp

theorem run_inv {fc : FloatConv D} (ops : List (Op D)) {s : State} {t : Track D} (h : Inv fc s t) (ha : AllAllowed t ops) :
    Agrees fc t ops (run fc s ops).2 ∧ Inv fc (run fc s ops).1 (after t ops) := by
  induction ops generalizing s t with
  | nil => exact ⟨trivial, h⟩
  | cons op ops ih =>
    obtain ⟨h1, h2⟩ := step_inv h op ha.1
    obtain ⟨i1, i2⟩ := ih h2 ha.2
    exact ⟨⟨h1, i1⟩, i2⟩

/-- A file is complete only after the end of a build which was not cancelled. -/
theorem complete_unwrapped (t : Track D) (ops : List (Op D)) (p : Path) (items : List (Item D))
    (h : (after t ops).complete p = some items) :
    t.complete p = some items ∨ ∃ pre b post, ops = pre ++ .unwrap b p false :: post ∧
      ∃ bd, (after t pre).building p.2 = some bd ∧ bd.healthy = true ∧ bd.items = items := by
  induction ops generalizing t with
  | nil => exact .inl h
  | cons op ops ih =>
    rcases ih (next t op) h with h1 | ⟨pre, b, post, rfl, h2⟩
    · cases op with
      | wrap b p' g opens =>
        simp only [next] at h1
        split at h1
        · exact .inl h1
        · simp only [put] at h1
          split at h1
          · cases h1
          · exact .inl h1
      | callback b q i c =>
        simp only [next] at h1
        split at h1
        · split at h1 <;> exact .inl h1
        · exact .inl h1
      | unwrap b p' c =>
        simp only [next] at h1
        split at h1
        · rename_i bd hbd
          simp only at h1
          split at h1
          · rename_i hc
            simp only [put] at h1
            split at h1
            · rename_i hpe
              subst hpe
              simp only [Bool.and_eq_true, Bool.not_eq_true'] at hc
              cases h1
              exact .inr ⟨[], b, ops, by rw [hc.2]; rfl, bd, hbd, hc.1, rfl⟩
            · exact .inl h1
          · simp only [put] at h1
            split at h1
            · cases h1
            · exact .inl h1
        · exact .inl h1
      | fetch p' g budget => exact .inl h1
      | crash f => exact .inl h1
      | diskFull q n =>
        simp only [next] at h1
        split at h1 <;> exact .inl h1
    · exact .inr ⟨op :: pre, b, post, rfl, h2⟩

end MeshCacheProof

open MeshCacheProof
variable {D : Type}

/-- C23 (partial) and C24 (partial): in every allowed history, which includes all interleavings of builds of different tiles, crashes
and write errors, the cache answers as specified: a hit delivers exactly what the build which filled the cache delivered, in
the same order, meshes in single precision. Missing: exact doubles (`C23_violated_precision`), overlapping builds of the
same tile (`C24_violated_overlap`) and builds which end with an exception (`C24_violated_after_exception`). -/
theorem C23_C24_replay_partial (fc : FloatConv D) (ops : List (Op D)) (ha : AllAllowed start ops) :
    Agrees fc start ops (run fc MeshCache.init ops).2 :=
  (run_inv ops (Inv.init fc) ha).1

/-- C22 (partial): a hit after an allowed history means that a healthy build of this file ended without cancellation, and it delivers the
items of this build. Missing: files whose status byte never reached the disk (`C22_violated_empty_file`). -/
theorem C22_only_complete_partial (fc : FloatConv D) (ops : List (Op D)) (ha : AllAllowed start ops) (p : Path) (g : UInt8)
    (l : List (Item D)) (h : fetch fc (run fc MeshCache.init ops).1 p g none = .ok (some l)) :
    ∃ pre b post bd, ops = pre ++ .unwrap b p false :: post ∧ (after start pre).building p.2 = some bd ∧ bd.healthy = true ∧
      l = bd.items.map (replayed fc) := by
  obtain ⟨-, hinv⟩ := run_inv ops (Inv.init fc) ha
  obtain ⟨h1, -⟩ := step_inv hinv (.fetch p g none) trivial
  simp only [step, h, Answer, Out.fetched.injEq] at h1
  cases hc : cached (after start ops) p with
  | none => simp [hc] at h1
  | some items =>
    simp only [hc, Option.map_some, Option.some.injEq, cut] at h1
    have hcp : (after start ops).complete p = some items := by
      unfold cached at hc; split at hc
      · cases hc
      · exact hc
    rcases complete_unwrapped start ops p items hcp with h2 | ⟨pre, b, post, h3, bd, h4, h5, h6⟩
    · cases h2
    · exact ⟨pre, b, post, bd, h3, h4, h5, by rw [h1, h6]⟩

/-- C22 is violated: if the process ends before the first byte of the file is written, the file is empty and `isCacheHit` compares an
uninitialised variable; if it happens to be 1 this is a hit without any data. -/
theorem C22_violated_empty_file (fc : FloatConv D) (p : Path) (i : Item D) :
    (run fc MeshCache.init [.wrap 0 p 0 true, .callback 0 p.2 i false, .crash (fun _ => 0), .fetch p 1 none]).2 =
      [.wrapped true, .delivered [i], .done, .fetched (some [])] := by
  simp [run, step, MeshCache.wrap, isCacheHit, MeshCache.init, Assoc.find, Assoc.emplace, Assoc.set, Assoc.erase, callback, writeFile,
    crash, crashOne, MeshCache.fetch, isGood, readCache, Outcome.bind, readItems]

/-- C23 is violated for meshes: what comes back is the mesh in single precision, a different mesh whenever a coordinate is not
representable. -/
theorem C23_violated_precision (fc : FloatConv D) (p : Path) (x : D) (hx : fc.ofFloat (fc.toFloat x) ≠ x) :
    ∃ l, (run fc MeshCache.init [.wrap 0 p 0 true, .callback 0 p.2 (.mesh ⟨[], [x], [], [], [], []⟩) false, .unwrap 0 p false,
      .fetch p 0 none]).2 = [.wrapped true, .delivered [.mesh ⟨[], [x], [], [], [], []⟩], .done, .fetched (some l)] ∧
      l ≠ [.mesh ⟨[], [x], [], [], [], []⟩] := by
  have h := C23_C24_replay_partial fc [.wrap 0 p 0 true, .callback 0 p.2 (.mesh ⟨[], [x], [], [], [], []⟩) false, .unwrap 0 p false,
      .fetch p 0 none] ?_
  · have hlen : ∀ (ops : List (Op D)) s, (run fc s ops).2.length = ops.length := by
      intro ops
      induction ops with
      | nil => intro s; rfl
      | cons o ops ih => intro s; simp [run, ih]
    generalize hr : (run fc MeshCache.init [.wrap 0 p 0 true, .callback 0 p.2 (.mesh ⟨[], [x], [], [], [], []⟩) false,
      .unwrap 0 p false, .fetch p 0 none]).2 = outs at h
    have hl : outs.length = 4 := by rw [← hr, hlen]; rfl
    match outs, hl with
    | [o1, o2, o3, o4], _ =>
      obtain ⟨h1, h2, h3, h4, -⟩ := h
      simp only [Answer, cached, start, next, put] at h1 h2 h3 h4
      simp [Answer, cached, start, next, put] at h1 h2 h3 h4
      refine ⟨[replayed fc (.mesh ⟨[], [x], [], [], [], []⟩)], ?_, ?_⟩
      · rw [h1, h2, h3, h4]; rfl
      · simp [replayed, rounded, hx]
  · simp [AllAllowed, Allowed, next, cached, start, put, ItemFits, MeshFits]

/-- C24 is violated: the second of two overlapping builds of a tile, with the same or another stylesheet, writes to a destroyed stream
with its first mesh or element. -/
theorem C24_violated_overlap (fc : FloatConv D) (tag tag' : List Char) (q : QuadKey) (i : Item D) :
    (run fc MeshCache.init [.wrap 0 (tag, q) 0 true, .wrap 1 (tag', q) 0 true, .callback 1 q i false]).2 =
      [.wrapped true, .wrapped true, .failed (.ub "stream destroyed")] := by
  simp [run, step, MeshCache.wrap, isCacheHit, MeshCache.init, Assoc.find, Assoc.emplace, Assoc.set, Assoc.erase, callback, forget]

/-- C24 and C22 are violated without overlap of callbacks: a second build of the tile which delivers nothing ends the first one, whose file is
marked as complete; its next mesh goes to a destroyed stream. -/
theorem C24_violated_foreign_end (fc : FloatConv D) (tag tag' : List Char) (hne : tag ≠ tag') (q : QuadKey) (i : Item D) :
    (run fc MeshCache.init [.wrap 0 (tag, q) 0 true, .wrap 1 (tag', q) 0 true, .unwrap 1 (tag', q) false, .fetch (tag, q) 0 none,
      .callback 0 q i false]).2 =
      [.wrapped true, .wrapped true, .done, .fetched (some []), .failed (.ub "stream destroyed")] := by
  simp [run, step, MeshCache.wrap, isCacheHit, MeshCache.init, Assoc.find, Assoc.emplace, Assoc.set, Assoc.erase, callback, forget,
    MeshCache.unwrap, writeFile, writeAt, MeshCache.fetch, isGood, readCache, Outcome.bind, readItems, hne, hne.symm, drop_type 1 space1]

/-- C24 is violated without any concurrency: if a build ends with an exception there is no `unwrap` (CacheBuilder.hpp:50-56), and the next
build of the tile writes to a destroyed stream. -/
theorem C24_violated_after_exception (fc : FloatConv D) (p : Path) (i j : Item D) :
    (run fc MeshCache.init [.wrap 0 p 0 true, .callback 0 p.2 i false, .fetch p 0 none, .wrap 1 p 0 true, .callback 1 p.2 j false]).2 =
      [.wrapped true, .delivered [i], .fetched none, .wrapped true, .failed (.ub "stream destroyed")] := by
  simp [run, step, MeshCache.wrap, isCacheHit, MeshCache.init, Assoc.find, Assoc.emplace, Assoc.set, Assoc.erase, callback, forget,
    writeFile, MeshCache.fetch]

/-- An allowed history with two interleaved builds, a cancelled one and a crash. -/
example (m : Element Coord) (hm : Fits m) : AllAllowed (D := Nat) start
    [.wrap 0 (['a'], ⟨1, 0, 0⟩) 7 true, .wrap 1 (['b'], ⟨1, 0, 1⟩) 7 true, .callback 1 ⟨1, 0, 1⟩ (.element m) false,
      .callback 0 ⟨1, 0, 0⟩ (.element m) false, .unwrap 1 (['b'], ⟨1, 0, 1⟩) true, .unwrap 0 (['a'], ⟨1, 0, 0⟩) false,
      .fetch (['a'], ⟨1, 0, 0⟩) 0 none, .wrap 2 (['b'], ⟨1, 0, 1⟩) 3 true, .callback 2 ⟨1, 0, 1⟩ (.element m) false,
      .crash (fun _ => 1), .fetch (['b'], ⟨1, 0, 1⟩) 1 none] := by
  simp [AllAllowed, Allowed, next, cached, start, put, ItemFits, hm]

end Verif.Props
