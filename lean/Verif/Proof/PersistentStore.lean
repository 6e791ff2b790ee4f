import Verif.Props.PersistentSpec
import Verif.Props.StreamsSpec
import Verif.Proof.MemStore
import Verif.Proof.EwahSane
import Verif.Proof.Streams
import Mathlib.Data.List.Forall2

/-! Lemmas about the persistent store. -/
namespace Verif.PersistentStore
open Verif.BitmapIndex (Bitmap Terms Indexed BitsOf)
open Verif.Props.StoreSpec (Event holds)
open Verif.Ewah (Ewah Sane maxLit)
open Verif.Streams (Coord Bitset readLe readElement writeElement readBitmap writeBitmap)
open Verif.StreamsSpec (Fits)
open Verif.StreamsProof (readLe_write)
open Verif.MemStore (fetch)

/-! ## Data and index files -/

def dataBytes (els : List El) : Bytes := els.flatMap writeElement

def indexBytes (off : Nat) : List El → Bytes
  | [] => []
  | e :: es => leBytes 8 e.id.toNat ++ (leBytes 4 off ++ indexBytes (off + (writeElement e).length) es)

/-- Everything stored can be read back: counters fit and offsets fit. -/
structure Good (els : List El) : Prop where
  fits : ∀ e ∈ els, Fits e
  small : ∀ k < els.length, (dataBytes (els.take k)).length < 2 ^ 32

theorem dataBytes_append (a b : List El) : dataBytes (a ++ b) = dataBytes a ++ dataBytes b := by simp [dataBytes]

theorem indexBytes_append (a b : List El) : ∀ off,
    indexBytes off (a ++ b) = indexBytes off a ++ indexBytes (off + (dataBytes a).length) b := by
  induction a with
  | nil => intro off; simp [indexBytes, dataBytes]
  | cons e es ih =>
    intro off
    simp only [List.cons_append, indexBytes, ih, List.append_assoc]
    simp [dataBytes, Nat.add_assoc]

theorem indexBytes_length (a : List El) : ∀ off, (indexBytes off a).length = 12 * a.length := by
  induction a with
  | nil => intro off; rfl
  | cons e es ih => intro off; simp [indexBytes, ih, leBytes_length]; omega

theorem writeElement_length (e : El) : 3 ≤ (writeElement e).length := by
  cases e <;> simp [writeElement, Streams.writeVec, leBytes_length]

theorem dataBytes_length (els : List El) : 3 * els.length ≤ (dataBytes els).length := by
  induction els with
  | nil => simp [dataBytes]
  | cons e es ih =>
    have := writeElement_length e
    simp only [dataBytes, List.flatMap_cons, List.length_append, List.length_cons] at *
    omega

theorem Good.length {els : List El} (h : Good els) : els.length < 2 ^ 31 := by
  by_contra hc
  have h1 := h.small (els.length - 1) (by omega)
  have h2 := dataBytes_length (els.take (els.length - 1))
  rw [List.length_take] at h2
  omega

theorem Good.nil : Good [] := ⟨by simp, by simp⟩

theorem Good.snoc {els : List El} (h : Good els) {e : El} (he : Fits e) (hs : (dataBytes els).length < 2 ^ 32) :
    Good (els ++ [e]) := by
  refine ⟨?_, ?_⟩
  · intro x hx
    rcases List.mem_append.1 hx with hx | hx
    · exact h.fits x hx
    · simp only [List.mem_singleton] at hx; subst hx; exact he
  · intro k hk
    simp only [List.length_append, List.length_singleton] at hk
    rw [List.take_append_of_le_length (by omega)]
    by_cases hk' : k = els.length
    · subst hk'; rwa [List.take_length]
    · exact h.small k (by omega)

theorem readEntry_spec {els : List El} (hg : Good els) {k : Nat} {e : El} (hk : els[k]? = some e) (h : Handle) (bmp : Option Bytes)
    (hi : h.iPos = 12 * k) :
    readEntry ⟨dataBytes els, indexBytes 0 els, bmp⟩ h =
      .ok (e, { h with iPos := 12 * (k + 1), dPos := (dataBytes (els.take (k + 1))).length }) := by
  obtain ⟨hlt, hke⟩ := List.getElem?_eq_some_iff.1 hk
  have hsplit : els = els.take k ++ e :: els.drop (k + 1) := by
    rw [← hke, ← List.drop_eq_getElem_cons hlt, List.take_append_drop]
  have hlen : (els.take k).length = k := by rw [List.length_take]; omega
  have hsm := hg.small k hlt
  unfold readEntry
  have hidx : (indexBytes 0 els).drop h.iPos = leBytes 8 e.id.toNat ++ (leBytes 4 (dataBytes (els.take k)).length ++
      indexBytes ((dataBytes (els.take k)).length + (writeElement e).length) (els.drop (k + 1))) := by
    conv_lhs => rw [hsplit]
    rw [indexBytes_append, List.drop_left' (by rw [indexBytes_length, hlen, hi])]
    simp [indexBytes]
  simp only [hidx]
  rw [readLe_write]
  simp only [Option.bind_eq_bind, Option.bind_some]
  rw [readLe_write]
  simp only [Option.bind_some]
  have hoff : (dataBytes (els.take k)).length % 256 ^ 4 = (dataBytes (els.take k)).length :=
    Nat.mod_eq_of_lt (by simpa using hsm)
  have hid : UInt64.ofNat (e.id.toNat % 256 ^ 8) = e.id := by
    rw [Nat.mod_eq_of_lt (by have := e.id.toNat_lt; simpa using this)]; simp
  rw [hoff, hid]
  have hdat : (dataBytes els).drop (dataBytes (els.take k)).length = writeElement e ++ dataBytes (els.drop (k + 1)) := by
    conv_lhs => rw [hsplit]
    rw [dataBytes_append, List.drop_left' (by rw [← hsplit])]
    simp [dataBytes]
  rw [hdat]
  have hfe : Fits e := hg.fits e (List.mem_of_getElem? hk)
  have hread : readElement e.id (writeElement e ++ dataBytes (els.drop (k + 1))) = .ok (e, dataBytes (els.drop (k + 1))) := by
    unfold readElement
    rw [StreamsProof.readElementAux_write e hfe _ (by simp)]
    cases e <;> rfl
  rw [hread]
  simp only [Outcome.bind, hi]
  have hl2 : (dataBytes els).length - (dataBytes (els.drop (k + 1))).length = (dataBytes (els.take (k + 1))).length := by
    conv_lhs => rw [← List.take_append_drop (k + 1) els]
    rw [dataBytes_append]
    simp
  rw [hl2]
  rfl

theorem readMany_spec {els : List El} (hg : Good els) (bmp : Option Bytes) : ∀ (n k : Nat), k + n = els.length →
    ∀ (h : Handle), h.iPos = 12 * k → (∃ h', readMany ⟨dataBytes els, indexBytes 0 els, bmp⟩ n none h = .ok (els.drop k, h') ∧
      h'.bitmap = h.bitmap ∧ h'.iPos = 12 * els.length ∧ h'.dPos = if n = 0 then h.dPos else (dataBytes els).length) := by
  intro n
  induction n with
  | zero =>
    intro k hk h hi
    refine ⟨h, ?_, rfl, by omega, by simp⟩
    rw [List.drop_eq_nil_of_le (by omega)]; rfl
  | succ n ih =>
    intro k hk h hi
    have hlt : k < els.length := by omega
    have hr := readEntry_spec hg (List.getElem?_eq_getElem hlt) h bmp hi
    obtain ⟨h', e1, e2, e3, e4⟩ := ih (k + 1) (by omega)
      { h with iPos := 12 * (k + 1), dPos := (dataBytes (els.take (k + 1))).length } rfl
    refine ⟨h', ?_, e2, e3, ?_⟩
    · simp only [readMany, hr, Outcome.bind, Option.map_none, e1]
      rw [← List.drop_eq_getElem_cons hlt]
    · rw [e4]
      split
      · subst n; simp only
        rw [List.take_of_length_le (by omega)]
        simp
      · simp

theorem readMany_cancel {els : List El} (hg : Good els) (bmp : Option Bytes) : ∀ (n k c : Nat), k + n = els.length →
    ∀ (h : Handle), h.iPos = 12 * k → (∃ h', readMany ⟨dataBytes els, indexBytes 0 els, bmp⟩ n (some c) h =
        .ok ((els.drop k).take c, h') ∧ h'.bitmap = h.bitmap ∧
        (n ≤ c → h'.iPos = 12 * els.length ∧ h'.dPos = if n = 0 then h.dPos else (dataBytes els).length)) := by
  intro n
  induction n with
  | zero =>
    intro k c hk h hi
    refine ⟨h, ?_, rfl, fun _ => ⟨by omega, by simp⟩⟩
    rw [List.drop_eq_nil_of_le (by omega)]; simp [readMany]
  | succ n ih =>
    intro k c hk h hi
    cases c with
    | zero => exact ⟨h, by simp [readMany], rfl, fun hc => by omega⟩
    | succ c =>
      have hlt : k < els.length := by omega
      have hr := readEntry_spec hg (List.getElem?_eq_getElem hlt) h bmp hi
      obtain ⟨h', e1, e2, e3⟩ := ih (k + 1) c (by omega)
        { h with iPos := 12 * (k + 1), dPos := (dataBytes (els.take (k + 1))).length } rfl
      refine ⟨h', ?_, e2, ?_⟩
      · simp only [readMany, hr, Outcome.bind, Option.map_some, Nat.add_sub_cancel, e1]
        rw [List.drop_eq_getElem_cons hlt]
        rfl
      · intro hc
        obtain ⟨e3, e4⟩ := e3 (by omega)
        refine ⟨e3, ?_⟩
        rw [e4]
        split
        · subst n; simp only
          rw [List.take_of_length_le (by omega)]
          simp
        · simp

theorem readOrders_spec {els : List El} (hg : Good els) (bmp : Option Bytes) : ∀ (os : List Nat) {l : List El},
    fetch els os = .ok l → ∀ (h : Handle), ∃ h', readOrders ⟨dataBytes els, indexBytes 0 els, bmp⟩ os h = .ok (l, h') ∧
      h'.bitmap = h.bitmap := by
  intro os
  induction os with
  | nil => intro l hl h; simp only [fetch, Outcome.ok.injEq] at hl; subst hl; exact ⟨h, rfl, rfl⟩
  | cons o os ih =>
    intro l hl h
    unfold fetch at hl
    cases ho : els[o]? with
    | none => rw [ho] at hl; cases hl
    | some e =>
      rw [ho] at hl
      simp only at hl
      cases hf : fetch els os with
      | ok r =>
        rw [hf] at hl
        simp only [Outcome.bind, Outcome.ok.injEq] at hl
        subst hl
        have hr := readEntry_spec hg ho { h with iPos := o * 12 } bmp (by simp; omega)
        obtain ⟨h', e1, e2⟩ := ih hf { h with iPos := 12 * (o + 1), dPos := (dataBytes (els.take (o + 1))).length }
        refine ⟨h', ?_, e2⟩
        simp only [readOrders, hr, Outcome.bind, e1]
      | throw x => rw [hf] at hl; cases hl
      | ub x => rw [hf] at hl; cases hl

/-! ## Bitmap files -/

variable (bad : UInt32 → Prop)

/-- A bitmap which can be written, read and extended without leaving its buffers. -/
structure BmOk (bm : Bitmap) (n : Nat) : Prop where
  ne : bm ≠ []
  nodup : (bm.map (·.1)).Nodup
  entry : ∀ e ∈ bm, e.2.size ≤ n ∧ e.2.buffer.length ≤ 5 * e.2.size + 1 ∧ (¬ bad e.1 → Sane e.2)

theorem Assoc.set_nodup {K V : Type} [DecidableEq K] {m : Assoc K V} (h : (m.map (·.1)).Nodup) (k : K) (v : V) :
    ((m.set k v).map (·.1)).Nodup := by
  simp only [Assoc.set, List.map_cons, List.nodup_cons]
  refine ⟨?_, ?_⟩
  · simp [Assoc.erase]
  · exact h.sublist (List.filter_sublist.map _)

theorem Assoc.mem_set {K V : Type} [DecidableEq K] {m : Assoc K V} {k : K} {v : V} {e : K × V} (h : e ∈ m.set k v) :
    e = (k, v) ∨ e ∈ m := by
  simp only [Assoc.set, List.mem_cons, Assoc.erase, List.mem_filter] at h
  tauto

variable {bad}

theorem BmOk.add {bm : Bitmap} {n : Nat} (h : BmOk bad bm n) (ts : List UInt32) (ht : ∀ t ∈ ts, ¬ bad t) :
    ∃ bm', BitmapIndex.add bm ts n = some bm' ∧ BmOk bad bm' (n + 1) := by
  have h' : BmOk bad bm (n + 1) := ⟨h.ne, h.nodup, fun e he => ⟨by have := (h.entry e he).1; omega, (h.entry e he).2⟩⟩
  clear h
  induction ts generalizing bm with
  | nil => exact ⟨bm, rfl, h'⟩
  | cons t ts ih =>
    have hb := ht t (by simp)
    have hs : Sane ((bm.find t).getD Ewah.empty) ∧ ((bm.find t).getD Ewah.empty).buffer.length ≤
        5 * ((bm.find t).getD Ewah.empty).size + 1 ∧ ((bm.find t).getD Ewah.empty).size ≤ n + 1 := by
      cases hf : bm.find t with
      | none => exact ⟨Ewah.sane_empty, by decide, by simp [Ewah.empty]⟩
      | some e =>
        obtain ⟨a, b, c⟩ := h'.entry _ (Assoc.mem_of_find _ _ _ hf)
        exact ⟨c hb, b, a⟩
    obtain ⟨b', e1, e2, e3, e4, -⟩ := Ewah.set_sane hs.1 n hs.2.1
    obtain ⟨bm', f1, f2⟩ := ih (bm := bm.set t b') (fun u hu => ht u (by simp [hu])) ⟨by simp [Assoc.set], Assoc.set_nodup h'.nodup _ _, by
      intro e he
      rcases Assoc.mem_set he with rfl | he
      · exact ⟨by rw [e3]; omega, e4, fun _ => e2⟩
      · exact h'.entry e he⟩
    refine ⟨bm', ?_, f2⟩
    unfold BitmapIndex.add at *
    rw [List.foldlM_cons, e1]
    exact f1

/-- Reading a written bitmap back. -/
def reload (bm : Bitmap) : Bitmap := (bm.map fun e => (e.1, { e.2 with last := 0 })).reverse

theorem readBitmap_toBitsets {bm : Bitmap} {n : Nat} (h : BmOk bad bm n) (hn : n ≤ 2 ^ 32) (g : UInt32) :
    (readBitmap g (writeBitmap (toBitsets bm))).map ofBitsets = some (reload bm) := by
  have h1 : readBitmap g (writeBitmap (toBitsets bm)) = some ((toBitsets bm).reverse ++ []) := by
    unfold readBitmap
    apply StreamsProof.readBitmapLoop_write
    · intro e he
      unfold toBitsets at he
      rw [List.mem_map] at he
      obtain ⟨x, hx, rfl⟩ := he
      obtain ⟨a, b, -⟩ := h.entry x hx
      simp only [toBitset]
      omega
    · unfold toBitsets
      rw [List.map_map]
      exact h.nodup
    · omega
    · intro hc
      exact absurd (List.map_eq_nil_iff.1 hc) h.ne
    · intro e _; rfl
  rw [h1, Option.map_some, List.append_nil]
  congr 1
  unfold ofBitsets reload toBitsets
  rw [List.map_reverse, List.map_map]
  congr 1
  apply List.map_congr_left
  intro e he
  obtain ⟨a, -, -⟩ := h.entry e he
  have : (UInt64.ofNat e.2.size).toNat = e.2.size := by
    rw [UInt64.toNat_ofNat']
    apply Nat.mod_eq_of_lt
    omega
  simp only [Function.comp, toBitset, ofBitset, this]

theorem BmOk.reload {bm : Bitmap} {n : Nat} (h : BmOk bad bm n) : BmOk bad (reload bm) n := by
  refine ⟨?_, ?_, ?_⟩
  · intro hc
    unfold PersistentStore.reload at hc
    rw [List.reverse_eq_nil_iff, List.map_eq_nil_iff] at hc
    exact h.ne hc
  · unfold PersistentStore.reload
    rw [List.map_reverse, List.map_map]
    exact List.nodup_reverse.2 h.nodup
  · intro e he
    unfold PersistentStore.reload at he
    rw [List.mem_reverse, List.mem_map] at he
    obtain ⟨x, hx, rfl⟩ := he
    obtain ⟨a, b, c⟩ := h.entry x hx
    exact ⟨a, b, fun hb => (c hb).reload⟩

/-! ## Search depends on the stored fields only -/

/-- The stored fields. -/
def core (e : Ewah) : List UInt32 × Nat := (e.buffer, e.size)

theorem or_core {a a' b b' : Ewah} (ha : core a = core a') (hb : core b = core b') : Ewah.logicalOr a b = Ewah.logicalOr a' b' := by
  obtain ⟨x, n, l⟩ := a; obtain ⟨x', n', l'⟩ := a'; obtain ⟨y, m, k⟩ := b; obtain ⟨y', m', k'⟩ := b'
  simp only [core, Prod.mk.injEq] at ha hb
  obtain ⟨rfl, rfl⟩ := ha
  obtain ⟨rfl, rfl⟩ := hb
  rfl

theorem and_core {a a' b b' : Ewah} (ha : core a = core a') (hb : core b = core b') : Ewah.logicalAnd a b = Ewah.logicalAnd a' b' := by
  obtain ⟨x, n, l⟩ := a; obtain ⟨x', n', l'⟩ := a'; obtain ⟨y, m, k⟩ := b; obtain ⟨y', m', k'⟩ := b'
  simp only [core, Prod.mk.injEq] at ha hb
  obtain ⟨rfl, rfl⟩ := ha
  obtain ⟨rfl, rfl⟩ := hb
  rfl

theorem xor_core {a a' b b' : Ewah} (ha : core a = core a') (hb : core b = core b') : Ewah.logicalXor a b = Ewah.logicalXor a' b' := by
  obtain ⟨x, n, l⟩ := a; obtain ⟨x', n', l'⟩ := a'; obtain ⟨y, m, k⟩ := b; obtain ⟨y', m', k'⟩ := b'
  simp only [core, Prod.mk.injEq] at ha hb
  obtain ⟨rfl, rfl⟩ := ha
  obtain ⟨rfl, rfl⟩ := hb
  rfl

variable (bad) in
def SameBits (a b : Bitmap) : Prop := ∀ t, ¬ bad t → (a.find t).map core = (b.find t).map core

theorem SameBits.cases {a b : Bitmap} (h : SameBits bad a b) {t : UInt32} (ht : ¬ bad t) :
    (a.find t = none ∧ b.find t = none) ∨ ∃ x y, a.find t = some x ∧ b.find t = some y ∧ core x = core y := by
  have := h t ht
  cases ha : a.find t <;> cases hb : b.find t <;> rw [ha, hb] at this <;> simp at this
  · exact .inl ⟨rfl, rfl⟩
  · exact .inr ⟨_, _, rfl, rfl, this⟩

theorem orTerms_same {a b : Bitmap} (h : SameBits bad a b) (ts : List UInt32) (ht : ∀ t ∈ ts, ¬ bad t) (bs : Ewah) :
    BitmapIndex.orTerms a ts bs = BitmapIndex.orTerms b ts bs := by
  unfold BitmapIndex.orTerms
  induction ts generalizing bs with
  | nil => rfl
  | cons t ts ih =>
    have ih := fun bs => ih (fun u hu => ht u (by simp [hu])) bs
    rw [List.foldlM_cons, List.foldlM_cons]
    rcases h.cases (ht t (by simp)) with ⟨h1, h2⟩ | ⟨x, y, h1, h2, h3⟩
    · simp only [h1, h2, ih]
    · simp only [h1, h2, ih, or_core h3 (rfl : core bs = core bs)]

theorem notTerms_same {a b : Bitmap} (h : SameBits bad a b) (ts : List UInt32) (ht : ∀ t ∈ ts, ¬ bad t) :
    ∀ (bs bs' : Ewah), core bs = core bs' →
    (BitmapIndex.notTerms a ts bs).map core = (BitmapIndex.notTerms b ts bs').map core := by
  unfold BitmapIndex.notTerms
  induction ts with
  | nil => intro bs bs' hb; simp [hb]
  | cons t ts ih =>
    intro bs bs' hb
    have ih := ih (fun u hu => ht u (by simp [hu]))
    rw [List.foldlM_cons, List.foldlM_cons]
    rcases h.cases (ht t (by simp)) with ⟨h1, h2⟩ | ⟨x, y, h1, h2, h3⟩
    · simp only [h1, h2]; exact ih _ _ hb
    · simp only [h1, h2, xor_core h3 hb]
      cases hx : Ewah.logicalXor y bs' with
      | none => rfl
      | some c =>
        have : Ewah.logicalAnd c bs = Ewah.logicalAnd c bs' := and_core rfl hb
        simp only [Option.bind_eq_bind, Option.bind_some, this]
        cases Ewah.logicalAnd c bs' with
        | none => rfl
        | some d => exact ih d d rfl

theorem andTerms_same {a b : Bitmap} (h : SameBits bad a b) (ts : List UInt32) (ht : ∀ t ∈ ts, ¬ bad t) :
    ∀ (bs bs' : Ewah), core bs = core bs' →
    (BitmapIndex.andTerms a ts bs).map core = (BitmapIndex.andTerms b ts bs').map core := by
  induction ts with
  | nil => intro bs bs' hb; simp [BitmapIndex.andTerms, hb]
  | cons t ts ih =>
    intro bs bs' hb
    have ih := ih (fun u hu => ht u (by simp [hu]))
    have hsz : bs.size = bs'.size := congrArg (·.2) hb
    rcases h.cases (ht t (by simp)) with ⟨h1, h2⟩ | ⟨x, y, h1, h2, h3⟩
    · simp only [BitmapIndex.andTerms, h1, h2]
    · simp only [BitmapIndex.andTerms, h1, h2, hsz]
      split
      · exact ih _ _ h3
      · simp only [and_core h3 hb]
        cases Ewah.logicalAnd y bs' with
        | none => rfl
        | some d => exact ih d d rfl

theorem search_same {a b : Bitmap} (h : SameBits bad a b) (q : Terms) (h1 : ∀ t ∈ q.or, ¬ bad t) (h2 : ∀ t ∈ q.and, ¬ bad t)
    (h3 : ∀ t ∈ q.not, ¬ bad t) : BitmapIndex.search a q = BitmapIndex.search b q := by
  unfold BitmapIndex.search
  rw [orTerms_same h q.or h1]
  cases BitmapIndex.orTerms b q.or Ewah.empty with
  | none => rfl
  | some c =>
    simp only [Option.bind_eq_bind, Option.bind_some]
    have e2 := andTerms_same h q.and h2 c c rfl
    cases ha : BitmapIndex.andTerms a q.and c with
    | none =>
      rw [ha] at e2
      have : BitmapIndex.andTerms b q.and c = none := by simpa using e2.symm
      rw [this]; rfl
    | some d =>
      rw [ha] at e2
      obtain ⟨d', hd', hc⟩ : ∃ d', BitmapIndex.andTerms b q.and c = some d' ∧ core d' = core d := by
        simpa using e2.symm
      rw [hd']
      simp only [Option.bind_some]
      have e3 := notTerms_same h q.not h3 d d' hc.symm
      cases hn : BitmapIndex.notTerms a q.not d with
      | none =>
        rw [hn] at e3
        have : BitmapIndex.notTerms b q.not d' = none := by simpa using e3.symm
        rw [this]
      | some f =>
        rw [hn] at e3
        obtain ⟨f', hf', hc'⟩ : ∃ f', BitmapIndex.notTerms b q.not d' = some f' ∧ core f' = core f := by
          simpa using e3.symm
        rw [hf']
        simp only [Option.bind_some, Ewah.bits]
        have : f'.buffer = f.buffer := congrArg (·.1) hc'
        rw [this]

theorem reload_find {bm : Bitmap} (hn : (bm.map (·.1)).Nodup) (t : UInt32) :
    ((reload bm).find t).map core = (bm.find t).map core := by
  have hnr : ((reload bm).map (·.1)).Nodup := by
    unfold reload
    rw [List.map_reverse, List.map_map]
    exact List.nodup_reverse.2 hn
  cases hf : bm.find t with
  | none =>
    have : (reload bm).find t = none := by
      rw [Assoc.find_eq_none_iff] at hf ⊢
      intro e he
      unfold reload at he
      rw [List.mem_reverse, List.mem_map] at he
      obtain ⟨x, hx, rfl⟩ := he
      exact hf x hx
    rw [this]
  | some v =>
    have : (reload bm).find t = some { v with last := 0 } := by
      apply Assoc.find_of_mem _ _ _ hnr
      unfold reload
      rw [List.mem_reverse, List.mem_map]
      exact ⟨(t, v), Assoc.mem_of_find _ _ _ hf, rfl⟩
    rw [this]; rfl

end Verif.PersistentStore
