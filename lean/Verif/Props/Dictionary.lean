import Verif.Props.StringTable
import Verif.Props.DictionarySpec
import Verif.Props.OsmWords

/-! # C120: the string table is a dictionary, whenever it is asked -/
namespace Verif.Props
open Verif Verif.StringTable Verif.StringTableProof Verif.DictionarySpec
open Verif.StringTableSpec hiding run step

namespace DictionaryProof

theorem grow (op : Op) (t : List Bytes) : ∃ u, (StringTableSpec.step t op).1 = t ++ u := by
  cases op with
  | getId s =>
    simp only [StringTableSpec.step]
    split
    · exact ⟨[], by simp⟩
    · exact ⟨[s], rfl⟩
  | getString i => exact ⟨[], by simp only [StringTableSpec.step]; split <;> simp⟩
  | reopen => exact ⟨[], by simp [StringTableSpec.step]⟩

theorem grows (ops : List Op) (t : List Bytes) : ∃ u, (StringTableSpec.run t ops).1 = t ++ u := by
  induction ops generalizing t with
  | nil => exact ⟨[], by simp [StringTableSpec.run]⟩
  | cons op ops ih =>
    obtain ⟨u, hu⟩ := grow op t
    obtain ⟨v, hv⟩ := ih (StringTableSpec.step t op).1
    exact ⟨u ++ v, by simp only [StringTableSpec.run]; rw [hv, hu, List.append_assoc]⟩

theorem step_getString (t : List Bytes) (i : Nat) : StringTableSpec.step t (.getString i) = (t, .str (t.getD i [])) := by
  simp only [StringTableSpec.step, List.getD_eq_getElem?_getD]
  split
  · next s h => rw [h]; rfl
  · next h => rw [h]; rfl

theorem late {n : Nat} {t : List Bytes} {ops : List Op} (hn : (StringTableSpec.run t ops).1.length ≤ n) (h : Settled n t ops) : Late (fun i => n ≤ i) t ops := by
  induction ops generalizing t with
  | nil => trivial
  | cons op ops ih =>
    cases op with
    | getId s =>
      refine ⟨⟨h.1, h.2.1, fun hm => ?_⟩, ih hn h.2.2⟩
      obtain ⟨u, hu⟩ := grows ops (StringTableSpec.step t (.getId s)).1
      simp only [StringTableSpec.run] at hn
      rw [hu] at hn
      simp only [StringTableSpec.step, hm, if_false, List.length_append, List.length_singleton] at hn
      omega
    | getString i =>
      have hs := step_getString t i
      refine ⟨h.1, ?_⟩
      rw [hs]
      refine ih ?_ h.2
      simpa only [StringTableSpec.run, hs] using hn
    | reopen => exact ⟨trivial, ih hn h⟩

/-- What the strings of the final list are. -/
structure Final (T : List Bytes) (t : List Bytes) (calls : List (Op × Out)) : Prop where
  ids : ∀ s o, (Op.getId s, o) ∈ calls → s ∈ T ∧ o = .id (T.idxOf s)
  strs : ∀ i o, (Op.getString i, o) ∈ calls → o = .str (T.getD i [])

theorem step_nodup {t : List Bytes} (h : t.Nodup) (op : Op) : (StringTableSpec.step t op).1.Nodup := by
  cases op with
  | getId s =>
    simp only [StringTableSpec.step]
    split
    · exact h
    · next hs => exact List.nodup_append.2 ⟨h, by simp, by rintro a ha b hb rfl; exact hs ((List.mem_singleton.1 hb) ▸ ha)⟩
  | getString i => rw [step_getString]; exact h
  | reopen => exact h

theorem final {n : Nat} {t : List Bytes} (hd : t.Nodup) {ops : List Op} (hn : (StringTableSpec.run t ops).1.length ≤ n) (h : Settled n t ops) :
    Final (StringTableSpec.run t ops).1 t (ops.zip (StringTableSpec.run t ops).2) := by
  induction ops generalizing t with
  | nil => exact ⟨by simp [StringTableSpec.run], by simp [StringTableSpec.run]⟩
  | cons op ops ih =>
    have hs : Settled n (StringTableSpec.step t op).1 ops := by
      cases op with
      | getId s => exact h.2.2
      | getString i => rw [step_getString]; exact h.2
      | reopen => exact h
    obtain ⟨h1, h2⟩ := ih (step_nodup hd op) (by simpa only [StringTableSpec.run] using hn) hs
    obtain ⟨u, hu⟩ := grows ops (StringTableSpec.step t op).1
    simp only [StringTableSpec.run, List.zip_cons_cons] at hn ⊢
    refine ⟨fun s o hm => ?_, fun i o hm => ?_⟩
    · rcases List.mem_cons.1 hm with hm | hm
      · injection hm with e1 e2
        subst e1 e2
        rw [hu]
        simp only [StringTableSpec.step]
        split
        · next hst => exact ⟨List.mem_append_left _ hst, by rw [List.idxOf_append_of_mem hst]⟩
        · next hst =>
          refine ⟨by simp, ?_⟩
          rw [List.idxOf_append_of_mem (by simp), List.idxOf_append_of_notMem hst]
          simp
      · exact h1 s o hm
    · rcases List.mem_cons.1 hm with hm | hm
      · injection hm with e1 e2
        subst e1 e2
        rw [step_getString] at hu ⊢
        rw [step_getString] at hn
        simp only at hu hn ⊢
        rw [hu] at hn ⊢
        rcases h.1 with hi | hi
        · rw [List.getD_append _ _ _ _ hi]
        · rw [List.getD_eq_default _ _ (le_trans hn hi), List.getD_eq_default _ _ (by rw [List.length_append] at hn; omega)]
      · exact h2 i o hm

theorem run_nodup {t : List Bytes} (h : t.Nodup) (ops : List Op) : (StringTableSpec.run t ops).1.Nodup := by
  induction ops generalizing t with
  | nil => exact h
  | cons op ops ih => exact ih (step_nodup h op)

theorem run_size {n : Nat} {t : List Bytes} (hz : dataSize t ≤ 2 ^ 32) {ops : List Op} (h : Settled n t ops) : dataSize (StringTableSpec.run t ops).1 ≤ 2 ^ 32 := by
  induction ops generalizing t with
  | nil => exact hz
  | cons op ops ih =>
    cases op with
    | getId s =>
      refine ih ?_ h.2.2
      simp only [StringTableSpec.step]
      split
      exacts [hz, h.2.1]
    | getString i =>
      have hs := step_getString t i
      simp only [StringTableSpec.run, hs]
      exact ih hz h.2
    | reopen => exact ih hz h

/-- Distinct strings need room. -/
theorem room {t : List Bytes} (h : t.Nodup) : 2 * t.length ≤ dataSize t + 1 ∧ ([] ∉ t → 2 * t.length ≤ dataSize t) := by
  induction t with
  | nil => simp [dataSize]
  | cons s t ih =>
    obtain ⟨h1, h2⟩ := ih (List.nodup_cons.1 h).2
    have hz : dataSize (s :: t) = s.length + 1 + dataSize t := by simp [dataSize]
    rw [hz, List.length_cons]
    cases s with
    | nil =>
      have := h2 (List.nodup_cons.1 h).1
      refine ⟨by simp only [List.length_nil]; omega, fun h => absurd (by simp) h⟩
    | cons a s =>
      refine ⟨by simp only [List.length_cons]; omega, fun hn => ?_⟩
      have := h2 (fun hm => hn (List.mem_cons_of_mem _ hm))
      simp only [List.length_cons]; omega

theorem dictionary {ops : List Op} (h : Sensible ops) : ∃ number word, Dictionary number word (ops.zip (StringTableSpec.run [] ops).2) := by
  obtain ⟨h1, h2⟩ := final List.nodup_nil le_rfl h
  have hn := run_nodup List.nodup_nil ops
  have hz := run_size (by simp [dataSize]) h
  have hr := (room hn).1
  generalize (StringTableSpec.run [] ops).1 = T at h1 h2 hn hz hr
  have hl : T.length < 0xFFFFFFFF := by omega
  refine ⟨T.idxOf, fun i => T.getD i [], fun s o hm => (h1 s o hm).2, h2, fun s o hm => ?_, fun s o hm => ?_, List.getD_eq_default _ _ hl.le⟩
  · have := List.idxOf_lt_length_of_mem (h1 s o hm).1
    simp [List.getD_eq_getElem?_getD, List.getElem?_eq_getElem this]
  · exact lt_trans (List.idxOf_lt_length_of_mem (h1 s o hm).1) hl

/-- Each call has an answer. -/
theorem asked (hash : Bytes → UInt32) (s : State) {ops : List Op} {op : Op} (h : op ∈ ops) : ∃ o, (op, o) ∈ ops.zip (run hash cacheSize s ops).2 := by
  induction ops generalizing s with
  | nil => simp at h
  | cons x ops ih =>
    simp only [run, List.zip_cons_cons]
    rcases List.mem_cons.1 h with rfl | h
    · exact ⟨_, List.mem_cons_self⟩
    · obtain ⟨o, ho⟩ := ih (step hash cacheSize s x).1 h
      exact ⟨o, List.mem_cons_of_mem _ ho⟩

end DictionaryProof
open DictionaryProof

/-- C04, more of what holds: ids without a string may be asked for as well, if they never get one. They are answered with the empty string, and the answers for all other strings and ids
are not disturbed. Missing are strings with NUL, and ids which are asked for before they get their string; both violate C04. -/
theorem C04_unassigned_partial (hash : Bytes → UInt32) (ops : List Op) (h : Sensible ops) :
    (run hash cacheSize (openOn cacheSize [] []) ops).2 = (StringTableSpec.run [] ops).2 :=
  (run_junk (by decide) (inv_blank _ hash cacheSize) rfl ops (late le_rfl h)).1

/-- C120: all answers of a string table, through all calls, restarts, collisions and evictions, are those of one dictionary which does not change: a string has one number and the number has this
string. The number which marks parts of buildings is never given to a string, and is answered with the empty string. -/
theorem C120_dictionary (hash : Bytes → UInt32) (ops : List Op) (h : Sensible ops) :
    ∃ number word, Dictionary number word (ops.zip (run hash cacheSize (openOn cacheSize [] []) ops).2) := by
  rw [C04_unassigned_partial hash ops h]
  exact dictionary h

open Verif.StringTableConc in
/-- C120 with threads: the answers which any number of threads get in any schedule are those of one dictionary. -/
theorem C120_threads (hash : Bytes → UInt32) (progs : Nat → List Call) (schedule : List Nat) :
    let c := Lock.exec (object hash) (Lock.start (openOn cacheSize [] []) progs) schedule
    Sensible (c.hist.map fun e => toOp e.2.1) → ∃ number word, Dictionary number word (c.hist.map fun e => (toOp e.2.1, e.2.2)) := by
  intro c hs
  obtain ⟨number, word, h⟩ := C120_dictionary hash _ hs
  rw [(C06_linearizable hash _ progs schedule).1] at h
  refine ⟨number, word, ?_⟩
  have : (c.hist.map fun e => toOp e.2.1).zip (c.hist.map fun e => e.2.2) = c.hist.map fun e => (toOp e.2.1, e.2.2) := by
    exact List.zip_map'
  rwa [← this]

section
open Verif.OsmWordsSpec
open Verif.Style (Str)
open Verif.OsmXmlSpec (Doc)

/-- C120: the hypothesis of C119 on the strings is met by the string table. `encode` and `decode` are the bytes of a string and back. If the history asks for the number of each string of the
stylesheet and of the file, then the numbers and strings of the answers are those which C119 asks for. -/
theorem C120_words {D : Type} (hash : Bytes → UInt32) (ops : List Op) (h : Sensible ops) (encode : Str → Bytes) (decode : Bytes → Str) (h0 : decode [] = [])
    {P : Str → Prop} {doc : Doc} (hP : ∀ s, P s → .getId (encode s) ∈ ops ∧ decode (encode s) = s)
    (hdoc : ∀ tags ∈ written doc, ∀ t ∈ tags, ∀ s ∈ [t.key, t.value], .getId (encode s) ∈ ops ∧ decode (encode s) = s) (honce : ∀ tags ∈ written doc, (tags.map (·.key)).Nodup) :
    ∃ number word, Dictionary number word (ops.zip (run hash cacheSize (openOn cacheSize [] []) ops).2) ∧
      ∀ senv : Style.Env D, senv.getId = (fun s => UInt32.ofNat (number (encode s))) → senv.getString = (fun i => decode (word i.toNat)) → OsmWords senv P doc := by
  obtain ⟨number, word, hd⟩ := C120_dictionary hash ops h
  refine ⟨number, word, hd, fun senv hi hs => ?_⟩
  have key : ∀ s, .getId (encode s) ∈ ops → decode (encode s) = s → senv.getString (senv.getId s) = s ∧ senv.getId s ≠ 0xFFFFFFFF := by
    intro s hm hb
    obtain ⟨o, ho⟩ := asked hash (openOn cacheSize [] []) hm
    have hlt := hd.small _ _ ho
    have hn : (UInt32.ofNat (number (encode s))).toNat = number (encode s) := UInt32.toNat_ofNat_of_lt (by simp only [UInt32.size]; omega)
    rw [hi, hs]
    refine ⟨by simp only [hn, hd.back _ _ ho, hb], fun e => ?_⟩
    have := congrArg UInt32.toNat e
    simp only [hn] at this
    have h2 : (0xFFFFFFFF : UInt32).toNat = 0xFFFFFFFF := rfl
    omega
  refine ⟨fun s hp => (key s (hP s hp).1 (hP s hp).2).1, ?_, fun tags ht t hm => ?_, honce⟩
  · rw [hs]
    have h2 : (0xFFFFFFFF : UInt32).toNat = 0xFFFFFFFF := rfl
    simp only [h2, hd.mark, h0]
  · have h1 := hdoc tags ht t hm t.key (by simp)
    have h2 := hdoc tags ht t hm t.value (by simp)
    exact ⟨(key _ h1.1 h1.2).1, (key _ h2.1 h2.2).1, (key _ h1.1 h1.2).2⟩

/-- A history which meets the hypotheses: the mark is looked up before, between and after the strings, and the table is opened again. -/
example : Sensible [.getString 0xFFFFFFFF, .getId [97], .getId [98], .getString 0, .reopen, .getString 0xFFFFFFFF, .getId [97], .getString 1] ∧
    (run (fun _ => 0) cacheSize (openOn cacheSize [] []) [.getString 0xFFFFFFFF, .getId [97], .getId [98], .getString 0, .reopen, .getString 0xFFFFFFFF, .getId [97], .getString 1]).2 =
      [.str [], .id 0, .id 1, .str [97], .unit, .str [], .id 0, .str [98]] := by
  refine ⟨?_, by decide +kernel⟩
  simp [Sensible, Settled, StringTableSpec.run, StringTableSpec.step, dataSize]

open Verif.StringTableConc in
/-- Two threads: one adds a string, the other asks for the mark and for the same string. -/
example : Sensible ((Lock.exec (object (fun _ => 7)) (Lock.start (openOn cacheSize [] [])
      (fun t => if t = 0 then [.getId [97]] else if t = 1 then [.getString 0xFFFFFFFF, .getId [97]] else [])) [0, 1, 0, 1, 0, 1, 0, 0, 0, 1, 1, 1, 1, 1, 1, 1, 1, 1, 1]).hist.map fun e => toOp e.2.1) := by
  have : ((Lock.exec (object (fun _ => 7)) (Lock.start (openOn cacheSize [] [])
      (fun t => if t = 0 then [.getId [97]] else if t = 1 then [.getString 0xFFFFFFFF, .getId [97]] else [])) [0, 1, 0, 1, 0, 1, 0, 0, 0, 1, 1, 1, 1, 1, 1, 1, 1, 1, 1]).hist.map fun e => toOp e.2.1) =
      [.getId [97], .getString 0xFFFFFFFF, .getId [97]] := by decide +kernel
  rw [this]
  simp [Sensible, Settled, StringTableSpec.run, StringTableSpec.step, dataSize]

/-- The file of the example of C119 and the strings of its stylesheet: a history which asks for them all. -/
example (D : Type) (hash : Bytes → UInt32) (ops : List Op)
    (hops : ops = (LoadTileProof.Sample.table.map fun s => Op.getId (s.map fun c => UInt8.ofNat c.toNat)) ++ [.getString 0xFFFFFFFF]) :
    ∃ number word, Dictionary number word (ops.zip (run hash cacheSize (openOn cacheSize [] []) ops).2) ∧
      ∀ senv : Style.Env D, senv.getId = (fun s => UInt32.ofNat (number (s.map fun c => UInt8.ofNat c.toNat))) →
        senv.getString = (fun i => (word i.toNat).map fun b => Char.ofNat b.toNat) → OsmWords senv (· ∈ LoadTileProof.Sample.table) ImportRelationsProof.sample := by
  refine C120_words (doc := ImportRelationsProof.sample) hash ops ?_ (fun s => s.map fun c => UInt8.ofNat c.toNat) (fun b => b.map fun b => Char.ofNat b.toNat) rfl ?_ ?_ (by decide)
  · subst hops
    have : (LoadTileProof.Sample.table.map fun s => Op.getId (s.map fun c => UInt8.ofNat c.toNat)) =
      [.getId [97], .getId [98], .getId [98, 117, 105, 108, 100, 101, 114], .getId [115, 107, 105, 112], .getId [99, 108, 105, 112], .getId [116, 121, 112, 101],
        .getId [109, 117, 108, 116, 105, 112, 111, 108, 121, 103, 111, 110], .getId [98, 117, 105, 108, 100, 105, 110, 103]] := by decide
    rw [this]
    simp [Sensible, Settled, StringTableSpec.run, StringTableSpec.step, dataSize]
  · intro s hs
    subst hops
    refine ⟨List.mem_append_left _ (List.mem_map.2 ⟨s, hs, rfl⟩), ?_⟩
    revert s
    decide
  · subst hops
    have : ∀ tags ∈ written ImportRelationsProof.sample, ∀ t ∈ tags, ∀ s ∈ [t.key, t.value], s ∈ LoadTileProof.Sample.table := by decide
    intro tags h1 t h2 s h3
    have hs := this tags h1 t h2 s h3
    refine ⟨List.mem_append_left _ (List.mem_map.2 ⟨s, hs, rfl⟩), ?_⟩
    revert s
    have hall : ∀ s ∈ LoadTileProof.Sample.table, (s.map fun c => UInt8.ofNat c.toNat).map (fun b => Char.ofNat b.toNat) = s := by decide
    exact fun s _ hs => hall s hs

end

end Verif.Props
