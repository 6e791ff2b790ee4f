import Verif.Proof.StringTable
import Verif.Proof.StringTableConc

/-! # C02-C06: string table -/
namespace Verif.Props
open Verif Verif.StringTable Verif.StringTableProof
open Verif.StringTableSpec hiding run step

/-- The limit of the string cache, StringTable.cpp:27. -/
abbrev cacheSize : Nat := 1024

/-- C02 and C03. For every hash function and every history of calls and restarts on a fresh table, all results are
those of the list of distinct strings in order of first use (`StringTableSpec`). -/
theorem C02_C03_string_table_refines_spec (hash : Bytes → UInt32) (ops : List Op) (hv : Valid [] ops) :
    (run hash cacheSize (openOn cacheSize [] []) ops).2 = (StringTableSpec.run [] ops).2 :=
  (run_spec (by decide) (inv_fresh hash cacheSize) rfl ops hv).1

/-- C03. Restarts are unobservable: removing every restart from a history leaves the other results unchanged. -/
theorem C03_reopen_unobservable (hash : Bytes → UInt32) (ops : List Op) (hv : Valid [] ops) :
    (run hash cacheSize (openOn cacheSize [] []) ops).2.filter (fun o => o ≠ .unit) =
    (run hash cacheSize (openOn cacheSize [] []) (ops.filter (fun o => o ≠ .reopen))).2 := by
  have key : ∀ (t : List Bytes) (ops : List Op), Valid t ops → Valid t (ops.filter (fun o => o ≠ .reopen)) ∧
      (StringTableSpec.run t ops).2.filter (fun o => o ≠ .unit) =
      (StringTableSpec.run t (ops.filter (fun o => o ≠ .reopen))).2 := by
    intro t ops
    induction ops generalizing t with
    | nil => intro _; exact ⟨trivial, rfl⟩
    | cons op ops ih =>
      intro hv
      obtain ⟨i1, i2⟩ := ih _ hv.2
      cases op with
      | reopen => exact ⟨i1, by simpa [StringTableSpec.run, StringTableSpec.step] using i2⟩
      | getId s =>
        rw [List.filter_cons_of_pos (by simp)]
        refine ⟨⟨hv.1, i1⟩, ?_⟩
        simp only [StringTableSpec.run, ← i2]
        rw [List.filter_cons_of_pos]
        simp only [StringTableSpec.step]; split <;> simp
      | getString i =>
        rw [List.filter_cons_of_pos (by simp)]
        refine ⟨⟨hv.1, i1⟩, ?_⟩
        simp only [StringTableSpec.run, ← i2]
        rw [List.filter_cons_of_pos]
        simp only [StringTableSpec.step]
        have hx : t[i]? = some (t[i]'hv.1) := List.getElem?_eq_getElem hv.1
        simp only [hx]; simp
  obtain ⟨h1, h2⟩ := key [] ops hv
  rw [C02_C03_string_table_refines_spec hash ops hv, C02_C03_string_table_refines_spec hash _ h1, h2]

theorem run_append (hash : Bytes → UInt32) (cap : Nat) (s : State) (xs ys : List Op) :
    run hash cap s (xs ++ ys) =
      ((run hash cap (run hash cap s xs).1 ys).1, (run hash cap s xs).2 ++ (run hash cap (run hash cap s xs).1 ys).2) := by
  induction xs generalizing s with
  | nil => rfl
  | cons x xs ih => simp [run, ih]

/-- C02, spelled out for the caller: after any history, if `getId s` returns `i`, then after any further history
`getString i` returns `s` and `getId s` returns `i` again, and any string which also gets `i` is `s`. -/
theorem C02_round_trip (hash : Bytes → UInt32) (before after : List Op) (s s' : Bytes) (i : Nat)
    (hv : Valid [] (before ++ [.getId s] ++ after ++ [.getId s']))
    (hid : (step hash cacheSize (run hash cacheSize (openOn cacheSize [] []) before).1 (.getId s)).2 = .id i) :
    let st := (run hash cacheSize (openOn cacheSize [] []) (before ++ [.getId s] ++ after)).1
    (step hash cacheSize st (.getString i)).2 = .str s ∧
    (step hash cacheSize st (.getId s)).2 = .id i ∧
    ((step hash cacheSize st (.getId s')).2 = .id i → s' = s) := by
  have split : ∀ (t : List Bytes) (xs ys : List Op), Valid t (xs ++ ys) →
      Valid t xs ∧ Valid (StringTableSpec.run t xs).1 ys := by
    intro t xs ys
    induction xs generalizing t with
    | nil => intro h; exact ⟨trivial, h⟩
    | cons x xs ih => intro h; obtain ⟨a, b⟩ := ih _ h.2; exact ⟨⟨h.1, a⟩, b⟩
  have specApp : ∀ (t : List Bytes) (xs ys : List Op), (StringTableSpec.run t (xs ++ ys)).1 =
      (StringTableSpec.run (StringTableSpec.run t xs).1 ys).1 := by
    intro t xs ys
    induction xs generalizing t with
    | nil => rfl
    | cons x xs ih => simp [StringTableSpec.run, ih]
  have grow : ∀ (ops : List Op) (t : List Bytes) (j : Nat) (x : Bytes), t[j]? = some x →
      (StringTableSpec.run t ops).1[j]? = some x := by
    intro ops
    induction ops with
    | nil => intro t j x h; exact h
    | cons op ops ih =>
      intro t j x h
      apply ih
      cases op with
      | getId y =>
        simp only [StringTableSpec.step]
        split
        · exact h
        · rw [List.getElem?_append_left (List.getElem?_eq_some_iff.1 h).1]; exact h
      | getString k => simp only [StringTableSpec.step]; split <;> exact h
      | reopen => exact h
  intro st
  obtain ⟨hv1, hv2⟩ := split _ _ _ hv
  obtain ⟨hv3, hv4⟩ := split _ _ _ hv1
  obtain ⟨hv5, hv6⟩ := split _ _ _ hv3
  obtain ⟨_, hIb, hdb⟩ := run_spec (hash := hash) (cap := cacheSize) (by decide) (inv_fresh hash cacheSize) rfl before hv5
  obtain ⟨_, hI, hd⟩ := run_spec (hash := hash) (cap := cacheSize) (by decide) (inv_fresh hash cacheSize) rfl _ hv1
  -- the id given first
  have hs1 := (step_spec (by decide) hIb hdb (.getId s) hv6.1).1
  rw [hid] at hs1
  have hget : (StringTableSpec.run [] (before ++ [.getId s])).1[i]? = some s := by
    rw [specApp]
    simp only [StringTableSpec.run, StringTableSpec.step] at hs1 ⊢
    split
    · rename_i hm
      simp only [hm, if_true, Out.id.injEq] at hs1
      rw [hs1]
      rw [List.getElem?_eq_getElem (List.idxOf_lt_length_of_mem hm)]
      simp
    · rename_i hm
      simp only [hm, if_false, Out.id.injEq] at hs1
      rw [hs1]; simp
  have hget2 : (StringTableSpec.run [] (before ++ [.getId s] ++ after)).1[i]? = some s := by
    rw [specApp]; exact grow _ _ _ _ hget
  obtain ⟨hmem, hidx⟩ := idxOf_eq_of_getElem? hI.nodup hget2
  refine ⟨?_, ?_, ?_⟩
  · have := (getString_spec (cap := cacheSize) (by decide) hI i (List.getElem?_eq_some_iff.1 hget2).1).1
    rw [show (step hash cacheSize st (.getString i)).2 = (getString st i).2 from rfl]
    rw [this]
    simp only [StringTableSpec.step, hget2]
  · have := (getId_known hI s hmem).1
    rw [hidx] at this; exact this
  · intro he
    have h2 := (step_spec (cap := cacheSize) (by decide) hI hd (.getId s') hv2.1).1
    rw [he] at h2
    simp only [StringTableSpec.step] at h2
    split at h2
    · rename_i hm
      simp only [Out.id.injEq] at h2
      rw [h2] at hget2
      rw [List.getElem?_eq_getElem (List.idxOf_lt_length_of_mem hm)] at hget2
      simpa using hget2
    · simp only [Out.id.injEq] at h2
      rw [h2] at hget2
      simp at hget2

/-- Non-trivial case for C02/C03: a hash under which everything collides, a repeated string, a restart. -/
example : Valid [] [.getId [97], .getId [98], .getId [97], .reopen, .getString 1, .getId [98]] ∧
    (run (fun _ => 0) cacheSize (openOn cacheSize [] [])
      [.getId [97], .getId [98], .getId [97], .reopen, .getString 1, .getId [98]]).2 =
      [.id 0, .id 1, .id 0, .unit, .str [98], .id 1] := by
  refine ⟨?_, by decide +kernel⟩
  simp [Valid, ValidOp, StringTableSpec.step, dataSize]

/-! ## C04 -/

/-- C04 is violated by a string with an embedded NUL: it is truncated in the data file, `getId` does not recognise
it again, and `getString` returns another string. For every hash function. -/
theorem C04_violated_nul (hash : Bytes → UInt32) :
    (run hash cacheSize (openOn cacheSize [] []) [.getId [0], .getId [0], .getString 0]).2 =
      [.id 0, .id 1, .str []] := by
  have h0 : records [] = [] := rfl
  simp [run, step, getId, openOn, h0, buckets, Assoc.find, scan, writeString, cstr, push, Assoc.set, Assoc.erase,
    hit, Lru.step, Lru.init, readString, getline, getString, cacheGet, Lru.put, Lru.evict, Lru.splice, Lru.deref,
    Lru.eraseNode]

/-- C04 is violated after a lookup of an id which is assigned later: the empty answer stays cached. For every hash
function. -/
theorem C04_violated_early_lookup (hash : Bytes → UInt32) :
    (run hash cacheSize (openOn cacheSize [] []) [.getString 0, .getId [97], .getString 0]).2 =
      [.str [], .id 0, .str []] := by
  have h0 : records [] = [] := rfl
  simp [run, step, getId, openOn, h0, buckets, Assoc.find, scan, writeString, cstr, push, Assoc.set, Assoc.erase,
    hit, Lru.step, Lru.init, readString, getline, getString, cacheGet, Lru.put, Lru.evict, Lru.splice, Lru.deref,
    Lru.eraseNode]

/-- C04, the part that holds: every string without NUL, every id assigned before it is looked up. What is missing
from C04 are the strings with NUL and the early lookups, which violate it. -/
theorem C04_string_table_partial (hash : Bytes → UInt32) (ops : List Op) (hv : Valid [] ops) :
    (run hash cacheSize (openOn cacheSize [] []) ops).2 = (StringTableSpec.run [] ops).2 :=
  C02_C03_string_table_refines_spec hash ops hv

/-! ## C05 -/

/-- A history with crashes. -/
def crashRun (hash : Bytes → UInt32) (s : State) : List COp → State × List Out
  | [] => (s, [])
  | .call op :: ops =>
    ((crashRun hash (step hash cacheSize s op).1 ops).1,
      (step hash cacheSize s op).2 :: (crashRun hash (step hash cacheSize s op).1 ops).2)
  | .crash str d k :: ops =>
    ((crashRun hash (crash hash cacheSize s str d k) ops).1,
      .unit :: (crashRun hash (crash hash cacheSize s str d k) ops).2)

/-- C05, the part that holds: with any number of crashes at any byte of the data file, provided that the index
record is written completely or not at all and never before the data, every later answer is that of the
specification: old ids resolve, no id resolves to a wrong string, new strings can be added. Missing: torn index
records and index-before-data orders, which violate the property (below). -/
theorem C05_crash_partial (hash : Bytes → UInt32) (ops : List COp) (hv : CValid ⟨[], 0⟩ ops) :
    (crashRun hash (openOn cacheSize [] []) ops).2 = (crun ⟨[], 0⟩ ops).2 := by
  have main : ∀ (ops : List COp) (s : State) (c : CState), Inv hash cacheSize [] s c.strs →
      s.dat.length = c.bytes → CValid c ops → (crashRun hash s ops).2 = (crun c ops).2 := by
    intro ops
    induction ops with
    | nil => intros; rfl
    | cons op ops ih =>
      intro s c hI hd hv
      cases op with
      | call op =>
        have hstep : (step hash cacheSize s op).2 = (cstep c (.call op)).2 ∧
            Inv hash cacheSize [] (step hash cacheSize s op).1 (cstep c (.call op)).1.strs ∧
            (step hash cacheSize s op).1.dat.length = (cstep c (.call op)).1.bytes := by
          cases op with
          | getId str =>
            by_cases hm : str ∈ c.strs
            · obtain ⟨h1, h2, h3, _⟩ := getId_known hI str hm
              simp only [cstep, StringTableSpec.step, hm, if_true]
              exact ⟨h1, h2, by simp only [step, h3, hd]; omega⟩
            · obtain ⟨h1, h2, h3, _⟩ := getId_new hI str hm hv.1.1 (by have := hv.1.2; omega)
              simp only [cstep, StringTableSpec.step, hm, if_false]
              refine ⟨h1, h2, ?_⟩
              simp only [step, h3]
              rw [dataSize_append]
              simp [hd, dataSize]
          | getString i =>
            obtain ⟨h1, h2⟩ := getString_spec (cap := cacheSize) (by decide) hI i hv.1
            have hx : c.strs[i]? = some (c.strs[i]'hv.1) := List.getElem?_eq_getElem hv.1
            refine ⟨h1, h2, ?_⟩
            simp only [step, cstep, StringTableSpec.step, hx, (getString_files s i).1, hd]
            omega
          | reopen => exact ⟨rfl, hI.reopen, by simp [step, openOn, cstep, StringTableSpec.step, hd]⟩
        obtain ⟨h1, h2, h3⟩ := hstep
        simp only [crashRun, crun]
        rw [h1, ih _ _ h2 h3 hv.2]
      | crash str d k =>
        have hstep : Inv hash cacheSize [] (crash hash cacheSize s str d k) (cstep c (.crash str d k)).1.strs ∧
            (crash hash cacheSize s str d k).dat.length = (cstep c (.crash str d k)).1.bytes := by
          by_cases hm : str ∈ c.strs
          · obtain ⟨h1, h2, h3, h4⟩ := getId_known hI str hm
            simp only [cstep, hm, if_true, crash, h3, h4]
            simp only [List.drop_length, List.take_nil, List.append_nil]
            exact ⟨hI.reopen, hd⟩
          · obtain ⟨hnul, hsz, hk⟩ := hv.1
            obtain ⟨h1, h2, h3, h4⟩ := getId_new hI str hm hnul (by omega)
            simp only [cstep, hm, if_false]
            have hdrop1 : (getId hash s str).1.dat.drop s.dat.length = str ++ [0] := by
              rw [h3, List.append_assoc, List.drop_left']; rfl
            have hdrop2 : (getId hash s str).1.idx.drop s.idx.length =
                leBytes 4 (hash str).toNat ++ leBytes 4 s.dat.length := by
              rw [h4, List.drop_left']; rfl
            refine ⟨?_, ?_⟩
            · simp only [crash, hdrop1, hdrop2]
              rcases hk with rfl | ⟨hk, hdd⟩
              · simp only [List.take_zero, List.append_nil]
                rw [if_neg (by omega), hI.idx]
                exact inv_open hash _ _ _ _ _ (hI.good.append _) hI.tail8 hI.nul hI.nodup
              · rw [if_pos hk, List.take_of_length_le (by simp [leBytes_length]; omega),
                  List.take_of_length_le (by simp; omega), ← h4, ← List.append_assoc, ← h3]
                exact h2.reopen
            · simp only [crash, hdrop1, openOn, List.length_append, List.length_take]
              simp [hd]
        simp only [crashRun, crun]
        rw [ih _ _ hstep.1 hstep.2 hv.2]
        cases hm : decide (str ∈ c.strs) <;> simp at hm <;> simp [cstep, hm]
  exact main ops _ _ (inv_fresh hash cacheSize) rfl hv

/-- Calls which add nothing. -/
def Known (t : List Bytes) : Op → Prop
  | .getId s => s ∈ t
  | .getString i => i < t.length
  | .reopen => True

/-- C05, second part: after a crash with a torn index record (1 to 7 of its 8 bytes on disk, any number of data
bytes), every old id and every old string is still answered correctly, in any read-only history. -/
theorem C05_torn_index_reads_partial (hash : Bytes → UInt32) (ops : List Op) (hv : Valid [] ops) (str : Bytes)
    (hnul : (0 : UInt8) ∉ str) (d k : Nat) (hk : k < 8)
    (hsz : dataSize (StringTableSpec.run [] ops).1 + str.length + 1 ≤ 2 ^ 32) (reads : List Op)
    (hr : ∀ op ∈ reads, Known (StringTableSpec.run [] ops).1 op) :
    (run hash cacheSize (crash hash cacheSize (run hash cacheSize (openOn cacheSize [] []) ops).1 str d k) reads).2 =
      (StringTableSpec.run (StringTableSpec.run [] ops).1 reads).2 := by
  obtain ⟨_, hI, hd⟩ := run_spec (hash := hash) (cap := cacheSize) (by decide) (inv_fresh hash cacheSize) rfl ops hv
  generalize (run hash cacheSize (openOn cacheSize [] []) ops).1 = s at hI hd
  generalize (StringTableSpec.run [] ops).1 = t at hI hd hr hsz
  have hcr : ∃ tail, Inv hash cacheSize tail (crash hash cacheSize s str d k) t := by
    by_cases hm : str ∈ t
    · obtain ⟨h1, h2, h3, h4⟩ := getId_known hI str hm
      refine ⟨[], ?_⟩
      simp only [crash, h3, h4, List.drop_length, List.take_nil, List.append_nil]
      exact hI.reopen
    · obtain ⟨h1, h2, h3, h4⟩ := getId_new hI str hm hnul (by omega)
      have hdrop2 : (getId hash s str).1.idx.drop s.idx.length =
          leBytes 4 (hash str).toNat ++ leBytes 4 s.dat.length := by
        rw [h4, List.drop_left']; rfl
      refine ⟨(leBytes 4 (hash str).toNat ++ leBytes 4 s.dat.length).take k, ?_⟩
      simp only [crash, hdrop2]
      rw [hI.idx, List.append_nil]
      refine inv_open hash _ _ _ _ _ (hI.good.append _) ?_ hI.nul hI.nodup
      simp; omega
  obtain ⟨tail, hI2⟩ := hcr
  generalize crash hash cacheSize s str d k = s2 at hI2
  clear hI hd
  induction reads generalizing s2 with
  | nil => rfl
  | cons op reads ih =>
    have hstep : (step hash cacheSize s2 op).2 = (StringTableSpec.step t op).2 ∧
        Inv hash cacheSize tail (step hash cacheSize s2 op).1 t ∧ (StringTableSpec.step t op).1 = t := by
      have hk := hr op (by simp)
      cases op with
      | getId x =>
        obtain ⟨h1, h2, _, _⟩ := getId_known hI2 x hk
        have hk' : x ∈ t := hk
        simp only [StringTableSpec.step, hk', if_true]
        exact ⟨h1, h2, trivial⟩
      | getString i =>
        have h := getString_spec (cap := cacheSize) (by decide) hI2 i hk
        have hx : t[i]? = some t[i] := List.getElem?_eq_getElem hk
        simp only [StringTableSpec.step, hx] at h ⊢
        exact ⟨h.1, h.2, trivial⟩
      | reopen => exact ⟨rfl, hI2.reopen, rfl⟩
    obtain ⟨h1, h2, h3⟩ := hstep
    simp only [run, StringTableSpec.run, h1, h3]
    rw [ih (fun op ho => hr op (List.mem_cons_of_mem _ ho)) _ h2]

/-- C05 is violated by a torn index record: the next record is appended behind the fragment, so after the next
restart the new string's id is gone and an id resolves to a wrong string. -/
theorem C05_violated_torn_index :
    let hash : Bytes → UInt32 := fun _ => 0
    let s0 := (run hash cacheSize (openOn cacheSize [] []) [.getId [97]]).1
    let s1 := crash hash cacheSize s0 [98] 2 4
    (run hash cacheSize s1 [.getId [99], .getString 1, .reopen, .getString 1]).2 =
      [.id 1, .str [99], .unit, .str [97]] := by
  decide +kernel

/-- C05 is violated when the index record reaches the disk before the data: looking up the half-written id puts the
data stream into the failed state and all old ids then read as empty strings. -/
theorem C05_violated_index_first :
    let hash : Bytes → UInt32 := fun _ => 0
    let s0 := (run hash cacheSize (openOn cacheSize [] []) [.getId [97]]).1
    let s1 := crash hash cacheSize s0 [98] 0 8
    (run hash cacheSize s1 [.getString 1, .getString 0]).2 = [.str [], .str []] := by
  decide +kernel

/-- Non-trivial case for `C05_crash_partial`: a crash with half of the data, then one with everything on disk. -/
example : CValid ⟨[], 0⟩ [.call (.getId [97]), .crash [98, 98] 1 0, .call (.getId [99]), .crash [98] 2 8,
    .call (.getString 2), .call (.getString 0)] ∧
    (crun ⟨[], 0⟩ [.call (.getId [97]), .crash [98, 98] 1 0, .call (.getId [99]), .crash [98] 2 8,
    .call (.getString 2), .call (.getString 0)]).2 = [.id 0, .unit, .id 1, .unit, .str [98], .str [97]] := by
  refine ⟨?_, by decide⟩
  simp [CValid, CValidOp, ValidOp, cstep, StringTableSpec.step, dataSize]

/-! ## C06 -/

open Verif.StringTableConc Verif.StringTableConcProof in
/-- C06. For every number of threads, all their programs and every schedule of their small steps: the results
returned so far are those of one sequential execution of the completed calls, in the order of completion (so calls
that do not overlap keep their order), and every thread's completed calls are a prefix of its program. -/
theorem C06_linearizable (hash : Bytes → UInt32) (s0 : State) (progs : Nat → List Call) (schedule : List Nat) :
    let c := Lock.exec (object hash) (Lock.start s0 progs) schedule
    (run hash cacheSize s0 (c.hist.map (fun e => toOp e.2.1))).2 = c.hist.map (fun e => e.2.2) ∧
    ∀ t, ((c.hist.filter (fun e => e.1 = t)).map (fun e => e.2.1)) <+: progs t := by
  intro c
  have h := LockProof.inv_exec (atomic hash cacheSize) s0 progs schedule
  refine ⟨?_, ?_⟩
  · have := h.outs
    rw [seq_eq_run, List.map_map] at this
    exact this
  · intro t
    have := h.progs t
    simp only [Lock.completed, List.map_map] at this
    exact ⟨_, this⟩

open Verif.StringTableConc in
/-- Non-trivial case for C06: two threads insert the same string; the steps are interleaved, thread 1 is blocked
while thread 0 holds the lock, and both get id 0. -/
example :
    (Lock.exec (object (fun _ => 7)) (Lock.start (openOn cacheSize [] [])
      (fun t => if t < 2 then [.getId [97]] else [])) [0, 1, 0, 1, 0, 1, 0, 0, 0, 1, 1, 1, 1]).hist.map (·.2.2) =
      [.id 0, .id 0] := by
  decide +kernel

end Verif.Props
