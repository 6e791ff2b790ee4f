import Verif.Proof.Lru
import Verif.Props.StringTableSpec

/-! Helper lemmas for C02-C06: invariant of the string table. -/
namespace Verif.StringTableProof
open Verif Verif.StringTable Verif.StringTableSpec Verif.LruProof

/-- Index file content for strings with these offsets. -/
def enc (hash : Bytes → UInt32) : List Bytes → List Nat → Bytes
  | s :: ss, o :: os => leBytes 4 (hash s).toNat ++ (leBytes 4 o ++ enc hash ss os)
  | _, _ => []

/-- Ids with the given hash. -/
def idsOf (hash : Bytes → UInt32) (h : UInt32) (i : Nat) : List Bytes → List Nat
  | [] => []
  | s :: ss => (if hash s = h then [i] else []) ++ idsOf hash h (i + 1) ss

theorem dataSize_append (t u : List Bytes) : dataSize (t ++ u) = dataSize t + dataSize u := by
  simp [dataSize]

theorem enc_append (hash : Bytes → UInt32) (t : List Bytes) (os : List Nat) (hl : os.length = t.length)
    (s : Bytes) (o : Nat) :
    enc hash (t ++ [s]) (os ++ [o]) = enc hash t os ++ leBytes 4 (hash s).toNat ++ leBytes 4 o := by
  induction t generalizing os with
  | nil => cases os with
    | nil => simp [enc]
    | cons o os => simp at hl
  | cons x t ih =>
    cases os with
    | nil => simp at hl
    | cons y os =>
      simp only [enc, List.cons_append, ih os (by simpa using hl), List.append_assoc]

theorem enc_length (hash : Bytes → UInt32) (t : List Bytes) (os : List Nat) (hl : os.length = t.length) :
    (enc hash t os).length = 8 * t.length := by
  induction t generalizing os with
  | nil => cases os <;> simp [enc]
  | cons x t ih =>
    cases os with
    | nil => simp at hl
    | cons o os => simp [enc, leBytes_length, ih os (by simpa using hl)]; omega

theorem idsOf_append (hash : Bytes → UInt32) (h : UInt32) (i : Nat) (t : List Bytes) (s : Bytes) :
    idsOf hash h i (t ++ [s]) = idsOf hash h i t ++ if hash s = h then [i + t.length] else [] := by
  induction t generalizing i with
  | nil => simp [idsOf]
  | cons x t ih =>
    simp only [idsOf, List.cons_append, ih, List.append_assoc, List.length_cons]
    have : i + 1 + t.length = i + (t.length + 1) := by omega
    rw [this]

theorem mem_idsOf (hash : Bytes → UInt32) (h : UInt32) (i : Nat) (t : List Bytes) (j : Nat) :
    j ∈ idsOf hash h i t ↔ ∃ n s, j = i + n ∧ t[n]? = some s ∧ hash s = h := by
  induction t generalizing i with
  | nil => simp [idsOf]
  | cons x t ih =>
    simp only [idsOf, List.mem_append, ih]
    constructor
    · rintro (hx | ⟨n, s, h1, h2, h3⟩)
      · by_cases hc : hash x = h
        · simp [hc] at hx; exact ⟨0, x, by omega, by simp, hc⟩
        · simp [hc] at hx
      · exact ⟨n + 1, s, by omega, by simpa using h2, h3⟩
    · rintro ⟨n, s, h1, h2, h3⟩
      cases n with
      | zero => left; simp at h2; subst h2; simp [h3, h1]
      | succ n => right; exact ⟨n, s, by omega, by simpa using h2, h3⟩

theorem takeWhile_stop (s rest : Bytes) (h : (0 : UInt8) ∉ s) :
    (s ++ 0 :: rest).takeWhile (· ≠ 0) = s := by
  induction s with
  | nil => simp
  | cons x s ih =>
    simp only [List.mem_cons, not_or] at h
    have : x ≠ 0 := fun he => h.1 he.symm
    simp only [List.cons_append, List.takeWhile_cons]
    rw [ih h.2]
    simp [this]

theorem cstr_eq (s : Bytes) (h : (0 : UInt8) ∉ s) : cstr s = s := by
  unfold cstr
  induction s with
  | nil => rfl
  | cons x s ih =>
    simp only [List.mem_cons, not_or] at h
    have : x ≠ 0 := fun he => h.1 he.symm
    simp only [List.takeWhile_cons, ne_eq, this, not_false_eq_true, decide_true, if_true]
    rw [ih h.2]

/-- Records written are read back. -/
theorem records_append (h : UInt32) (off : Nat) (hoff : off < 2 ^ 32) (rest : Bytes) :
    records (leBytes 4 h.toNat ++ (leBytes 4 off ++ rest)) = (h, off) :: records rest := by
  have e1 := leNat_leBytes 4 h.toNat
  have e2 := leNat_leBytes 4 off
  have hh : h.toNat < 2 ^ 32 := h.toNat_lt
  simp only [leBytes] at e1 e2 ⊢
  simp only [List.cons_append, List.nil_append, records, e1, e2]
  have a1 : h.toNat % 256 ^ 4 = h.toNat := Nat.mod_eq_of_lt (by omega)
  have a2 : off % 256 ^ 4 = off := Nat.mod_eq_of_lt (by omega)
  rw [a1, a2]
  simp

theorem records_enc (hash : Bytes → UInt32) (t : List Bytes) (os : List Nat) (hl : os.length = t.length)
    (tail : Bytes) (htail : tail.length < 8) (hb : ∀ o ∈ os, o < 2 ^ 32) :
    records (enc hash t os ++ tail) = (t.zip os).map (fun p => (hash p.1, p.2)) := by
  induction t generalizing os with
  | nil =>
    cases os with
    | cons o os => simp at hl
    | nil =>
    simp only [enc, List.nil_append, List.zip_nil_right, List.map_nil]
    match tail with
    | [] => rfl
    | [_] => rfl
    | [_, _] => rfl
    | [_, _, _] => rfl
    | [_, _, _, _] => rfl
    | [_, _, _, _, _] => rfl
    | [_, _, _, _, _, _] => rfl
    | [_, _, _, _, _, _, _] => rfl
    | _ :: _ :: _ :: _ :: _ :: _ :: _ :: _ :: _ => simp at htail; omega
  | cons x t ih =>
    cases os with
    | nil => simp at hl
    | cons o os =>
    simp only [enc, List.append_assoc]
    rw [records_append _ _ (hb o (by simp)), ih os (by simpa using hl) (fun o ho => hb o (by simp [ho]))]
    simp

theorem find_push (m : Assoc UInt32 (List Nat)) (h h' : UInt32) (i : Nat) :
    ((push m h i).find h').getD [] = (m.find h').getD [] ++ if h = h' then [i] else [] := by
  unfold push
  rw [Assoc.find_set]
  by_cases hh : h' = h
  · subst hh; simp
  · have : ¬ h = h' := fun e => hh e.symm
    simp [hh, this]

theorem find_buckets (hash : Bytes → UInt32) (t : List Bytes) (os : List Nat) (hl : os.length = t.length)
    (m : Assoc UInt32 (List Nat)) (i : Nat) (h : UInt32) :
    ((buckets m i ((t.zip os).map (fun p => (hash p.1, p.2)))).find h).getD [] =
      (m.find h).getD [] ++ idsOf hash h i t := by
  induction t generalizing os m i with
  | nil => simp [buckets, idsOf]
  | cons x t ih =>
    cases os with
    | nil => simp at hl
    | cons o os =>
      simp only [List.zip_cons_cons, List.map_cons, buckets, idsOf]
      rw [ih os (by simpa using hl), find_push, List.append_assoc]

/-- Offset table `os` is right for the data file `dat`. -/
def Good (dat : Bytes) (t : List Bytes) (os : List Nat) : Prop :=
  os.length = t.length ∧ (∀ o ∈ os, o < 2 ^ 32) ∧
  ∀ (i : Nat) (x : Bytes), t[i]? = some x → ∃ (off : Nat) (rest : Bytes), os[i]? = some off ∧ dat.drop off = x ++ 0 :: rest

/-- Invariant: the object and its files represent the list `t`; `tail` is what a torn write left at the end
of the index file; empty strings may be cached for the ids of `J`, which have no string. -/
structure InvJ (J : Nat → Prop) (hash : Bytes → UInt32) (cap : Nat) (tail : Bytes) (s : State) (t : List Bytes) : Prop where
  idx : s.idx = enc hash t s.offsets ++ tail
  tail8 : tail.length < 8
  good : Good s.dat t s.offsets
  fail : s.fail = false
  nextId : s.nextId = t.length
  map : ∀ h, (s.map.find h).getD [] = idsOf hash h 0 t
  cache : Holds (fun i v => t[i]? = some v ∨ (J i ∧ v = [])) cap s.cache
  away : ∀ i, J i → t.length ≤ i
  nul : ∀ x ∈ t, (0 : UInt8) ∉ x
  nodup : t.Nodup

/-- Only ids which have a string are asked for. -/
abbrev Inv := InvJ (fun _ => False)

theorem InvJ.value {J : Nat → Prop} {hash : Bytes → UInt32} {cap : Nat} {tail : Bytes} {s : State} {t : List Bytes} (hI : InvJ J hash cap tail s t) {i : Nat} {x v : Bytes}
    (hx : t[i]? = some x) (h : t[i]? = some v ∨ (J i ∧ v = [])) : v = x := by
  rcases h with h | ⟨h, -⟩
  · rw [hx] at h; exact (Option.some.inj h).symm
  · have := hI.away i h
    have := (List.getElem?_eq_some_iff.1 hx).1
    omega

theorem inv_open {J : Nat → Prop} (hash : Bytes → UInt32) (cap : Nat) (t : List Bytes) (os : List Nat) (dat tail : Bytes)
    (hg : Good dat t os) (htail : tail.length < 8) (nul : ∀ x ∈ t, (0 : UInt8) ∉ x) (nodup : t.Nodup)
    (hj : ∀ i, J i → t.length ≤ i := by intro _ h; exact h.elim) :
    InvJ J hash cap tail (openOn cap (enc hash t os ++ tail) dat) t := by
  have hr := records_enc hash t os hg.1 tail htail hg.2.1
  have ho : (openOn cap (enc hash t os ++ tail) dat).offsets = os := by
    simp only [openOn, hr, List.map_map]
    have : ((fun p : UInt32 × Nat => p.2) ∘ fun p : Bytes × Nat => (hash p.1, p.2)) = Prod.snd := rfl
    rw [this, List.map_snd_zip]
    rw [hg.1]; exact Nat.le_refl _
  refine ⟨?_, htail, ?_, rfl, ?_, ?_, ?_, hj, nul, nodup⟩
  · rw [ho]; rfl
  · rw [ho]; exact hg
  · have := enc_length hash t os hg.1
    simp only [openOn, List.length_append]; omega
  · intro h
    simp only [openOn, hr]
    rw [find_buckets hash t _ hg.1]
    simp [Assoc.find]
  · exact Holds.init _ _

theorem InvJ.reopen {J : Nat → Prop} {hash : Bytes → UInt32} {cap : Nat} {tail : Bytes} {s : State} {t : List Bytes}
    (hI : InvJ J hash cap tail s t) : InvJ J hash cap tail (openOn cap s.idx s.dat) t := by
  rw [hI.idx]
  exact inv_open hash cap t _ _ tail hI.good hI.tail8 hI.nul hI.nodup hI.away

theorem readString_known {J : Nat → Prop} {hash : Bytes → UInt32} {cap : Nat} {tail : Bytes} {s : State} {t : List Bytes}
    (hI : InvJ J hash cap tail s t) {i : Nat} {x : Bytes} (h : t[i]? = some x) :
    readString s i = (x, false) := by
  obtain ⟨off, rest, h1, h2⟩ := hI.good.2.2 i x h
  unfold readString
  rw [h1]
  simp only [hI.fail]
  simp only [Bool.false_eq_true, if_false, getline, h2]
  rw [takeWhile_stop]
  · simp
  · exact hI.nul x (List.mem_of_getElem? h)

theorem drop_append_of_drop {dat : Bytes} {off : Nat} {x rest : Bytes} (h : dat.drop off = x ++ 0 :: rest)
    (more : Bytes) : (dat ++ more).drop off = x ++ 0 :: (rest ++ more) := by
  have hlt : off < dat.length := by
    have := congrArg List.length h
    simp at this; omega
  rw [List.drop_append_of_le_length (by omega), h]
  simp

theorem Good.append {dat : Bytes} {t : List Bytes} {os : List Nat} (h : Good dat t os) (more : Bytes) :
    Good (dat ++ more) t os := by
  refine ⟨h.1, h.2.1, ?_⟩
  intro i x hx
  obtain ⟨off, rest, h1, h2⟩ := h.2.2 i x hx
  exact ⟨off, rest ++ more, h1, drop_append_of_drop h2 more⟩

theorem Good.push {dat : Bytes} {t : List Bytes} {os : List Nat} (h : Good dat t os) (str : Bytes)
    (hs : dat.length < 2 ^ 32) : Good (dat ++ str ++ [0]) (t ++ [str]) (os ++ [dat.length]) := by
  refine ⟨by simp [h.1], ?_, ?_⟩
  · intro o ho
    rcases List.mem_append.1 ho with ho | ho
    · exact h.2.1 o ho
    · simp at ho; omega
  · intro i x hx
    by_cases hi : i < t.length
    · rw [List.getElem?_append_left hi] at hx
      obtain ⟨off, rest, h1, h2⟩ := (h.append (str ++ [0])).2.2 i x hx
      refine ⟨off, rest, ?_, by rw [← h2, List.append_assoc]⟩
      rw [List.getElem?_append_left (by rw [h.1]; exact hi)]
      exact h1
    · have hlt := (List.getElem?_eq_some_iff.1 hx).1
      simp at hlt
      have : i = t.length := by omega
      subst this
      rw [List.getElem?_append_right (Nat.le_refl _)] at hx
      simp at hx
      subst hx
      refine ⟨dat.length, [], ?_, ?_⟩
      · rw [List.getElem?_append_right (by rw [h.1]; exact Nat.le_refl _)]
        simp [h.1]
      · rw [List.append_assoc, List.drop_left']
        rfl

theorem InvJ.withFail {J : Nat → Prop} {hash : Bytes → UInt32} {cap : Nat} {tail : Bytes} {s : State} {t : List Bytes}
    (hI : InvJ J hash cap tail s t) : ({ s with fail := false } : State) = s := by
  cases s; simp; exact hI.fail

theorem InvJ.withCache {J : Nat → Prop} {hash : Bytes → UInt32} {cap : Nat} {tail : Bytes} {s : State} {t : List Bytes}
    (hI : InvJ J hash cap tail s t) {c : Lru.State Nat Bytes} (hc : Holds (fun i v => t[i]? = some v ∨ (J i ∧ v = [])) cap c) :
    InvJ J hash cap tail { s with cache := c } t :=
  { idx := hI.idx, tail8 := hI.tail8, good := hI.good, fail := hI.fail, nextId := hI.nextId, map := hI.map,
    cache := hc, away := hI.away, nul := hI.nul, nodup := hI.nodup }

/-- The bucket scan finds the string if and only if it is known under one of the ids. -/
theorem scan_spec {J : Nat → Prop} {hash : Bytes → UInt32} {cap : Nat} {tail : Bytes} {s : State} {t : List Bytes} (str : Bytes)
    (ids : List Nat) (hids : ∀ i ∈ ids, ∃ x, t[i]? = some x) (hI : InvJ J hash cap tail s t) :
    ∃ s', InvJ J hash cap tail s' t ∧
      ((∃ i ∈ ids, t[i]? = some str ∧ scan s str ids = (s', some (some i))) ∨
       ((∀ i ∈ ids, t[i]? ≠ some str) ∧ scan s str ids = (s', some none) ∧ s' = s)) := by
  induction ids with
  | nil => exact ⟨s, hI, Or.inr ⟨by simp, rfl, rfl⟩⟩
  | cons i ids ih =>
    obtain ⟨x, hx⟩ := hids i (by simp)
    have hread := readString_known hI hx
    obtain ⟨s', hI', hcase⟩ := ih (fun j hj => hids j (List.mem_cons_of_mem _ hj))
    have hmiss : x ≠ str → scan s str (i :: ids) = scan s str ids := by
      intro hne
      have hne' : ¬ str = x := fun h => hne h.symm
      rcases hI.cache.cases i with hc | ⟨hc, v, hv, hp, hg, _, hpr⟩
      · simp only [scan, hit, hc, hread, hI.withFail, hne', if_false]
      · have hvx : v = x := hI.value hx hv
        subst hvx
        simp only [scan, hit, hc, hp, hread, hI.withFail, hne', hne, decide_false, if_false]
    have hhit : x = str → ∃ s'', InvJ J hash cap tail s'' t ∧ scan s str (i :: ids) = (s'', some (some i)) := by
      intro he
      rcases hI.cache.cases i with hc | ⟨hc, v, hv, hp, hg, _, hpr⟩
      · refine ⟨s, hI, ?_⟩
        simp only [scan, hit, hc, hread, hI.withFail, he, if_true]
      · have hvx : v = x := hI.value hx hv
        subst hvx
        refine ⟨{ s with cache := (Lru.step s.cache (.promote i)).1 }, hI.withCache hpr, ?_⟩
        simp only [scan, hit, hc, hp, he, decide_true]
    by_cases he : x = str
    · obtain ⟨s'', hI'', hscan⟩ := hhit he
      exact ⟨s'', hI'', Or.inl ⟨i, by simp, by rw [hx, he], hscan⟩⟩
    · have hm := hmiss he
      refine ⟨s', hI', ?_⟩
      rcases hcase with ⟨j, hj, hjt, hsc⟩ | ⟨hall, hsc, hss⟩
      · exact Or.inl ⟨j, List.mem_cons_of_mem _ hj, hjt, by rw [hm, hsc]⟩
      · refine Or.inr ⟨?_, by rw [hm, hsc], hss⟩
        intro j hj
        rcases List.mem_cons.1 hj with rfl | hj
        · rw [hx]; intro h; exact he (Option.some.inj h)
        · exact hall j hj

theorem scan_files (s : State) (str : Bytes) (ids : List Nat) :
    (scan s str ids).1.dat = s.dat ∧ (scan s str ids).1.idx = s.idx := by
  induction ids generalizing s with
  | nil => simp [scan]
  | cons i ids ih =>
    simp only [scan]
    split
    · simp
    · simp
    · split
      · simp
      · exact ih _

theorem idxOf_eq_of_getElem? {t : List Bytes} (hn : t.Nodup) {i : Nat} {s : Bytes}
    (h : t[i]? = some s) : s ∈ t ∧ t.idxOf s = i := by
  have hm := List.mem_of_getElem? h
  refine ⟨hm, ?_⟩
  obtain ⟨hi, he⟩ := List.getElem?_eq_some_iff.1 h
  rw [← he]
  exact hn.idxOf_getElem i hi

theorem ids_known {hash : Bytes → UInt32} {t : List Bytes} {h : UInt32} :
    ∀ i ∈ idsOf hash h 0 t, ∃ x, t[i]? = some x := by
  intro i hi
  obtain ⟨n, x, h1, h2, h3⟩ := (mem_idsOf ..).1 hi
  exact ⟨x, by rw [h1]; simpa using h2⟩

/-- A known string. -/
theorem getId_known {J : Nat → Prop} {hash : Bytes → UInt32} {cap : Nat} {tail : Bytes} {s : State} {t : List Bytes}
    (hI : InvJ J hash cap tail s t) (str : Bytes) (hm : str ∈ t) :
    (getId hash s str).2 = .id (t.idxOf str) ∧ InvJ J hash cap tail (getId hash s str).1 t ∧
    (getId hash s str).1.dat = s.dat ∧ (getId hash s str).1.idx = s.idx := by
  obtain ⟨s', hI', hcase⟩ := scan_spec str (idsOf hash (hash str) 0 t) ids_known hI
  have hfiles := scan_files s str (idsOf hash (hash str) 0 t)
  unfold getId
  simp only [hI.map]
  rcases hcase with ⟨i, hi, hit, hsc⟩ | ⟨hall, hsc, hss⟩
  · obtain ⟨_, hidx⟩ := idxOf_eq_of_getElem? hI.nodup hit
    rw [hsc] at hfiles
    simp only [hsc, hidx]
    exact ⟨trivial, hI', hfiles.1, hfiles.2⟩
  · exfalso
    obtain ⟨i, hi, he⟩ := List.getElem_of_mem hm
    refine hall i ((mem_idsOf ..).2 ⟨i, str, by omega, ?_, rfl⟩) ?_
    · rw [List.getElem?_eq_getElem hi, he]
    · rw [List.getElem?_eq_getElem hi, he]

/-- A new string. -/
theorem getId_new {J : Nat → Prop} {hash : Bytes → UInt32} {cap : Nat} {s : State} {t : List Bytes}
    (hI : InvJ J hash cap [] s t) (str : Bytes) (hnm : str ∉ t) (hnul : (0 : UInt8) ∉ str)
    (hsize : s.dat.length < 2 ^ 32) (hj : ¬ J t.length := by exact id) :
    (getId hash s str).2 = .id t.length ∧ InvJ J hash cap [] (getId hash s str).1 (t ++ [str]) ∧
    (getId hash s str).1.dat = s.dat ++ str ++ [0] ∧
    (getId hash s str).1.idx = s.idx ++ (leBytes 4 (hash str).toNat ++ leBytes 4 s.dat.length) := by
  obtain ⟨s', hI', hcase⟩ := scan_spec str (idsOf hash (hash str) 0 t) ids_known hI
  unfold getId
  simp only [hI.map]
  rcases hcase with ⟨i, hi, hit, hsc⟩ | ⟨hall, hsc, hss⟩
  · exact absurd (idxOf_eq_of_getElem? hI.nodup hit).1 hnm
  · subst hss
    simp only [hsc]
    have hoff : s'.dat.length % 2 ^ 32 = s'.dat.length := Nat.mod_eq_of_lt hsize
    have hdat : (writeString s' (hash str) str).dat = s'.dat ++ str ++ [0] := by
      simp only [writeString, hI'.fail, Bool.false_eq_true, if_false]
      rw [cstr_eq _ hnul]
    have hoffs : (writeString s' (hash str) str).offsets = s'.offsets ++ [s'.dat.length] := by
      simp only [writeString, hI'.fail, Bool.false_eq_true, if_false, hoff]
    have hidx : (writeString s' (hash str) str).idx =
        s'.idx ++ (leBytes 4 (hash str).toNat ++ leBytes 4 s'.dat.length) := by
      simp only [writeString, hI'.fail, Bool.false_eq_true, if_false, hoff, List.append_assoc]
    refine ⟨by simp [writeString, hI'.nextId], ⟨?_, hI'.tail8, ?_, ?_, ?_, ?_, ?_, ?_, ?_, ?_⟩, hdat, hidx⟩
    · simp only [hidx, hoffs]
      rw [enc_append _ _ _ hI'.good.1, hI'.idx]
      simp
    · simp only [hdat, hoffs]
      exact hI'.good.push str hsize
    · simp only [writeString, hI'.fail]
    · simp only [writeString, hI'.nextId, List.length_append, List.length_cons, List.length_nil]
    · intro h
      simp only [writeString]
      rw [find_push, hI'.map, idsOf_append, hI'.nextId, Nat.zero_add]
    · refine hI'.cache.mono ?_
      rintro i v (hi | hi)
      swap
      · exact .inr hi
      left
      have hlt := (List.getElem?_eq_some_iff.1 hi).1
      rw [List.getElem?_append_left hlt]
      exact hi
    · intro i hi
      have := hI'.away i hi
      have : i ≠ t.length := fun e => hj (e ▸ hi)
      simp only [List.length_append, List.length_singleton]
      omega
    · intro x hx
      rcases List.mem_append.1 hx with hx | hx
      · exact hI'.nul x hx
      · simp at hx; subst hx; exact hnul
    · rw [List.nodup_append]
      refine ⟨hI'.nodup, by simp, ?_⟩
      intro a ha b hb
      simp at hb; subst hb
      rintro rfl
      exact hnm ha

theorem getString_spec {J : Nat → Prop} {hash : Bytes → UInt32} {cap : Nat} (hcap : 1 ≤ cap) {tail : Bytes} {s : State} {t : List Bytes}
    (hI : InvJ J hash cap tail s t) (i : Nat) (hv : i < t.length) :
    (getString s i).2 = (StringTableSpec.step t (.getString i)).2 ∧
    InvJ J hash cap tail (getString s i).1 (StringTableSpec.step t (.getString i)).1 := by
  have hx : t[i]? = some t[i] := List.getElem?_eq_getElem hv
  have hread := readString_known hI hx
  simp only [StringTableSpec.step, hx]
  unfold getString
  rcases hI.cache.cases i with hc | ⟨hc, v, hv', hp, hg, hgI, hpr⟩
  · obtain ⟨h1, h2, h3⟩ := Holds.put hI.cache hcap (.inl hx)
    simp only [hc, hread, hI.withFail, cacheGet, h2]
    have hI2 := hI.withCache h3
    simp only [hI.fail] at hI2
    exact ⟨trivial, hI2⟩
  · have hvx : v = t[i] := hI.value hx hv'
    simp only [hc, cacheGet, hg, hvx]
    exact ⟨trivial, hI.withCache hgI⟩

theorem getString_files (s : State) (i : Nat) :
    (getString s i).1.dat = s.dat ∧ (getString s i).1.idx = s.idx := by
  simp only [getString, cacheGet]
  repeat' split
  all_goals simp

/-- A lookup of an id which has no string. -/
theorem getString_junk {J : Nat → Prop} {hash : Bytes → UInt32} {cap : Nat} (hcap : 1 ≤ cap) {tail : Bytes} {s : State} {t : List Bytes}
    (hI : InvJ J hash cap tail s t) (i : Nat) (hv : J i) :
    (getString s i).2 = .str [] ∧ InvJ J hash cap tail (getString s i).1 t := by
  have hlen := hI.away i hv
  have hread : readString s i = ([], false) := by
    unfold readString
    rw [List.getElem?_eq_none (by rw [hI.good.1]; exact hlen), hI.fail]
  unfold getString
  rcases hI.cache.cases i with hc | ⟨hc, v, hv', hp, hg, hgI, hpr⟩
  · obtain ⟨h1, h2, h3⟩ := Holds.put hI.cache hcap (k := i) (v := []) (.inr ⟨hv, rfl⟩)
    simp only [hc, hread, hI.withFail, cacheGet, h2]
    have hI2 := hI.withCache h3
    simp only [hI.fail] at hI2
    exact ⟨trivial, hI2⟩
  · have hvx : v = [] := by
      rcases hv' with h | h
      · have := (List.getElem?_eq_some_iff.1 h).1
        omega
      · exact h.2
    simp only [hc, cacheGet, hg, hvx]
    exact ⟨trivial, hI.withCache hgI⟩

/-- Invariant together with the exact size of the data file (no crash garbage). -/
theorem step_junk {J : Nat → Prop} {hash : Bytes → UInt32} {cap : Nat} (hcap : 1 ≤ cap) {s : State} {t : List Bytes}
    (hI : InvJ J hash cap [] s t) (hd : s.dat.length = dataSize t) (op : Op) (hv : LateOp J t op) :
    (StringTable.step hash cap s op).2 = (StringTableSpec.step t op).2 ∧
    InvJ J hash cap [] (StringTable.step hash cap s op).1 (StringTableSpec.step t op).1 ∧
    (StringTable.step hash cap s op).1.dat.length = dataSize (StringTableSpec.step t op).1 := by
  cases op with
  | getId str =>
    by_cases hm : str ∈ t
    · obtain ⟨h1, h2, h3, _⟩ := getId_known hI str hm
      simp only [StringTable.step, StringTableSpec.step, hm, if_true]
      exact ⟨h1, h2, by rw [h3, hd]⟩
    · have hs : dataSize t + str.length + 1 ≤ 2 ^ 32 := by
        have := hv.2.1; rw [dataSize_append] at this; simp [dataSize] at this ⊢; omega
      obtain ⟨h1, h2, h3, _⟩ := getId_new hI str hm hv.1 (by omega) (hv.2.2 hm)
      simp only [StringTable.step, StringTableSpec.step, hm, if_false]
      refine ⟨h1, h2, ?_⟩
      rw [h3, dataSize_append]
      simp [hd, dataSize]
  | getString i =>
    rcases hv with hv | hv
    · obtain ⟨h1, h2⟩ := getString_spec hcap hI i hv
      have hx : t[i]? = some t[i] := List.getElem?_eq_getElem hv
      refine ⟨h1, h2, ?_⟩
      simp only [StringTable.step, StringTableSpec.step, hx, (getString_files s i).1, hd]
    · obtain ⟨h1, h2⟩ := getString_junk hcap hI i hv
      have hx : t[i]? = none := List.getElem?_eq_none (hI.away i hv)
      simp only [StringTable.step, StringTableSpec.step, hx]
      exact ⟨h1, h2, by rw [(getString_files s i).1, hd]⟩
  | reopen => exact ⟨rfl, hI.reopen, hd⟩

theorem run_junk {J : Nat → Prop} {hash : Bytes → UInt32} {cap : Nat} (hcap : 1 ≤ cap) {s : State} {t : List Bytes}
    (hI : InvJ J hash cap [] s t) (hd : s.dat.length = dataSize t) (ops : List Op) (hv : Late J t ops) :
    (StringTable.run hash cap s ops).2 = (StringTableSpec.run t ops).2 ∧
    InvJ J hash cap [] (StringTable.run hash cap s ops).1 (StringTableSpec.run t ops).1 ∧
    (StringTable.run hash cap s ops).1.dat.length = dataSize (StringTableSpec.run t ops).1 := by
  induction ops generalizing s t with
  | nil => exact ⟨rfl, hI, hd⟩
  | cons op ops ih =>
    obtain ⟨h1, h2, h2'⟩ := step_junk hcap hI hd op hv.1
    obtain ⟨h3, h4, h5⟩ := ih h2 h2' hv.2
    exact ⟨by simp only [StringTable.run, StringTableSpec.run, h1, h3], h4, h5⟩

theorem late_of_valid {t : List Bytes} {op : Op} (h : ValidOp t op) : LateOp (fun _ => False) t op := by
  cases op with
  | getId s => exact ⟨h.1, h.2, fun _ => id⟩
  | getString i => exact .inl h
  | reopen => trivial

theorem lates_of_valid {t : List Bytes} {ops : List Op} (h : Valid t ops) : Late (fun _ => False) t ops := by
  induction ops generalizing t with
  | nil => trivial
  | cons op ops ih => exact ⟨late_of_valid h.1, ih h.2⟩

theorem step_spec {hash : Bytes → UInt32} {cap : Nat} (hcap : 1 ≤ cap) {s : State} {t : List Bytes}
    (hI : Inv hash cap [] s t) (hd : s.dat.length = dataSize t) (op : Op) (hv : ValidOp t op) :
    (StringTable.step hash cap s op).2 = (StringTableSpec.step t op).2 ∧
    Inv hash cap [] (StringTable.step hash cap s op).1 (StringTableSpec.step t op).1 ∧
    (StringTable.step hash cap s op).1.dat.length = dataSize (StringTableSpec.step t op).1 :=
  step_junk hcap hI hd op (late_of_valid hv)

theorem run_spec {hash : Bytes → UInt32} {cap : Nat} (hcap : 1 ≤ cap) {s : State} {t : List Bytes}
    (hI : Inv hash cap [] s t) (hd : s.dat.length = dataSize t) (ops : List Op) (hv : Valid t ops) :
    (StringTable.run hash cap s ops).2 = (StringTableSpec.run t ops).2 ∧
    Inv hash cap [] (StringTable.run hash cap s ops).1 (StringTableSpec.run t ops).1 ∧
    (StringTable.run hash cap s ops).1.dat.length = dataSize (StringTableSpec.run t ops).1 :=
  run_junk hcap hI hd ops (lates_of_valid hv)

theorem inv_blank (J : Nat → Prop) (hash : Bytes → UInt32) (cap : Nat) : InvJ J hash cap [] (openOn cap [] []) [] := by
  have := inv_open (J := J) hash cap [] [] [] [] ⟨rfl, by simp, by simp⟩ (by simp) (by simp) (by simp) (by simp)
  simpa [enc] using this

theorem inv_fresh (hash : Bytes → UInt32) (cap : Nat) : Inv hash cap [] (openOn cap [] []) [] := inv_blank _ hash cap

end Verif.StringTableProof
