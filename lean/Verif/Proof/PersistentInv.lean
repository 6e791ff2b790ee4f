import Verif.Proof.PersistentStore

/-! The invariant of the persistent store. -/
namespace Verif.PersistentStore
open Verif.BitmapIndex (Bitmap Terms Indexed BitsOf)
open Verif.Props.StoreSpec (Event holds)
open Verif.Props.PersistentSpec (Flags Track)
open Verif.Ewah (Ewah Sane maxLit)
open Verif.Streams (Coord Bitset readLe readElement writeElement readBitmap writeBitmap)
open Verif.StreamsSpec (Fits)

variable (bad : UInt32 → Prop) (tokens : El → List UInt32)

/-- The bitmap answers searches like one made without interruption. -/
def Searchable (els : List El) (bm : Bitmap) : Prop := ∃ bm0, Indexed bad tokens els bm0 ∧ SameBits bad bm bm0

/-- The files of a tile holding `els`. -/
structure DiskOk (f : Files) (els : List El) (dmg : Prop) : Prop where
  dat : f.dat = dataBytes els
  idx : f.idx = indexBytes 0 els
  none : f.bmp = none → els = []
  some : ∀ b, f.bmp = some b → els ≠ [] ∧ ∃ bm, b = writeBitmap (toBitsets bm) ∧ BmOk bad bm els.length ∧
    (¬ dmg → Searchable bad tokens els bm)

/-- An open tile holding `els`. -/
structure OpenOk (h : Handle) (fl : Flags) (els : List El) (dmg : Prop) : Prop where
  pos : fl.atEnd = true → h.dPos = (dataBytes els).length ∧ h.iPos = 12 * els.length
  fresh : fl.fresh = true → ¬ dmg ∧ (h.bitmap = [] → els = [])
  bm : h.bitmap = [] ∨ (BmOk bad h.bitmap els.length ∧ (¬ dmg → Searchable bad tokens els h.bitmap) ∧
    (fl.fresh = true → Indexed bad tokens els h.bitmap))

/-- An entry of the cache. -/
def HOk (els : QuadKey → List El) (dmg files : QuadKey → Prop) (c : QuadKey × Handle) (o : QuadKey × Flags) : Prop :=
  c.1 = o.1 ∧ files c.1 ∧ OpenOk bad tokens c.2 o.2 (els c.1) (dmg c.1)

structure Inv (s : Store) (h : List (Event El)) (t : Track) : Prop where
  good : ∀ q, Good (holds q h)
  damaged : ∀ q ∈ t.damaged, holds q h ≠ []
  files : ∀ q, (s.disk.find q).isSome = true ↔ q ∈ t.files
  disk : ∀ q, DiskOk bad tokens (filesOf s.disk q) (holds q h) (q ∈ t.damaged)
  cache : List.Forall₂ (HOk bad tokens (fun q => holds q h) (· ∈ t.damaged) (· ∈ t.files)) s.cache t.opened
  nodup : (s.cache.map (·.1)).Nodup

variable {bad tokens}

theorem HOk.mono {els els' : QuadKey → List El} {dmg dmg' files files' : QuadKey → Prop} {c : QuadKey × Handle}
    {o : QuadKey × Flags} (h : HOk bad tokens els dmg files c o) (h1 : els' c.1 = els c.1) (h2 : dmg' c.1 ↔ dmg c.1)
    (h3 : files c.1 → files' c.1) : HOk bad tokens els' dmg' files' c o := by
  obtain ⟨a, b, c'⟩ := h
  refine ⟨a, h3 b, ?_⟩
  rw [h1, propext h2]
  exact c'

theorem forall2_find {R : QuadKey × Handle → QuadKey × Flags → Prop} (hR : ∀ a b, R a b → a.1 = b.1) (q : QuadKey) :
    ∀ {c : List (QuadKey × Handle)} {o : List (QuadKey × Flags)}, List.Forall₂ R c o →
    (Assoc.find c q = none ∧ Assoc.find o q = none) ∨ ∃ h f, Assoc.find c q = some h ∧ Assoc.find o q = some f ∧ R (q, h) (q, f) := by
  intro c o hf
  induction hf with
  | nil => exact .inl ⟨rfl, rfl⟩
  | @cons a b l m hab _ ih =>
    obtain ⟨a1, a2⟩ := a; obtain ⟨b1, b2⟩ := b
    have := hR _ _ hab
    simp only at this
    subst this
    rw [Assoc.find_cons, Assoc.find_cons]
    by_cases hq : a1 = q
    · subst hq; exact .inr ⟨a2, b2, by simp, by simp, hab⟩
    · simp only [hq, if_false]; exact ih

theorem forall2_erase {R : QuadKey × Handle → QuadKey × Flags → Prop} (hR : ∀ a b, R a b → a.1 = b.1) (q : QuadKey) :
    ∀ {c : List (QuadKey × Handle)} {o : List (QuadKey × Flags)}, List.Forall₂ R c o →
    List.Forall₂ R (Assoc.erase c q) (Assoc.erase o q) := by
  intro c o hf
  induction hf with
  | nil => exact .nil
  | @cons a b l m hab _ ih =>
    have := hR _ _ hab
    unfold Assoc.erase at *
    rw [List.filter_cons, List.filter_cons, ← this]
    split
    · exact .cons hab ih
    · exact ih

theorem forall2_imp_mem {R S : QuadKey × Handle → QuadKey × Flags → Prop} :
    ∀ {c : List (QuadKey × Handle)} {o : List (QuadKey × Flags)}, (∀ a ∈ c, ∀ b, R a b → S a b) → List.Forall₂ R c o →
    List.Forall₂ S c o := by
  intro c o hi hf
  induction hf with
  | nil => exact .nil
  | cons hab _ ih => exact .cons (hi _ (by simp) _ hab) (ih fun a ha => hi a (by simp [ha]))

theorem filesOf_of_find {disk disk' : Assoc QuadKey Files} {q : QuadKey} {f : Files} (hf : f = filesOf disk q)
    (h : ∀ q', disk'.find q' = if q' = q then some f else disk.find q') (q' : QuadKey) :
    filesOf disk' q' = filesOf disk q' := by
  unfold filesOf at *
  rw [h]
  split
  · subst q'; simp [hf]
  · rfl

theorem openTile_spec {s : Store} {h : List (Event El)} {t : Track} (hi : Inv bad tokens s h t) (q : QuadKey) :
    ∃ hd rest disk, openTile s q = (hd, filesOf s.disk q, rest, disk) ∧
      OpenOk bad tokens hd (t.touch q (holds q h).isEmpty).1 (holds q h) (q ∈ t.damaged) ∧
      List.Forall₂ (HOk bad tokens (fun q => holds q h) (· ∈ t.damaged) (· ∈ t.files)) rest (t.touch q (holds q h).isEmpty).2 ∧
      (rest.map (·.1)).Nodup ∧ (∀ e ∈ rest, e.1 ≠ q) ∧
      ∀ q', disk.find q' = if q' = q then some (filesOf s.disk q) else s.disk.find q' := by
  unfold openTile Track.touch
  rcases forall2_find (fun a b hab => hab.1) q hi.cache with ⟨h1, h2⟩ | ⟨hd, fl, h1, h2, h3⟩
  · rw [h1, h2]
    refine ⟨_, _, _, rfl, ?_, ?_, ?_, ?_, ?_⟩
    · have hd := hi.disk q
      refine ⟨fun _ => ⟨by rw [hd.dat], by rw [hd.idx, indexBytes_length]⟩, ?_, .inl rfl⟩
      intro hf
      have he : holds q h = [] := by simpa using hf
      exact ⟨fun hc => hi.damaged q hc he, fun _ => he⟩
    · exact List.forall₂_take _ hi.cache
    · exact hi.nodup.sublist ((List.take_sublist _ _).map _)
    · intro e he
      exact (Assoc.find_eq_none_iff _ _).1 h1 e (List.mem_of_mem_take he)
    · intro q'; rw [Assoc.find_set]
  · rw [h1, h2]
    refine ⟨_, _, _, rfl, h3.2.2, forall2_erase (fun a b hab => hab.1) q hi.cache, ?_, ?_, ?_⟩
    · exact hi.nodup.sublist (List.filter_sublist.map _)
    · intro e he; simp [Assoc.erase] at he; exact he.2
    · intro q'
      split
      · subst q'
        have := (hi.files q).2 h3.2.1
        cases hf : s.disk.find q with
        | none => rw [hf] at this; cases this
        | some f => simp [filesOf, hf]
      · rfl

theorem loadBitmap_spec {h : Handle} {fl : Flags} {f : Files} {els : List El} {dmg : Prop} (ho : OpenOk bad tokens h fl els dmg)
    (hd : DiskOk bad tokens f els dmg) (hg : Good els) {g : UInt32} (hb : bad g) :
    ∃ bm, loadBitmap g h f = some bm ∧ BmOk bad bm els.length ∧ (¬ dmg → Searchable bad tokens els bm) ∧
      (fl.fresh = true → Indexed bad tokens els bm) := by
  unfold loadBitmap
  by_cases hbm : h.bitmap = []
  · rw [if_pos hbm]
    cases hf : f.bmp with
    | none =>
      have he := hd.none hf
      subst he
      have hr : (readBitmap g (Option.getD (none : Option Bytes) [])).map ofBitsets = some [(g, ⟨[], 0, 0⟩)] := by
        simp [readBitmap, Streams.readBitmapLoop, ofBitsets, ofBitset, Assoc.emplace, Assoc.find]
      have hix : Indexed bad tokens [] [(g, (⟨[], 0, 0⟩ : Ewah))] := by
        intro t ht
        have hgt : g ≠ t := fun h => ht (h ▸ hb)
        rw [Assoc.find_cons, if_neg hgt]
        simp [Assoc.find]
      rw [hr]
      refine ⟨_, rfl, ⟨by simp, by simp, ?_⟩, fun _ => ⟨_, hix, fun _ _ => rfl⟩, fun _ => hix⟩
      intro e he
      simp only [List.mem_singleton] at he
      subst he
      exact ⟨Nat.le_refl _, by simp, fun h => absurd hb h⟩
    | some b =>
      obtain ⟨hne, bm, rfl, b1, b2⟩ := hd.some b hf
      rw [Option.getD_some, readBitmap_toBitsets b1 (by have := hg.length; omega)]
      refine ⟨_, rfl, b1.reload, ?_, ?_⟩
      · intro hdm
        obtain ⟨bm0, c1, c2⟩ := b2 hdm
        exact ⟨bm0, c1, fun t ht => (reload_find b1.nodup t).trans (c2 t ht)⟩
      · intro hfr
        exact absurd ((ho.fresh hfr).2 hbm) hne
  · rw [if_neg hbm]
    rcases ho.bm with h1 | ⟨h1, h2, h3⟩
    · exact absurd h1 hbm
    · exact ⟨_, rfl, h1, h2, h3⟩

theorem Inv.init : Inv bad tokens init [] Track.start := by
  refine ⟨fun q => Good.nil, by simp [Track.start], ?_, ?_, .nil, by simp [PersistentStore.init]⟩
  · intro q; simp [PersistentStore.init, Assoc.find, Track.start]
  · intro q
    refine ⟨rfl, rfl, fun _ => rfl, ?_⟩
    intro b hb
    simp [PersistentStore.init, filesOf, Assoc.find] at hb

theorem Inv.save {s : Store} {h : List (Event El)} {t : Track} (hi : Inv bad tokens s h t) {q : QuadKey} {e : El} {g : UInt32}
    (hg : bad g) (ht : ∀ u ∈ tokens e, ¬ bad u) (hf : Fits e) (hs : (dataBytes (holds q h)).length < 2 ^ 32)
    (ha : (t.touch q (holds q h).isEmpty).1.atEnd = true) :
    ∃ s', save tokens g s q e = .ok s' ∧ Inv bad tokens s' (.saved q e :: h) (t.next h (.save q e)) := by
  obtain ⟨hd, rest, disk, e1, e2, e3, e4, e5, e6⟩ := openTile_spec hi q
  have hdk := hi.disk q
  obtain ⟨p1, p2⟩ := e2.pos ha
  obtain ⟨bm, l1, l2, l3, l4⟩ := loadBitmap_spec e2 hdk (hi.good q) hg
  obtain ⟨bm', a1, a2⟩ := l2.add (tokens e) ht
  have hlen := (hi.good q).length
  have hord : hd.iPos / 12 % 2 ^ 32 = (holds q h).length := by
    rw [p2, Nat.mul_div_cancel_left _ (by decide), Nat.mod_eq_of_lt (by omega)]
  have hoff : hd.dPos % 2 ^ 32 = (dataBytes (holds q h)).length := by rw [p1, Nat.mod_eq_of_lt hs]
  have hdat : (filesOf s.disk q).dat ++ writeElement e = dataBytes (holds q h ++ [e]) := by
    rw [hdk.dat, dataBytes_append]; simp [dataBytes]
  have hidx : (filesOf s.disk q).idx ++ (leBytes 8 e.id.toNat ++ leBytes 4 (dataBytes (holds q h)).length) =
      indexBytes 0 (holds q h ++ [e]) := by
    rw [hdk.idx, indexBytes_append]; simp [indexBytes]
  have hhold : holds q (.saved q e :: h) = holds q h ++ [e] := by simp [holds]
  have hhold' : ∀ q', q' ≠ q → holds q' (.saved q e :: h) = holds q' h := by
    intro q' hq; rw [holds, if_neg (fun hc => hq hc.symm)]
  have hdm : ∀ q', q' ≠ q → (q' ∈ (t.next h (.save q e)).damaged ↔ q' ∈ t.damaged) := by
    intro q' hq
    simp only [Track.next]
    split
    · rfl
    · simp [hq]
  have hdq : q ∉ (t.next h (.save q e)).damaged → (t.touch q (holds q h).isEmpty).1.fresh = true := by
    intro hc
    by_contra hn
    apply hc
    simp [Track.next, hn]
  have hdf : (t.touch q (holds q h).isEmpty).1.fresh = true → q ∉ (t.next h (.save q e)).damaged := by
    intro hc
    simp only [Track.next, hc, if_true]
    exact (e2.fresh hc).1
  have hix : (t.touch q (holds q h).isEmpty).1.fresh = true → Indexed bad tokens (holds q h ++ [e]) bm' := by
    intro hc
    obtain ⟨b, c1, c2⟩ := BitmapIndex.add_indexed (l4 hc) e ht
    rw [a1] at c1
    cases c1
    exact c2
  have hok : OpenOk bad tokens ⟨(dataBytes (holds q h ++ [e])).length, (indexBytes 0 (holds q h ++ [e])).length, bm'⟩
      ⟨true, (t.touch q (holds q h).isEmpty).1.fresh⟩ (holds q h ++ [e]) (q ∈ (t.next h (.save q e)).damaged) := by
    refine ⟨fun _ => ⟨rfl, indexBytes_length _ _⟩, fun hc => ⟨hdf hc, fun hb => absurd hb a2.ne⟩, .inr ⟨?_, ?_, hix⟩⟩
    · simpa using a2
    · intro hc; exact ⟨bm', hix (hdq hc), fun _ _ => rfl⟩
  refine ⟨_, by simp only [PersistentStore.save, e1, l1, hord, hoff, a1, hdat, hidx]; rfl, ?_, ?_, ?_, ?_, ?_, ?_⟩
  · intro q'
    by_cases hq : q' = q
    · subst hq; rw [hhold]; exact (hi.good q').snoc hf hs
    · rw [hhold' q' hq]; exact hi.good q'
  · intro q' hq'
    by_cases hq : q' = q
    · subst hq; rw [hhold]; simp
    · rw [hhold' q' hq]; exact hi.damaged q' ((hdm q' hq).1 hq')
  · intro q'
    rw [Assoc.find_set, e6]
    by_cases hq : q' = q
    · subst hq; simp [Track.next]
    · simp only [if_neg hq, Track.next, List.mem_cons, hq, false_or]; exact hi.files q'
  · intro q'
    by_cases hq : q' = q
    · subst hq
      have : filesOf (disk.set q' ⟨dataBytes (holds q' h ++ [e]), indexBytes 0 (holds q' h ++ [e]), some (writeBitmap (toBitsets bm'))⟩) q' =
          ⟨dataBytes (holds q' h ++ [e]), indexBytes 0 (holds q' h ++ [e]), some (writeBitmap (toBitsets bm'))⟩ := by
        simp [filesOf, Assoc.find_set]
      rw [this, hhold]
      refine ⟨rfl, rfl, by simp, ?_⟩
      intro b hb
      cases hb
      refine ⟨by simp, bm', rfl, by simpa using a2, fun hc => ⟨bm', hix (hdq hc), fun _ _ => rfl⟩⟩
    · have : filesOf (disk.set q ⟨dataBytes (holds q h ++ [e]), indexBytes 0 (holds q h ++ [e]), some (writeBitmap (toBitsets bm'))⟩) q' =
          filesOf s.disk q' := by
        unfold filesOf; rw [Assoc.find_set, if_neg hq, e6, if_neg hq]
      rw [this, hhold' q' hq, propext (hdm q' hq)]
      exact hi.disk q'
  · refine .cons ⟨rfl, by simp [Track.next], ?_⟩ ?_
    · simp only [hhold]; exact hok
    · refine forall2_imp_mem ?_ e3
      intro a ha b hab
      have hq := e5 a ha
      exact hab.mono (hhold' _ hq) (hdm _ hq) (fun h => by simp [Track.next, h])
  · simp only [List.map_cons, List.nodup_cons]
    refine ⟨?_, e4⟩
    intro hc
    rw [List.mem_map] at hc
    obtain ⟨a, h1, h2⟩ := hc
    exact e5 a h1 h2

/-- Using a tile without changing its content: new handle, new flags. -/
theorem Inv.use {s : Store} {h : List (Event El)} {t : Track} (hi : Inv bad tokens s h t) {q : QuadKey}
    {hd hd' : Handle} {rest : List (QuadKey × Handle)} {disk : Assoc QuadKey Files} {fl : Flags} {files' : List QuadKey}
    (e3 : List.Forall₂ (HOk bad tokens (fun q => holds q h) (· ∈ t.damaged) (· ∈ t.files)) rest (t.touch q (holds q h).isEmpty).2)
    (e4 : (rest.map (·.1)).Nodup) (e5 : ∀ e ∈ rest, e.1 ≠ q)
    (e6 : ∀ q', disk.find q' = if q' = q then some (filesOf s.disk q) else s.disk.find q')
    (hok : OpenOk bad tokens hd' fl (holds q h) (q ∈ t.damaged)) (hfs : ∀ q', q' ∈ files' ↔ q' = q ∨ q' ∈ t.files) :
    Inv bad tokens ⟨disk, (q, hd') :: rest⟩ h ⟨(q, fl) :: (t.touch q (holds q h).isEmpty).2, t.damaged, files'⟩ := by
  refine ⟨hi.good, hi.damaged, ?_, ?_, .cons ⟨rfl, (hfs q).2 (.inl rfl), hok⟩ ?_, ?_⟩
  · intro q'
    simp only [e6, hfs]
    by_cases hq : q' = q
    · simp [hq]
    · simp only [if_neg hq, hq, false_or]; exact hi.files q'
  · intro q'
    simp only [filesOf_of_find rfl e6]
    exact hi.disk q'
  · refine forall2_imp_mem ?_ e3
    intro a _ b hab
    exact hab.mono rfl Iff.rfl (fun h => (hfs _).2 (.inr h))
  · simp only [List.map_cons, List.nodup_cons]
    refine ⟨?_, e4⟩
    intro hc
    rw [List.mem_map] at hc
    obtain ⟨a, h1, h2⟩ := hc
    exact e5 a h1 h2

theorem Inv.searchTile {s : Store} {h : List (Event El)} {t : Track} (hi : Inv bad tokens s h t) {q : QuadKey} (c : Option Nat)
    (ha : (t.touch q (holds q h).isEmpty).1.atEnd = true) :
    ∃ s', searchTile s q c = .ok (s', match c with | none => holds q h | some n => (holds q h).take n) ∧
      Inv bad tokens s' h (t.next h (.tile q c)) := by
  obtain ⟨hd, rest, disk, e1, e2, e3, e4, e5, e6⟩ := openTile_spec hi q
  have hdk := hi.disk q
  obtain ⟨p1, p2⟩ := e2.pos ha
  have hlen := (hi.good q).length
  have hord : hd.iPos / 12 % 2 ^ 32 = (holds q h).length := by
    rw [p2, Nat.mul_div_cancel_left _ (by decide), Nat.mod_eq_of_lt (by omega)]
  have hfe : filesOf s.disk q = ⟨dataBytes (holds q h), indexBytes 0 (holds q h), (filesOf s.disk q).bmp⟩ := by
    rw [← hdk.dat, ← hdk.idx]
  have hnil : (holds q h).length = 0 → (dataBytes (holds q h)).length = 0 := by
    intro h0; rw [List.length_eq_zero_iff.1 h0]; rfl
  have hend : ∀ {h' : Handle} {fl : Flags}, fl.fresh = (t.touch q (holds q h).isEmpty).1.fresh →
      h'.bitmap = hd.bitmap → (fl.atEnd = true → h'.iPos = 12 * (holds q h).length ∧
        h'.dPos = if (holds q h).length = 0 then hd.dPos else (dataBytes (holds q h)).length) →
      OpenOk bad tokens h' fl (holds q h) (q ∈ t.damaged) := by
    intro h' fl h1 h2 h3
    refine ⟨?_, by rw [h1, h2]; exact e2.fresh, by rw [h1, h2]; exact e2.bm⟩
    intro h4
    obtain ⟨h5, h6⟩ := h3 h4
    refine ⟨?_, h5⟩
    rw [h6]
    split
    · exact p1
    · rfl
  cases c with
  | none =>
    obtain ⟨h', r1, r2, r3, r4⟩ := readMany_spec (hi.good q) (filesOf s.disk q).bmp (holds q h).length 0 (by omega)
      { hd with iPos := 0 } (by simp)
    rw [← hfe, List.drop_zero] at r1
    refine ⟨_, by simp only [PersistentStore.searchTile, e1, hord, r1, Outcome.bind]; rfl, ?_⟩
    apply hi.use (hd := hd) e3 e4 e5 e6
    · exact hend rfl r2 (fun _ => ⟨r3, r4⟩)
    · intro q'; exact List.mem_cons
  | some n =>
    obtain ⟨h', r1, r2, r3⟩ := readMany_cancel (hi.good q) (filesOf s.disk q).bmp (holds q h).length 0 n (by omega)
      { hd with iPos := 0 } (by simp)
    rw [← hfe, List.drop_zero] at r1
    refine ⟨_, by simp only [PersistentStore.searchTile, e1, hord, r1, Outcome.bind]; rfl, ?_⟩
    apply hi.use (hd := hd) e3 e4 e5 e6
    · refine hend rfl r2 (fun hc => r3 ?_)
      simpa using hc
    · intro q'; exact List.mem_cons

theorem Inv.searchTextTile {s : Store} {h : List (Event El)} {t : Track} (hi : Inv bad tokens s h t) {q : QuadKey} (terms : Terms)
    {g : QuadKey → UInt32} (hg : bad (g q)) (h1 : ∀ u ∈ terms.or, ¬ bad u) (h2 : ∀ u ∈ terms.and, ¬ bad u)
    (h3 : ∀ u ∈ terms.not, ¬ bad u) (hl : terms.not = [] ∨ (holds q h).length ≤ 32 * maxLit) (hdm : q ∉ t.damaged)
    (P : El → Prop) [DecidablePred P] (hP : ∀ e ∈ holds q h, BitmapIndex.Selects tokens (holds q h) terms e ↔ P e) :
    ∃ s', searchTextTile g s terms q = .ok (s', (holds q h).filter fun e => decide (P e)) ∧
      Inv bad tokens s' h (t.visit h q) := by
  unfold PersistentStore.searchTextTile Track.visit PersistentStore.hasData
  by_cases hq : q ∈ t.files
  · rw [if_pos ((hi.files q).2 hq), if_pos hq]
    obtain ⟨hd, rest, disk, e1, e2, e3, e4, e5, e6⟩ := openTile_spec hi q
    have hdk := hi.disk q
    obtain ⟨bm, l1, l2, l3, l4⟩ := loadBitmap_spec e2 hdk (hi.good q) hg
    obtain ⟨bm0, b1, b2⟩ := l3 hdm
    obtain ⟨os, o1, o2, o3⟩ := BitmapIndex.search_spec b1 terms h1 h2 h3 hl
    have hsr : BitmapIndex.search bm terms = some os := by rw [search_same b2 terms h1 h2 h3, o1]
    have hfetch : MemStore.fetch (holds q h) os = .ok ((holds q h).filter fun e => decide (P e)) := by
      apply MemStore.fetch_filter _ _ _ o2
      intro k
      rw [o3]
      constructor
      · rintro ⟨e, he, hp⟩; exact ⟨e, he, (hP e (List.mem_of_getElem? he)).1 hp⟩
      · rintro ⟨e, he, hp⟩; exact ⟨e, he, (hP e (List.mem_of_getElem? he)).2 hp⟩
    obtain ⟨h', r1, r2⟩ := readOrders_spec (hi.good q) (filesOf s.disk q).bmp os hfetch { hd with bitmap := bm }
    have hfe : filesOf s.disk q = ⟨dataBytes (holds q h), indexBytes 0 (holds q h), (filesOf s.disk q).bmp⟩ := by
      rw [← hdk.dat, ← hdk.idx]
    rw [← hfe] at r1
    refine ⟨_, by simp only [e1, l1, hsr, r1, Outcome.bind]; rfl, ?_⟩
    apply hi.use (hd := hd) e3 e4 e5 e6
    · refine ⟨by simp, fun hc => ⟨hdm, fun hb => ?_⟩, .inr ?_⟩
      · rw [r2] at hb; exact absurd hb l2.ne
      · rw [r2]; exact ⟨l2, l3, l4⟩
    · intro q'
      constructor
      · exact .inr
      · rintro (rfl | h)
        · exact hq
        · exact h
  · have hn : (s.disk.find q).isSome = false := by
      by_contra hc; rw [Bool.not_eq_false] at hc; exact hq ((hi.files q).1 hc)
    rw [if_neg (by simp [hn]), if_neg hq]
    have : holds q h = [] := by
      have hdk := hi.disk q
      apply hdk.none
      have : s.disk.find q = none := by simpa using hn
      simp [filesOf, this]
    refine ⟨s, by simp [this], hi⟩

theorem visit_damaged (h : List (Event El)) (t : Track) (q : QuadKey) : (t.visit h q).damaged = t.damaged := by
  unfold Track.visit; split <;> rfl

theorem Inv.searchText {h : List (Event El)} (terms : Terms) (hit : El → Bool)
    {g : QuadKey → UInt32} (h1 : ∀ u ∈ terms.or, ¬ bad u) (h2 : ∀ u ∈ terms.and, ¬ bad u)
    (h3 : ∀ u ∈ terms.not, ¬ bad u) (P : QuadKey → El → Prop) [∀ q, DecidablePred (P q)] (qs : List QuadKey) :
    ∀ {s : Store} {t : Track}, Inv bad tokens s h t → (∀ q ∈ qs, bad (g q)) →
    (∀ q ∈ qs, terms.not = [] ∨ (holds q h).length ≤ 32 * maxLit) → (∀ q ∈ qs, q ∉ t.damaged) →
    (∀ q ∈ qs, ∀ e ∈ holds q h, BitmapIndex.Selects tokens (holds q h) terms e ↔ P q e) →
    ∃ s', searchText g terms hit s qs = .ok (s', qs.flatMap fun q => (holds q h).filter fun e => decide (P q e) && hit e) ∧
      Inv bad tokens s' h (t.next h (.text terms hit qs)) := by
  induction qs with
  | nil => intro s t hi _ _ _ _; exact ⟨s, rfl, hi⟩
  | cons q qs ih =>
    intro s t hi hg hl hd hP
    obtain ⟨s1, a1, a2⟩ := hi.searchTextTile terms (hg q (by simp)) h1 h2 h3 (hl q (by simp)) (hd q (by simp)) (P q) (hP q (by simp))
    obtain ⟨s2, b1, b2⟩ := ih a2 (fun q' hq' => hg q' (by simp [hq'])) (fun q' hq' => hl q' (by simp [hq']))
      (fun q' hq' => by rw [visit_damaged]; exact hd q' (by simp [hq'])) (fun q' hq' => hP q' (by simp [hq']))
    refine ⟨s2, ?_, b2⟩
    simp only [PersistentStore.searchText, a1, Outcome.bind, b1, List.flatMap_cons, List.filter_filter, Bool.and_comm]

theorem Inv.flush {s : Store} {h : List (Event El)} {t : Track} (hi : Inv bad tokens s h t) :
    Inv bad tokens (flush s) h { t with opened := [] } :=
  ⟨hi.good, hi.damaged, hi.files, hi.disk, .nil, by simp [PersistentStore.flush]⟩

theorem Inv.erase {s : Store} {h : List (Event El)} {t : Track} (hi : Inv bad tokens s h t) (q : QuadKey) :
    Inv bad tokens (erase s q) (.erased q :: h) (t.next h (.erase q)) := by
  obtain ⟨hd, rest, disk, e1, -, -, -, -, e6⟩ := openTile_spec hi q
  have hhold' : ∀ q', q' ≠ q → holds q' (.erased q :: h) = holds q' h := by
    intro q' hq; rw [holds, if_neg (fun hc => hq hc.symm)]
  have hhold : holds q (.erased q :: h) = [] := by simp [holds]
  have hfind : ∀ q', (disk.erase q).find q' = if q' = q then none else s.disk.find q' := by
    intro q'; rw [Assoc.find_erase, e6]; split <;> simp_all
  unfold PersistentStore.erase
  rw [e1]
  refine ⟨?_, ?_, ?_, ?_, .nil, by simp⟩
  · intro q'
    by_cases hq : q' = q
    · subst hq; rw [hhold]; exact Good.nil
    · rw [hhold' q' hq]; exact hi.good q'
  · intro q' hq'
    simp only [Track.next, List.mem_filter, ne_eq, decide_not, Bool.not_eq_eq_eq_not, Bool.not_true, decide_eq_false_iff_not] at hq'
    rw [hhold' q' hq'.2]; exact hi.damaged q' hq'.1
  · intro q'
    simp only [hfind, Track.next, List.mem_filter]
    by_cases hq : q' = q
    · simp [hq]
    · simp [hq]; simpa using hi.files q'
  · intro q'
    by_cases hq : q' = q
    · subst hq
      have : filesOf (disk.erase q') q' = ⟨[], [], none⟩ := by simp [filesOf, hfind]
      simp only [this]
      rw [hhold]
      exact ⟨rfl, rfl, fun _ => rfl, by simp⟩
    · have : filesOf (disk.erase q) q' = filesOf s.disk q' := by simp [filesOf, hfind, hq]
      have hm : (q' ∈ (t.next h (.erase q)).damaged) = (q' ∈ t.damaged) := by simp [Track.next, hq]
      simp only [this]
      rw [hhold' q' hq, hm]
      exact hi.disk q'

end Verif.PersistentStore
