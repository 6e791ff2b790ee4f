import Verif.Props.DiskImportSpec
import Verif.Props.LoadTile
import Verif.Props.PersistentStore

/-! # C100: imported files are there after a restart -/
namespace Verif.Props
open Verif.Clipper (El)
open Verif.DiskImport Verif.DiskImportSpec
open Verif.Props.StoreSpec (Event holds)
open Verif.Props.PersistentSpec
open Verif.PersistentStore (Op Store)
open Verif.GeoStoreSpec (Stores update)
open GeoStoreProof

namespace DiskImportProof
variable {d : Doubles} {tokens : PersistentStore.El → List UInt32} {bad : UInt32 → Prop}

mutual
theorem decode_encode : ∀ e : El, Exact d e → decode d (encode d e) = e
  | .node i t c, h => by
    have := h c (by simp [ClipperSpec.points, ClipperSpec.leaves, ClipperSpec.coords])
    simp [decode, encode, mapCoords, this.1, this.2]
  | .way i t cs, h => by
    have : ∀ c ∈ cs, d.value (d.bits c.lat) = c.lat ∧ d.value (d.bits c.lon) = c.lon := fun c hc => h c (by simpa [ClipperSpec.points, ClipperSpec.leaves, ClipperSpec.coords] using hc)
    simp only [decode, encode, mapCoords, List.map_map, Element.way.injEq, true_and]
    conv_rhs => rw [← List.map_id cs]
    exact List.map_congr_left fun c hc => by simp [(this c hc).1, (this c hc).2]
  | .area i t cs, h => by
    have : ∀ c ∈ cs, d.value (d.bits c.lat) = c.lat ∧ d.value (d.bits c.lon) = c.lon := fun c hc => h c (by simpa [ClipperSpec.points, ClipperSpec.leaves, ClipperSpec.coords] using hc)
    simp only [decode, encode, mapCoords, List.map_map, Element.area.injEq, true_and]
    conv_rhs => rw [← List.map_id cs]
    exact List.map_congr_left fun c hc => by simp [(this c hc).1, (this c hc).2]
  | .relation i t ms, h => by
    have := decode_encodeAll ms (fun p hp => h p (by simpa [ClipperSpec.points, ClipperSpec.leaves] using hp))
    simp only [decode, encode, mapCoords, Element.relation.injEq, true_and]
    exact this
theorem decode_encodeAll : ∀ ms : List El, (∀ p ∈ (ClipperSpec.leavesAll ms).flatMap ClipperSpec.coords, d.value (d.bits p.lat) = p.lat ∧ d.value (d.bits p.lon) = p.lon) →
    mapAll (fun c => (⟨d.value c.lat, d.value c.lon⟩ : Geo ℝ)) (mapAll (fun c => (⟨d.bits c.lat, d.bits c.lon⟩ : Streams.Coord)) ms) = ms
  | [], _ => rfl
  | m :: ms, h => by
    simp only [mapAll, List.cons.injEq]
    refine ⟨decode_encode m fun p hp => h p ?_, decode_encodeAll ms fun p hp => h p ?_⟩
    · simp only [ClipperSpec.leavesAll, List.flatMap_append, List.mem_append]; exact .inl hp
    · simp only [ClipperSpec.leavesAll, List.flatMap_append, List.mem_append]; exact .inr hp
end

theorem decode_all {l : List El} (h : ∀ e ∈ l, Exact d e) : (l.map (encode d)).map (decode d) = l := by
  rw [List.map_map]
  conv_rhs => rw [← List.map_id l]
  exact List.map_congr_left fun e he => decode_encode e (h e he)

/-- The invariant, with files which stand at the end. -/
def Live (tokens : PersistentStore.El → List UInt32) (bad : UInt32 → Prop) (s : Store) (h : List (Event PersistentStore.El)) : Prop :=
  ∃ t : Track, PersistentStore.Inv bad tokens s h t ∧ ∀ o ∈ t.opened, o.2.atEnd = true

theorem Live.step {s : Store} {h : List (Event PersistentStore.El)} (hl : Live tokens bad s h) {g : QuadKey → UInt32} (hg : ∀ q, bad (g q)) {op : Op} (hp : Plain h op)
    (hw : ∀ q e, op = .save q e → ∀ u ∈ tokens e, ¬ bad u) : Live tokens bad (PersistentStore.step tokens g s op).1 (record h op) := by
  obtain ⟨t, hi, ht⟩ := hl
  have ha : AllAllowed bad tokens h t [op] := plain_allowed [op] ht ⟨hp, trivial⟩ (fun q e he => hw q e (List.mem_singleton.1 he).symm)
  refine ⟨t.next h op, (persistent_step hi hg op ha.1).1, ?_⟩
  cases op with
  | save q e =>
    obtain ⟨t1, t2⟩ := touch_end ht q (holds q h).isEmpty
    intro o ho
    rcases List.mem_cons.1 ho with rfl | ho
    · rfl
    · exact t2 o ho
  | tile q c =>
    cases hp
    obtain ⟨t1, t2⟩ := touch_end ht q (holds q h).isEmpty
    intro o ho
    rcases List.mem_cons.1 ho with rfl | ho
    · rfl
    · exact t2 o ho
  | text => exact absurd hp id
  | hasData q => exact ht
  | erase q => simp [Track.next]
  | flush => simp [Track.next]
  | reopen => simp [Track.next]

theorem live_run (ops : List ((QuadKey → UInt32) × Op)) : ∀ {s : Store} {h : List (Event PersistentStore.El)}, Live tokens bad s h →
    (∀ p ∈ ops, ∀ q, bad (p.1 q)) → (∀ q e, Op.save q e ∈ ops.map (·.2) → ∀ u ∈ tokens e, ¬ bad u) → AllPlain h (ops.map (·.2)) →
    Live tokens bad (PersistentStore.run tokens s ops).1 (ops.foldl (fun h p => record h p.2) h) := by
  induction ops with
  | nil => intro s h hl _ _ _; exact hl
  | cons p ops ih =>
    intro s h hl hg hw hp
    obtain ⟨g, op⟩ := p
    have := hl.step (hg (g, op) (by simp)) hp.1 (fun q e he => hw q e (by subst he; simp))
    exact ih this (fun p hp => hg p (by simp [hp])) (fun q e he => hw q e (by simp only [List.map_cons, List.mem_cons]; exact .inr he)) hp.2

theorem holds_live {s : Store} {c : QuadKey → List El} (h : Holds d tokens bad s c) :
    ∃ h', Live tokens bad s h' ∧ ∀ q, (∀ e ∈ c q, Exact d e) ∧ holds q h' = (c q).map (encode d) := by
  obtain ⟨ops, h1, h2, h3, rfl, h5⟩ := h
  exact ⟨events ops, live_run ops ⟨Track.start, PersistentStore.Inv.init, by simp [Track.start]⟩ h1 h2 h3, h5⟩

theorem run_append (u v : List ((QuadKey → UInt32) × Op)) : ∀ s : Store,
    (PersistentStore.run tokens s (u ++ v)).1 = (PersistentStore.run tokens (PersistentStore.run tokens s u).1 v).1 := by
  induction u with
  | nil => intro s; rfl
  | cons p u ih => intro s; exact ih _

theorem allPlain_append (u v : List Op) : ∀ h, AllPlain h u → AllPlain (u.foldl record h) v → AllPlain h (u ++ v) := by
  induction u with
  | nil => intro h _ hv; exact hv
  | cons p u ih => intro h hu hv; exact ⟨hu.1, ih _ hu.2 hv⟩

/-- One more call. -/
theorem holds_step {s : Store} {c : QuadKey → List El} (h : Holds d tokens bad s c) {g : QuadKey → UInt32} (hg : ∀ q, bad (g q)) {op : Op} (c' : QuadKey → List El)
    (hp : ∀ h', (∀ q, holds q h' = (c q).map (encode d)) → Plain h' op ∧ ∀ q, holds q (record h' op) = (c' q).map (encode d)) (he : ∀ q, ∀ e ∈ c' q, Exact d e)
    (hw : ∀ q e, op = .save q e → ∀ u ∈ tokens e, ¬ bad u) : Holds d tokens bad (PersistentStore.step tokens g s op).1 c' := by
  obtain ⟨ops, h1, h2, h3, rfl, h5⟩ := h
  obtain ⟨p1, p2⟩ := hp (events ops) (fun q => (h5 q).2)
  have hfold : (ops.map (·.2)).foldl record [] = events ops := by rw [List.foldl_map]; rfl
  refine ⟨ops ++ [(g, op)], ?_, ?_, ?_, ?_, fun q => ⟨he q, ?_⟩⟩
  · intro p hp
    rcases List.mem_append.1 hp with hp | hp
    · exact h1 p hp
    · rw [List.mem_singleton.1 hp]; exact hg
  · intro q e hm
    rw [List.map_append, List.mem_append] at hm
    rcases hm with hm | hm
    · exact h2 q e hm
    · exact hw q e (List.mem_singleton.1 hm).symm
  · rw [List.map_append]
    exact allPlain_append _ _ _ h3 ⟨by rw [hfold]; exact p1, trivial⟩
  · rw [run_append]; rfl
  · rw [← p2 q]
    simp [events, List.foldl_append]

theorem holds_restart {s : Store} {c : QuadKey → List El} (h : Holds d tokens bad s c) (hb : ∃ u, bad u) : Holds d tokens bad (PersistentStore.flush s) c := by
  obtain ⟨u, hu⟩ := hb
  have he : ∀ q, ∀ e ∈ c q, Exact d e := by obtain ⟨ops, _, _, _, _, h5⟩ := h; exact fun q => (h5 q).1
  exact holds_step (g := fun _ => u) (op := .reopen) h (fun _ => hu) c (fun h' hh => ⟨trivial, hh⟩) he (by simp)

theorem bytes_append (a b : List PersistentStore.El) : bytes (a ++ b) = bytes a + bytes b := by simp [bytes]

theorem holds_save {s : Store} {c : QuadKey → List El} (h : Holds d tokens bad s c) {garbage : QuadKey → UInt32} (hg : ∀ q, bad (garbage q)) {q : QuadKey} {e : El}
    (hs : Storable d tokens bad e) (hz : size d (c q) < 2 ^ 32) :
    ∃ s', (diskIface d tokens garbage).save s q e = .ok s' ∧ Holds d tokens bad s' (fun p => if p = q then c p ++ [e] else c p) := by
  have key := holds_step (g := garbage) (op := .save q (encode d e)) h hg (fun p => if p = q then c p ++ [e] else c p) (fun h' hh => ⟨⟨hs.fits, ?_⟩, fun p => ?_⟩) ?_ ?_
  · obtain ⟨h', ⟨t, hi, ht⟩, hh⟩ := holds_live h
    obtain ⟨s', e1, -⟩ := hi.save (g := garbage q) (q := q) (e := encode d e) (hg q) hs.words hs.fits (by rw [← bytes_eq, (hh q).2]; exact hz) (touch_end ht q _).1
    refine ⟨s', e1, ?_⟩
    simpa only [PersistentStore.step, e1] using key
  · rw [hh q]; exact hz
  · simp only [record, holds]
    by_cases hq : p = q
    · subst hq; simp [hh]
    · simp [hq, Ne.symm hq, hh]
  · intro p e' he'
    have hex : ∀ q, ∀ e ∈ c q, Exact d e := by obtain ⟨ops, _, _, _, _, h5⟩ := h; exact fun q => (h5 q).1
    split at he'
    · rcases List.mem_append.1 he' with he' | he'
      · exact hex p e' he'
      · rw [List.mem_singleton.1 he']; exact hs.exact
    · exact hex p e' he'
  · intro q' e' he' u hu
    cases he'
    exact hs.words u hu

theorem holds_search {s : Store} {c : QuadKey → List El} (h : Holds d tokens bad s c) {garbage : QuadKey → UInt32} (hg : ∀ q, bad (garbage q)) (q : QuadKey) :
    ∃ s', GeoStore.searchIfData (diskIface d tokens garbage) q s = .ok (s', c q) ∧ Holds d tokens bad s' c := by
  obtain ⟨h', ⟨t, hi, ht⟩, hh⟩ := holds_live h
  unfold GeoStore.searchIfData
  by_cases hd : (diskIface d tokens garbage).hasData s q = true
  · rw [if_pos hd]
    obtain ⟨s', e1, -⟩ := hi.searchTile (q := q) none (touch_end ht q _).1
    refine ⟨s', ?_, ?_⟩
    · simp only [diskIface, e1, Outcome.bind]
      rw [(hh q).2, decode_all (hh q).1]
    · have := holds_step (g := garbage) (op := .tile q none) h hg c (fun h' hh => ⟨rfl, hh⟩) (fun q => (hh q).1) (by simp)
      simpa only [PersistentStore.step, e1] using this
  · rw [if_neg hd]
    refine ⟨s, ?_, h⟩
    have hn : s.disk.find q = none := by
      cases hf : s.disk.find q with
      | none => rfl
      | some f => exact absurd (by simp [diskIface, PersistentStore.hasData, hf]) hd
    have := (hi.disk q).none (by simp [PersistentStore.filesOf, hn])
    rw [(hh q).2, List.map_eq_nil_iff] at this
    rw [this]

theorem saveAll_holds {garbage : QuadKey → UInt32} (hg : ∀ q, bad (garbage q)) (l : List (QuadKey × El)) : ∀ {s : Store} {c : QuadKey → List El}, Holds d tokens bad s c →
    (∀ x ∈ l, Storable d tokens bad x.2) → (∀ q, size d (c q ++ (l.filter fun x => x.1 = q).map (·.2)) < 2 ^ 32) →
    ∃ s', GeoStore.saveAll (diskIface d tokens garbage) s l = .ok s' ∧ Holds d tokens bad s' fun q => c q ++ (l.filter fun x => x.1 = q).map (·.2) := by
  induction l with
  | nil => intro s c h _ _; exact ⟨s, rfl, by simpa using h⟩
  | cons x l ih =>
    intro s c h hs hz
    obtain ⟨q, e⟩ := x
    have hz' : size d (c q) < 2 ^ 32 := by
      have := hz q
      simp only [size, List.map_append, bytes_append] at this
      exact lt_of_le_of_lt (Nat.le_add_right _ _) this
    obtain ⟨s1, e1, e2⟩ := holds_save h hg (hs (q, e) (by simp)) hz'
    have hc : ∀ p, (if p = q then c p ++ [e] else c p) ++ (l.filter fun x => x.1 = p).map (·.2) = c p ++ (((q, e) :: l).filter fun x => x.1 = p).map (·.2) := by
      intro p
      by_cases hp : p = q
      · subst hp; simp
      · simp [hp, Ne.symm hp]
    obtain ⟨s', a1, a2⟩ := ih e2 (fun x hx => hs x (by simp [hx])) (fun p => by rw [hc p]; exact hz p)
    refine ⟨s', by simp only [GeoStore.saveAll, e1, Outcome.bind]; exact a1, ?_⟩
    have : (fun p => (if p = q then c p ++ [e] else c p) ++ (l.filter fun x => x.1 = p).map (·.2)) = fun p => c p ++ (((q, e) :: l).filter fun x => x.1 = p).map (·.2) := funext hc
    rw [this] at a2
    exact a2

theorem saveAll_append {S E Q : Type} (I : GeoStore.Iface S E Q) (u v : List (QuadKey × E)) : ∀ s : S,
    GeoStore.saveAll I s (u ++ v) = (GeoStore.saveAll I s u).bind fun s => GeoStore.saveAll I s v := by
  induction u with
  | nil => intro s; rfl
  | cons x u ih =>
    intro s
    simp only [List.cons_append, GeoStore.saveAll]
    cases I.save s x.1 x.2 with
    | ok s' => simp only [Outcome.bind]; exact ih s'
    | throw e => rfl
    | ub w => rfl

theorem importFile_flat {S E Q : Type} (I : GeoStore.Iface S E Q) (ls : List (List (QuadKey × E))) : ∀ {s s' : S},
    GeoStore.saveAll I s ls.flatten = .ok s' → GeoStore.importFile I (some s) ls = .ok (some s') := by
  induction ls with
  | nil => intro s s' h; cases h; rfl
  | cons l ls ih =>
    intro s s' h
    rw [List.flatten_cons, saveAll_append] at h
    simp only [GeoStore.importFile, GeoStore.withStore]
    cases hx : GeoStore.saveAll I s l with
    | ok s1 => rw [hx] at h; exact ih h
    | throw e => rw [hx] at h; cases h
    | ub w => rw [hx] at h; cases h

variable {K : Type} [LinearOrder K]

/-- All stores of the map are there and hold this. -/
def All (d : Doubles) (tokens : PersistentStore.El → List UInt32) (bad : UInt32 → Prop) (m : GeoStore.Map K Store) (C : K → QuadKey → List El) : Prop :=
  ∀ e ∈ m, ∃ s, e.2 = some s ∧ Holds d tokens bad s (C e.1)

theorem visit_holds {garbage : QuadKey → UInt32} (hg : ∀ q, bad (garbage q)) (q : QuadKey) {C : K → QuadKey → List El} (m : GeoStore.Map K Store) (h : All d tokens bad m C) :
    ∃ m', GeoStore.visit (GeoStore.searchIfData (diskIface d tokens garbage) q) m = .ok (m', m.flatMap fun e => C e.1 q) ∧ m'.map (·.1) = m.map (·.1) ∧ All d tokens bad m' C := by
  induction m with
  | nil => exact ⟨[], rfl, rfl, by simp [All]⟩
  | cons e m ih =>
    obtain ⟨k, p⟩ := e
    obtain ⟨s, rfl, hs⟩ := h (k, p) (by simp)
    obtain ⟨s', e1, e2⟩ := holds_search hs hg q
    obtain ⟨m', a1, a2, a3⟩ := ih fun e he => h e (by simp [he])
    refine ⟨(k, some s') :: m', ?_, by simp [a2], ?_⟩
    · simp only [GeoStore.visit, e1, a1, Outcome.bind, List.flatMap_cons]
    · intro e he
      rcases List.mem_cons.1 he with rfl | he
      · exact ⟨s', rfl, e2⟩
      · exact a3 e he

theorem run_tiles {garbage : QuadKey → UInt32} (hg : ∀ q, bad (garbage q)) (qs : List QuadKey) {C : K → QuadKey → List El} : ∀ (m : GeoStore.Map K Store), All d tokens bad m C →
    (GeoStore.run (diskIface d tokens garbage) m (qs.map .tile)).2 = (qs.map fun q => .elements ((m.map (·.1)).flatMap fun k => C k q)) ∧
    ((GeoStore.run (diskIface d tokens garbage) m (qs.map .tile)).1.map (·.1)) = m.map (·.1) ∧ All d tokens bad (GeoStore.run (diskIface d tokens garbage) m (qs.map .tile)).1 C := by
  induction qs with
  | nil => intro m h; exact ⟨rfl, rfl, h⟩
  | cons q qs ih =>
    intro m h
    obtain ⟨m', a1, a2, a3⟩ := visit_holds hg q m h
    obtain ⟨b1, b2, b3⟩ := ih m' a3
    simp only [List.map_cons, GeoStore.run, GeoStore.step, a1]
    exact ⟨by rw [b1, a2, List.flatMap_map], by rw [b2, a2], b3⟩

theorem run_ops_append {S E Q : Type} (I : GeoStore.Iface S E Q) (u v : List (GeoStore.Op K S E Q)) : ∀ m : GeoStore.Map K S,
    GeoStore.run I m (u ++ v) = ((GeoStore.run I (GeoStore.run I m u).1 v).1, (GeoStore.run I m u).2 ++ (GeoStore.run I (GeoStore.run I m u).1 v).2) := by
  induction u with
  | nil => intro m; rfl
  | cons o u ih => intro m; simp only [List.cons_append, GeoStore.run, ih]

/-- Registering stores with different keys. -/
theorem register_all {S E Q : Type} (I : GeoStore.Iface S E Q) (l : List (K × S)) : ∀ m : GeoStore.Map K S, m.Pairwise (fun a b => a.1 < b.1) → (l.map (·.1)).Nodup →
    (∀ x ∈ l, ∀ p, (x.1, p) ∉ m) →
    ((GeoStore.run I m (l.map fun x => .register x.1 x.2)).1.Pairwise fun a b => a.1 < b.1) ∧
    (∀ k p, (k, p) ∈ (GeoStore.run I m (l.map fun x => .register x.1 x.2)).1 ↔ (k, p) ∈ m ∨ ∃ s, p = some s ∧ (k, s) ∈ l) ∧
    (GeoStore.run I m (l.map fun x => .register x.1 x.2)).2 = l.map fun _ => .done := by
  induction l with
  | nil => intro m hm _ _; exact ⟨hm, by simp [GeoStore.run], rfl⟩
  | cons x l ih =>
    intro m hm hn hd
    obtain ⟨k, s⟩ := x
    obtain ⟨a1, a2⟩ := mem_emplace k (some s) m hm
    rw [List.map_cons, List.nodup_cons] at hn
    obtain ⟨b1, b2, b3⟩ := ih (GeoStore.emplace k (some s) m) a1 hn.2 (by
      intro y hy p hp
      rcases (a2 _ _).1 hp with h | ⟨h, -⟩
      · exact hd y (by simp [hy]) p h
      · exact hn.1 (by rw [← h]; exact List.mem_map.2 ⟨y, hy, rfl⟩))
    refine ⟨b1, fun k' p => ?_, by simp only [List.map_cons, GeoStore.run, GeoStore.step, b3]⟩
    simp only [List.map_cons, GeoStore.run, GeoStore.step]
    rw [b2, a2]
    constructor
    · rintro ((h | ⟨rfl, rfl, -⟩) | ⟨s', rfl, h⟩)
      · exact .inl h
      · exact .inr ⟨s, rfl, by simp⟩
      · exact .inr ⟨s', rfl, by simp [h]⟩
    · rintro (h | ⟨s', rfl, h⟩)
      · exact .inl (.inl h)
      · rcases List.mem_cons.1 h with h | h
        · cases h
          exact .inl (.inr ⟨rfl, rfl, hd (k, s) (by simp)⟩)
        · exact .inr ⟨s', rfl, h⟩

/-- Lists with the same keys in the same order. -/
theorem keys_eq {m m' : GeoStore.Map K Store} (h : m.Pairwise fun a b => a.1 < b.1) (h' : m'.Pairwise fun a b => a.1 < b.1) (hk : ∀ k, k ∈ m.map (·.1) ↔ k ∈ m'.map (·.1)) :
    m.map (·.1) = m'.map (·.1) := by
  have s1 : (m.map (·.1)).Pairwise (· < ·) := List.pairwise_map.2 h
  have s2 : (m'.map (·.1)).Pairwise (· < ·) := List.pairwise_map.2 h'
  refine List.Perm.eq_of_pairwise (le := (· < ·)) ?_ s1 s2 ((List.perm_ext_iff_of_nodup (s1.imp ne_of_lt) (s2.imp ne_of_lt)).2 hk)
  intro a b _ _ h1 h2
  exact absurd (h1.trans h2) (lt_irrefl _)

/-- A list with one more thing in one place. -/
theorem flatMap_more {E : Type} {ks : List K} (hn : ks.Nodup) {k : K} (hk : k ∈ ks) (c : K → List E) (extra : List E) :
    (ks.flatMap fun j => if j = k then c j ++ extra else c j).Perm (ks.flatMap c ++ extra) := by
  induction ks with
  | nil => simp at hk
  | cons a ks ih =>
    rw [List.nodup_cons] at hn
    simp only [List.flatMap_cons, List.append_assoc]
    by_cases ha : a = k
    · subst ha
      have : (ks.flatMap fun j => if j = a then c j ++ extra else c j) = ks.flatMap c := by
        refine List.flatMap_congr fun j hj => if_neg ?_
        rintro rfl
        exact hn.1 hj
      rw [if_pos rfl, this, List.append_assoc]
      exact List.Perm.append_left _ List.perm_append_comm
    · rw [if_neg ha]
      exact List.Perm.append_left _ (ih hn.2 ((List.mem_cons.1 hk).resolve_left (Ne.symm ha)))

/-- A map after the restart. -/
theorem restart_all {garbage : QuadKey → UInt32} (hb : ∃ u, bad u) {m : GeoStore.Map K Store} (hm : m.Pairwise fun a b => a.1 < b.1) {C : K → QuadKey → List El}
    (hC : All d tokens bad m C) {stores : List (K × Store)} (hs : stores.Perm (disks m)) :
    (GeoStore.run (diskIface d tokens garbage) [] (registrations stores)).2 = (stores.map fun _ => .done) ∧
    (GeoStore.run (diskIface d tokens garbage) [] (registrations stores)).1.map (·.1) = m.map (·.1) ∧
    All d tokens bad (GeoStore.run (diskIface d tokens garbage) [] (registrations stores)).1 C := by
  have hdisk : ∀ k s, (k, s) ∈ stores ↔ (k, some s) ∈ m := by
    intro k s
    rw [hs.mem_iff]
    simp only [disks, List.mem_filterMap, Option.map_eq_some_iff, Prod.mk.injEq]
    constructor
    · rintro ⟨⟨k', p⟩, h, s', h1, h2, h3⟩
      simp only at h1 h2
      rw [← h2, ← h3, ← h1]
      exact h
    · exact fun h => ⟨_, h, s, rfl, rfl, rfl⟩
  have hkeys : (disks m).map (·.1) = m.map (·.1) := by
    clear hdisk hs
    induction m with
    | nil => rfl
    | cons e m ih =>
      obtain ⟨k, p⟩ := e
      obtain ⟨s, rfl, -⟩ := hC (k, p) (by simp)
      have := ih (List.pairwise_cons.1 hm).2 fun e he => hC e (by simp [he])
      simp only [disks] at this
      simp [disks, this]
  have hsorted : (m.map (·.1)).Pairwise (· < ·) := List.pairwise_map.2 hm
  have hnd : ((stores.map fun x => (x.1, PersistentStore.flush x.2)).map (·.1)).Nodup := by
    rw [List.map_map]
    have h1 : (stores.map (·.1)).Perm (m.map (·.1)) := by rw [← hkeys]; exact hs.map _
    exact h1.nodup_iff.2 (hsorted.imp ne_of_lt)
  obtain ⟨a1, a2, a3⟩ := register_all (diskIface d tokens garbage) (stores.map fun x => (x.1, PersistentStore.flush x.2)) [] List.Pairwise.nil hnd (by simp)
  have hreg : registrations (Q := BitmapIndex.Terms × (PersistentStore.El → Bool) × List QuadKey) stores =
      (stores.map fun x => (x.1, PersistentStore.flush x.2)).map fun x => GeoStore.Op.register x.1 x.2 := by simp [registrations]
  rw [← hreg] at a1 a2 a3
  have hmem : ∀ k p, (k, p) ∈ (GeoStore.run (diskIface d tokens garbage) [] (registrations stores)).1 ↔ ∃ s, p = some (PersistentStore.flush s) ∧ (k, some s) ∈ m := by
    intro k p
    rw [a2]
    simp only [List.not_mem_nil, false_or, List.mem_map, Prod.mk.injEq, Prod.exists]
    constructor
    · rintro ⟨s, rfl, k', s', h, rfl, rfl⟩
      exact ⟨s', rfl, (hdisk _ _).1 h⟩
    · rintro ⟨s, rfl, h⟩
      exact ⟨_, rfl, k, s, (hdisk _ _).2 h, rfl, rfl⟩
  refine ⟨by rw [a3, List.map_map]; rfl, keys_eq a1 hm fun k => ?_, ?_⟩
  · simp only [List.mem_map, Prod.exists, exists_and_right, exists_eq_right]
    constructor
    · rintro ⟨p, h⟩
      obtain ⟨s, -, h⟩ := (hmem _ _).1 h
      exact ⟨_, h⟩
    · rintro ⟨p, h⟩
      obtain ⟨s, rfl, -⟩ := hC _ h
      exact ⟨_, (hmem _ _).2 ⟨s, rfl, h⟩⟩
  · rintro ⟨k, p⟩ he
    obtain ⟨s, rfl, h⟩ := (hmem _ _).1 he
    obtain ⟨s', h1, h2⟩ := hC _ h
    cases h1
    exact ⟨_, rfl, holds_restart h2 hb⟩

/-- Importing into a store on disk: it never fails, and adds what is to be saved. -/
theorem addFile_disk {garbage : QuadKey → UInt32} (hg : ∀ q, bad (garbage q)) {m : GeoStore.Map K Store} {A : Stores K Store} (hm : Abs m A) {C : K → QuadKey → List El}
    (hC : ∀ k s, A k = some s → Holds d tokens bad s (C k)) {k : K} {s : Store} (hk : A k = some s) (l : List (List (QuadKey × El)))
    (hs : ∀ x ∈ l.flatten, Storable d tokens bad x.2) (hz : ∀ q, size d (C k q ++ (l.flatten.filter fun x => x.1 = q).map (·.2)) < 2 ^ 32) :
    ∃ m' s', GeoStore.step (diskIface d tokens garbage) m (.addFile k (some l) .range false) = (m', .done) ∧ Abs m' (update A k s') ∧ m'.map (·.1) = m.map (·.1) ∧
      All d tokens bad m' (fun j q => if j = k then C j q ++ (l.flatten.filter fun x => x.1 = q).map (·.2) else C j q) := by
  obtain ⟨s', b1, b2⟩ := saveAll_holds hg l.flatten (hC k s hk) hs hz
  obtain ⟨e1, e2⟩ := hm.subscript hk
  have ha := hm.put hk s'
  refine ⟨GeoStore.put k s' m, s', ?_, ha, ?_, ?_⟩
  · simp only [GeoStore.step, e1, e2, importFile_flat _ l b1, GeoStore.putPtr, Bool.false_eq_true, if_false]
  · simp only [GeoStore.put, List.map_map]
    refine List.map_congr_left fun e _ => ?_
    simp only [Function.comp]
    split
    · rename_i h; exact h.symm
    · rfl
  · rintro ⟨j, p⟩ he
    obtain ⟨t, rfl, ht⟩ := (ha.mem _ _).1 he
    refine ⟨t, rfl, ?_⟩
    unfold update at ht
    split at ht
    · rename_i hj
      subst hj
      cases ht
      simpa using b2
    · rename_i hj
      simpa [hj] using hC j t ht

theorem abs_all {m : GeoStore.Map K Store} {A : Stores K Store} (hm : Abs m A) {C : K → QuadKey → List El} (hC : ∀ k s, A k = some s → Holds d tokens bad s (C k)) :
    All d tokens bad m C := by
  rintro ⟨k, p⟩ he
  obtain ⟨s, rfl, h⟩ := (hm.mem _ _).1 he
  exact ⟨s, rfl, hC k s h⟩

end DiskImportProof

open DiskImportProof
open Verif.ImportSpec Verif.ImportRelationsSpec
open Verif.OsmXmlSpec (Doc Head PrintsBody)

variable {K : Type} [LinearOrder K]

/-- C100 (partial): an OSM file is imported into a store on disk. Then, and also when the program has ended, is started again, and the stores have been registered again in any order, every
tile shows what it has shown before and what is to be seen of the nodes, ways and relations of the file (C97), however often tiles are searched. Missing: coordinates are doubles, the
elements fit into the format of the files, and what C16 and C97 leave open. -/
theorem C100_restart_partial (d : Doubles) (tokens : PersistentStore.El → List UInt32) (bad : UInt32 → Prop) (env : Import.Env) (hsort : OsmSpec.Sorts env.sort)
    {garbage : QuadKey → UInt32} (hg : ∀ q, bad (garbage q)) {m : GeoStore.Map K Store} {A : Stores K Store} (hm : Abs m A) {C : K → QuadKey → List El}
    (hC : ∀ k s, A k = some s → Holds d tokens bad s (C k)) {k : K} {s : Store} (hk : A k = some s) {target : Import.Target} (ht : Sensible target)
    {h w u : List Char} {doc : Doc} (hh : Head h) (hw : PrintsBody doc w) (hf : ∃ v, w = '<' :: v) (hb : doc.bounds ≠ none ∨ doc.nodes ≠ []) (hd : Sound doc)
    (hr : (doc.relations.map (·.id)).Nodup) :
    ∃ x, Describes env.eps env.getId doc x ∧ (ResolveSpec.Sound env.resolver x →
      ∃ es, List.Forall₂ (fun key e => ResolveSpec.Becomes env.resolver x (.old key) e) (ResolveSpec.All x) es ∧
        ((∀ q, ∀ e ∈ es.filterMap (seen env.eng env.style target q), Storable d tokens bad e) →
          (∀ q, size d (C k q ++ es.filterMap (seen env.eng env.style target q)) < 2 ^ 32) →
          ∀ order : List UInt64 → List UInt64, (∀ l, (order l).Perm l) → ∃ N, ∀ n ≥ N,
            ∃ m', Import.importXml (diskIface d tokens garbage) { env with order := order, stack := n } m k target (h ++ (w ++ u)) = (m', .done) ∧
              ∃ found : QuadKey → List El,
                (∀ q, ∃ old, (GeoStore.step (diskIface d tokens garbage) m (.tile q)).2 = .elements old ∧ (found q).Perm (old ++ es.filterMap (seen env.eng env.style target q))) ∧
                (∀ qs : List QuadKey, (GeoStore.run (diskIface d tokens garbage) m' (qs.map .tile)).2 = qs.map fun q => .elements (found q)) ∧
                ∀ stores, stores.Perm (disks m') → ∀ garbage' : QuadKey → UInt32, (∀ q, bad (garbage' q)) → ∀ qs : List QuadKey,
                  (GeoStore.run (diskIface d tokens garbage') GeoStore.init (registrations stores ++ qs.map .tile)).2 =
                    (stores.map fun _ => .done) ++ qs.map fun q => .elements (found q))) := by
  obtain ⟨x, hx, himp⟩ := ImportRelationsProof.read_seen env hsort ht (u := u) hh hw hf hb hd hr
  refine ⟨x, hx, fun hsound => ?_⟩
  obtain ⟨es, g1, g2⟩ := himp hsound
  refine ⟨es, g1, fun hst hz order hord => ?_⟩
  obtain ⟨N, hN⟩ := g2 order hord
  refine ⟨N, fun n hn => ?_⟩
  obtain ⟨l, hread, h6⟩ := hN n hn
  obtain ⟨m', s', a1, a2, a3, a4⟩ := addFile_disk hg hm hC hk l (fun x hx => hst x.1 x.2 (by
    rw [← h6]
    exact List.mem_map.2 ⟨x, List.mem_filter.2 ⟨hx, by simp⟩, rfl⟩)) (fun q => by rw [h6]; exact hz q)
  simp only [h6] at a4
  refine ⟨m', by simp only [Import.importXml, hread, a1],
    fun q => (m'.map (·.1)).flatMap fun j => if j = k then C j q ++ es.filterMap (seen env.eng env.style target q) else C j q, fun q => ?_, fun qs => (run_tiles hg qs m' a4).1, ?_⟩
  · obtain ⟨m1, b1, -, -⟩ := visit_holds hg q m (abs_all hm hC)
    refine ⟨m.flatMap fun e => C e.1 q, by simp only [GeoStore.step, b1], ?_⟩
    rw [a3]
    have hsorted : (m.map (·.1)).Pairwise (· < ·) := List.pairwise_map.2 hm.sorted
    have := flatMap_more (hsorted.imp ne_of_lt) (k := k) (List.mem_map.2 ⟨_, (hm.mem _ _).2 ⟨s, rfl, hk⟩, rfl⟩) (fun j => C j q) (es.filterMap (seen env.eng env.style target q))
    simp only [List.flatMap_map] at this ⊢
    exact this
  · intro stores hs garbage' hg' qs
    obtain ⟨c1, c2, c3⟩ := restart_all (garbage := garbage') ⟨_, hg ⟨0, 0, 0⟩⟩ a2.sorted a4 hs
    obtain ⟨d1, -, -⟩ := run_tiles hg' qs _ c3
    rw [run_ops_append]
    simp only [GeoStore.init]
    rw [c1, d1, c2]

open Verif.LoadTile Verif.LoadTileSpec Verif.QuadKeyBuilderSpec
open Verif.Style (Str)
open Verif.StyleSpec (Mentions)

namespace DiskImportProof

/-- The last answer. -/
theorem last_tile {S E Q : Type} (I : GeoStore.Iface S E Q) (m : GeoStore.Map K S) (regs : List (GeoStore.Op K S E Q)) (qs : List QuadKey) (q : QuadKey) {outs : List (GeoStore.Out E)}
    {out : GeoStore.Out E} (h : (GeoStore.run I m (regs ++ (qs ++ [q]).map .tile)).2 = outs ++ [out]) :
    (GeoStore.step I (GeoStore.run I m (regs ++ qs.map .tile)).1 (.tile q)).2 = out := by
  rw [List.map_append, ← List.append_assoc, run_ops_append] at h
  simp only [List.map_cons, List.map_nil, GeoStore.run] at h
  exact List.singleton_inj.1 (List.append_inj_right' h rfl)

end DiskImportProof

/-- C100 (partial): what builders get after a restart. A stylesheet and an OSM file are read, the file is imported into a store on disk, the program is started again and the stores are
registered again. When then tiles are loaded, every builder gets exactly the elements of the stores and of the file which are to be seen in the tile and for which the rules name
this builder. Missing: what `C100_restart_partial` and C98 leave open. -/
theorem C100_load_partial {A' L D : Type} (T : MapCss.Tools A' L) {css g : List Char} {entries : List (MapCssSpec.Entry A' L)}
    (hcss : MapCssSpec.Reads T css g entries) (hgap : MapCssSpec.Gap g) (senv : Style.Env D) (hacc : (Style.build senv (rulesOf entries)).isOk = true)
    {P : Str → Prop} (hmen : Mentions (rulesOf entries) P) (hskip : P "skip".toList) (hclip : P "clip".toList)
    (d : Doubles) (tokens : PersistentStore.El → List UInt32) (bad : UInt32 → Prop) (env : Import.Env) (hsort : OsmSpec.Sorts env.sort)
    {garbage : QuadKey → UInt32} (hg : ∀ q, bad (garbage q)) {m : GeoStore.Map K Store} {A : Stores K Store} (hm : Abs m A) {C : K → QuadKey → List El}
    (hC : ∀ k s, A k = some s → Holds d tokens bad s (C k)) {k : K} {s : Store} (hk : A k = some s) {target : Import.Target} (ht : Sensible target)
    {h w u : List Char} {doc : Doc} (hh : Head h) (hw : PrintsBody doc w) (hf : ∃ v, w = '<' :: v) (hb : doc.bounds ≠ none ∨ doc.nodes ≠ []) (hd : Sound doc)
    (hr : (doc.relations.map (·.id)).Nodup) :
    ∃ fc, (∃ depth, ∀ n ≥ depth, openSheet T senv n css = .ok fc) ∧
      ∃ x, Describes env.eps (fun s => senv.getId s.toList) doc x ∧ (ResolveSpec.Sound (withSheet env senv fc).resolver x →
        ∃ es, List.Forall₂ (fun key e => ResolveSpec.Becomes (withSheet env senv fc).resolver x (.old key) e) (ResolveSpec.All x) es ∧ ((∀ e ∈ es, Readable senv P e) →
          (∀ q, ∀ e ∈ es.filterMap (seen env.eng (wanted senv (rulesOf entries)) target q), Storable d tokens bad e) →
          (∀ q, size d (C k q ++ es.filterMap (seen env.eng (wanted senv (rulesOf entries)) target q)) < 2 ^ 32) →
          ∀ order : List UInt64 → List UInt64, (∀ l, (order l).Perm l) → ∃ N, ∀ n ≥ N,
            ∃ m', Import.importXml (diskIface d tokens garbage) { withSheet env senv fc with order := order, stack := n } m k target (h ++ (w ++ u)) = (m', .done) ∧
              ∀ q, ∃ old, (GeoStore.step (diskIface d tokens garbage) m (.tile q)).2 = .elements old ∧
                ∀ l, l = old ++ es.filterMap (seen env.eng (wanted senv (rulesOf entries)) target q) →
                  (∀ e ∈ l.flatMap parts, Readable senv P e) → DistinctIds senv (rulesOf entries) q.lod l →
                  ∀ stores, stores.Perm (disks m') → ∀ garbage' : QuadKey → UInt32, (∀ q, bad (garbage' q)) → ∀ qs : List QuadKey,
                  ∀ sorted order : List (List Char) → List (List Char), (∀ l, (sorted l).Perm l) → (∀ l, (order l).Perm l) →
                    ∃ t, loadTile (diskIface d tokens garbage') senv fc sorted order
                        (GeoStore.run (diskIface d tokens garbage') GeoStore.init (registrations stores ++ qs.map .tile)).1 q = .ok t ∧
                      ∀ b, LifeCycle b t ∧ (visited b t).Perm (buildWith senv (rulesOf entries) q.lod b l))) := by
  obtain ⟨fc, hok⟩ : ∃ fc, Style.build senv (rulesOf entries) = .ok fc := by
    cases hx : Style.build senv (rulesOf entries) with
    | ok fc => exact ⟨fc, rfl⟩
    | throw e => rw [hx] at hacc; cases hacc
    | ub e => rw [hx] at hacc; cases hacc
  obtain ⟨depth, hdepth⟩ := C60_parse_partial T css g entries hcss hgap
  refine ⟨fc, ⟨depth, fun n hn => ?_⟩, ?_⟩
  · obtain ⟨sheet, h1, h2⟩ := hdepth n hn
    rw [openSheet, h1]
    simp only [Outcome.bind]
    rw [h2.1, LoadTileProof.toRule_rulesOf, hok]
  obtain ⟨x, hx, himp⟩ := C100_restart_partial d tokens bad (withSheet env senv fc) hsort hg hm hC hk ht (u := u) hh hw hf hb hd hr
  refine ⟨x, hx, fun hsound => ?_⟩
  obtain ⟨es, h1, h2⟩ := himp hsound
  refine ⟨es, h1, fun hread hst hz order hord => ?_⟩
  have hseen : ∀ q, es.filterMap (seen (withSheet env senv fc).eng (withSheet env senv fc).style target q) =
      es.filterMap (seen env.eng (wanted senv (rulesOf entries)) target q) := fun q =>
    List.filterMap_congr fun e he => LoadTileProof.seen_congr (LoadTileProof.storing_eq hok hmen hskip hclip (hread e he) q.lod)
  simp only [hseen] at h2
  obtain ⟨N, hN⟩ := h2 hst hz order hord
  refine ⟨N, fun n hn => ?_⟩
  obtain ⟨m', a1, found, a2, -, a3⟩ := hN n hn
  refine ⟨m', a1, fun q => ?_⟩
  obtain ⟨old, b1, b2⟩ := a2 q
  refine ⟨old, b1, fun l hl hreadl hdis stores hs garbage' hg' qs sorted order' hsorted horder => ?_⟩
  have := a3 stores hs garbage' hg' (qs ++ [q])
  rw [List.map_append (l₁ := qs) (f := fun q => GeoStore.Out.elements (found q)), ← List.append_assoc] at this
  refine LoadTileProof.load_found _ (last_tile _ _ _ _ _ this) ?_ hsorted horder hok hmen hreadl hdis
  rw [hl]
  exact b2

namespace DiskImportProof
open LoadTileProof.Sample

theorem only_node {eng : Clipper.Engine} {style : El → ℤ → ElementStore.StyleInfo} (h : style node 1 = ⟨false, false, false⟩) (q : QuadKey) :
    seen eng style (.range ⟨1, 1⟩) q node = none ∨ seen eng style (.range ⟨1, 1⟩) q node = some node := by
  unfold seen
  split
  · rename_i hw
    have hl : q.lod = 1 := le_antisymm hw.1.2 hw.1.1
    rw [hl, h]
    exact .inr rfl
  · exact .inl rfl

theorem node_storable {d : Doubles} (h0 : d.value (d.bits 0) = 0) {bad : UInt32 → Prop} (hb : ¬ bad 0) : Storable d (fun e => e.tags.map (·.key)) bad node := by
  refine ⟨?_, ?_, ?_⟩
  · intro p hp
    have : p = ⟨0, 0⟩ := by simpa [node, ClipperSpec.points, ClipperSpec.leaves, ClipperSpec.coords] using hp
    rw [this]
    exact ⟨h0, h0⟩
  · simp [node, encode, mapCoords, StreamsSpec.Fits]
  · intro u hu
    have : u = 0 := by simpa [node, encode, mapCoords, Element.tags] using hu
    rw [this]
    exact hb

theorem node_size (d : Doubles) : size d [node] < 2 ^ 32 := by
  simp [size, bytes, node, encode, mapCoords, Streams.writeElement, Streams.writeVec, Streams.writeTag, Streams.writeCoord, leBytes]

end DiskImportProof

open LoadTileProof.Sample in
/-- A stylesheet with one rule and a file with one node: `C100_load_partial` tells that the builder `c` gets the node after a restart, in the tile of the first level where it is, also when
this tile and another one have been searched before. -/
example (d : Doubles) (h0 : d.value (d.bits 0) = 0) (env : Import.Env) (hsort : OsmSpec.Sorts env.sort) (hord : ∀ l, (env.order l).Perm l) :
    ∃ fc depth m stack, openSheet MapCssExample.tools strings depth css = .ok fc ∧
      Import.importXml (diskIface d (fun e => e.tags.map (·.key)) fun _ => 7) { withSheet env strings fc with stack := stack }
        (GeoStore.step (diskIface d (fun e => e.tags.map (·.key)) fun _ => 7) GeoStore.init (.register 5 PersistentStore.init)).1 5
        (.range ⟨1, 1⟩) (OsmXmlProof.start ++ (OsmXmlProof.nodeWith ['b'] ++ "</osm>".toList)) = (m, .done) ∧
      ∃ t, loadTile (diskIface d (fun e => e.tags.map (·.key)) fun _ => 8) strings fc id id
        (GeoStore.run (diskIface d (fun e => e.tags.map (·.key)) fun _ => 8) GeoStore.init (registrations (disks m) ++ [⟨1, 1, 1⟩, ⟨1, 0, 0⟩].map .tile)).1 ⟨1, 1, 1⟩ = .ok t ∧
        visited ['c'] t = [node] := by
  let A : Stores Nat Store := fun k => if k = 5 then some PersistentStore.init else none
  let I := diskIface d (fun e => e.tags.map (·.key)) fun _ => 7
  have hA : Abs (GeoStore.step I GeoStore.init (.register 5 PersistentStore.init)).1 A := by
    refine ⟨by simp [GeoStore.step, GeoStore.init, GeoStore.emplace], ?_⟩
    intro k p
    simp only [GeoStore.step, GeoStore.init, GeoStore.emplace, List.mem_singleton, Prod.mk.injEq, A]
    constructor
    · rintro ⟨rfl, rfl⟩; exact ⟨_, rfl, by simp⟩
    · rintro ⟨s, rfl, h⟩
      split at h
      · exact ⟨by assumption, by rw [h]⟩
      · cases h
  have hC : ∀ k s, A k = some s → Holds d (fun e => e.tags.map (·.key)) (fun u => u ≠ 0) s (fun _ => []) := by
    intro k s h
    simp only [A] at h
    split at h
    · exact ⟨[], by simp, by simp, trivial, (Option.some.inj h).symm, fun q => ⟨by simp, rfl⟩⟩
    · cases h
  obtain ⟨fc, ⟨depth, h1⟩, x, hx, h2⟩ := C100_load_partial MapCssExample.tools reads .nil strings accepted mentions (by decide) (by decide) d (fun e => e.tags.map (·.key)) (fun u => u ≠ 0)
    env hsort (garbage := fun _ => 7) (fun _ => by decide) hA (C := fun _ _ => []) hC (k := 5)
    (s := PersistentStore.init) (by simp [A]) (target := .range ⟨1, 1⟩) ⟨by decide, by decide⟩ (h := OsmXmlProof.start) (u := []) (OsmXmlProof.start_head (p := []) (.inl rfl) OsmXmlProof.clean_nil)
    prints ⟨_, rfl⟩ (.inr (by simp [LoadTileProof.Sample.doc])) ⟨by simp [LoadTileProof.Sample.doc], by simp [LoadTileProof.Sample.doc], by intro w hw; simp [LoadTileProof.Sample.doc] at hw, by
      intro n hn
      simp only [LoadTileProof.Sample.doc, List.mem_singleton] at hn
      subst hn
      norm_num [BboxSpec.OnGlobe, place]⟩ (by simp [LoadTileProof.Sample.doc])
  have hdes := described hx
  obtain ⟨es, h3, h4⟩ := h2 (sound rfl hdes)
  have hes := becomes hdes h3
  subst hes
  have hw : wanted strings (rulesOf (A := Unit) (L := Unit) [.rule LoadTileProof.Sample.rule]) node 1 = ⟨false, false, false⟩ := by
    unfold wanted
    rw [node_decls]
    decide
  obtain ⟨N, h5⟩ := h4 (by intro e he; rw [List.mem_singleton.1 he]; exact readable) (by
      intro q e he
      rcases only_node (eng := env.eng) hw q with h | h
      · simp [h] at he
      · simp only [List.filterMap_cons, h, List.filterMap_nil, List.mem_singleton] at he
        rw [he]
        exact node_storable h0 (by simp)) (by
      intro q
      rcases only_node (eng := env.eng) hw q with h | h
      · simp [h, size, bytes]
      · simpa [h] using node_size d) env.order hord
  obtain ⟨m', h6, h7⟩ := h5 N le_rfl
  obtain ⟨old, h8, h9⟩ := h7 ⟨1, 1, 1⟩
  have hold : old = [] := by
    have : (GeoStore.step I (GeoStore.step I GeoStore.init (.register 5 PersistentStore.init)).1 (.tile ⟨1, 1, 1⟩)).2 = .elements [] := rfl
    rw [this] at h8
    cases h8
    rfl
  subst hold
  obtain ⟨t, h10, h11⟩ := h9 [node] (by simp [node_seen env.eng hw]) (by
      intro e he
      have : e = node := by simpa [parts, node] using he
      rw [this]
      exact readable) ⟨by simp [parts, node], by
      intro e he
      have : e = node := by simpa [parts, node] using he
      rw [this]
      simp [node, clippedIds]⟩ _ (.refl _) (fun _ => 8) (fun _ => by decide) [⟨1, 1, 1⟩, ⟨1, 0, 0⟩] id id (fun _ => .refl _) (fun _ => .refl _)
  refine ⟨fc, depth, m', N, h1 depth le_rfl, by simpa [withSheet] using h6, t, h10, ?_⟩
  have h12 := (h11 ['c']).2
  have : buildWith strings (rulesOf (A := Unit) (L := Unit) [.rule LoadTileProof.Sample.rule]) 1 ['c'] [node] = [node] := by
    have hp : ([node] : List El).flatMap parts = [node] := rfl
    unfold buildWith
    rw [hp, List.filter_cons, if_pos]
    · rfl
    · rw [node_decls]
      decide
  rw [this] at h12
  exact List.perm_singleton.1 h12

end Verif.Props
