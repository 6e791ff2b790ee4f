import Verif.Proof.PersistentInv
import Verif.Props.MemStore

/-! # C16: the persistent store answers like the in-memory store; C17: text search after a restart -/
namespace Verif.Props
open Verif.Props.StoreSpec (Event holds TextQuery IsWord HasWord)
open Verif.Props.PersistentSpec
open Verif.PersistentStore (Op El Store step run init Inv dataBytes)
open Verif.BitmapIndex (Strings Terms parseTerms elementTokens)
open Verif.StreamsSpec (Fits)
open Verif.MemStore (Out)

theorem bytes_eq (els : List El) : bytes els = (dataBytes els).length := by
  simp [bytes, dataBytes, List.length_flatMap]

/-- Calls for which the store keeps its promises: a save or tile search needs the files of the tile to stand at the end, a text
search needs undamaged tiles. -/
def Allowed (bad : UInt32 → Prop) (tokens : El → List UInt32) (h : List (Event El)) (t : Track) : Op → Prop
  | .save q e => (t.touch q (holds q h).isEmpty).1.atEnd = true ∧ Fits e ∧ bytes (holds q h) < 2 ^ 32 ∧ ∀ u ∈ tokens e, ¬ bad u
  | .tile q _ => (t.touch q (holds q h).isEmpty).1.atEnd = true
  | .text terms _ qs => (∀ u, u ∈ terms.or ∨ u ∈ terms.and ∨ u ∈ terms.not → ¬ bad u) ∧
      ∀ q ∈ qs, q ∉ t.damaged ∧ (terms.not = [] ∨ (holds q h).length ≤ 1048544)
  | _ => True

open Classical in
/-- The answers of allowed calls, text searches in terms of the ids of words. -/
noncomputable def Reply (tokens : El → List UInt32) (h : List (Event El)) (k : List QuadKey) : Op → Out El
  | .tile q none => .elements (holds q h)
  | .tile q (some n) => .elements ((holds q h).take n)
  | .hasData q => .flag (decide (q ∈ k))
  | .text terms hit qs => .elements (qs.flatMap fun q => (holds q h).filter fun e =>
      decide (BitmapIndex.Selects tokens (holds q h) terms e) && hit e)
  | _ => .done

theorem next_files (h : List (Event El)) (t : Track) (op : Op) : (t.next h op).files = known t.files op := by
  cases op with
  | text terms hit qs =>
    show (qs.foldl (Track.visit h) t).files = t.files
    induction qs generalizing t with
    | nil => rfl
    | cons q qs ih =>
      rw [List.foldl_cons, ih]
      unfold Track.visit; split <;> rfl
  | _ => rfl

variable {bad : UInt32 → Prop} {tokens : El → List UInt32}

theorem persistent_step {s : Store} {h : List (Event El)} {t : Track} (hi : Inv bad tokens s h t) {g : QuadKey → UInt32}
    (hg : ∀ q, bad (g q)) (op : Op) (ha : Allowed bad tokens h t op) :
    Inv bad tokens (step tokens g s op).1 (record h op) (t.next h op) ∧ (step tokens g s op).2 = Reply tokens h t.files op := by
  cases op with
  | save q e =>
    obtain ⟨a1, a2, a3, a4⟩ := ha
    rw [bytes_eq] at a3
    obtain ⟨s', e1, e2⟩ := hi.save (hg q) a4 a2 a3 a1
    simp only [step, e1]
    exact ⟨e2, rfl⟩
  | tile q c =>
    obtain ⟨s', e1, e2⟩ := hi.searchTile c ha
    simp only [step, e1]
    refine ⟨e2, ?_⟩
    cases c <;> rfl
  | text terms hit qs =>
    classical
    obtain ⟨a1, a2⟩ := ha
    obtain ⟨s', e1, e2⟩ := Inv.searchText terms hit (g := g) (fun u hu => a1 u (.inl hu)) (fun u hu => a1 u (.inr (.inl hu)))
      (fun u hu => a1 u (.inr (.inr hu))) (fun q e => BitmapIndex.Selects tokens (holds q h) terms e) qs hi (fun q _ => hg q)
      (fun q hq => (a2 q hq).2.imp_right (fun h => by simp only [Ewah.maxLit]; exact h)) (fun q hq => (a2 q hq).1)
      (fun _ _ _ _ => Iff.rfl)
    simp only [step, e1]
    refine ⟨e2, ?_⟩
    simp only [Reply]
  | hasData q =>
    refine ⟨hi, ?_⟩
    simp only [step, Reply, PersistentStore.hasData]
    congr 1
    rw [Bool.eq_iff_iff, decide_eq_true_iff]
    exact hi.files q
  | erase q => exact ⟨hi.erase q, rfl⟩
  | flush => exact ⟨hi.flush, rfl⟩
  | reopen => exact ⟨hi.flush, rfl⟩

/-- All calls are allowed. -/
def AllAllowed (bad : UInt32 → Prop) (tokens : El → List UInt32) : List (Event El) → Track → List Op → Prop
  | _, _, [] => True
  | h, t, op :: ops => Allowed bad tokens h t op ∧ AllAllowed bad tokens (record h op) (t.next h op) ops

/-- The answers of a run of allowed calls. -/
noncomputable def replies (tokens : El → List UInt32) : List (Event El) → List QuadKey → List Op → List (Out El)
  | _, _, [] => []
  | h, k, op :: ops => Reply tokens h k op :: replies tokens (record h op) (known k op) ops

theorem persistent_run (ops : List ((QuadKey → UInt32) × Op)) : ∀ {s : Store} {h : List (Event El)} {t : Track},
    Inv bad tokens s h t → (∀ p ∈ ops, ∀ q, bad (p.1 q)) → AllAllowed bad tokens h t (ops.map (·.2)) →
    (run tokens s ops).2 = replies tokens h t.files (ops.map (·.2)) := by
  induction ops with
  | nil => intro s h t _ _ _; rfl
  | cons p ops ih =>
    intro s h t hi hg ha
    obtain ⟨g, op⟩ := p
    obtain ⟨e1, e2⟩ := persistent_step hi (hg (g, op) List.mem_cons_self) op ha.1
    have := ih e1 (fun p hp => hg p (by simp [hp])) ha.2
    rw [next_files] at this
    simp only [run, e2, List.map_cons, replies, this]

/-- The general result: every history of allowed calls gets the specified answers, including text searches and cancelled tile
searches; `Track` follows which tiles are open and where their files stand. -/
theorem C16_allowed_histories_partial (ops : List ((QuadKey → UInt32) × Op)) (hg : ∀ p ∈ ops, ∀ q, bad (p.1 q))
    (ha : AllAllowed bad tokens [] Track.start (ops.map (·.2))) :
    (run tokens init ops).2 = replies tokens [] [] (ops.map (·.2)) :=
  persistent_run ops Inv.init hg ha

/-! ## Plain histories -/

theorem touch_end {t : Track} (h : ∀ o ∈ t.opened, o.2.atEnd = true) (q : QuadKey) (b : Bool) :
    (t.touch q b).1.atEnd = true ∧ ∀ o ∈ (t.touch q b).2, o.2.atEnd = true := by
  unfold Track.touch
  cases hf : t.opened.find q with
  | none => exact ⟨rfl, fun o ho => h o (List.mem_of_mem_take ho)⟩
  | some f => exact ⟨h _ (Assoc.mem_of_find _ _ _ hf), fun o ho => h o (List.mem_filter.1 ho).1⟩

theorem plain_allowed (ops : List Op) : ∀ {h : List (Event El)} {t : Track}, (∀ o ∈ t.opened, o.2.atEnd = true) →
    AllPlain h ops → (∀ q e, Op.save q e ∈ ops → ∀ u ∈ tokens e, ¬ bad u) → AllAllowed bad tokens h t ops := by
  induction ops with
  | nil => intro h t _ _ _; trivial
  | cons op ops ih =>
    intro h t ht hp hb
    obtain ⟨p1, p2⟩ := hp
    have hb' : ∀ q e, Op.save q e ∈ ops → ∀ u ∈ tokens e, ¬ bad u := fun q e he => hb q e (by simp [he])
    cases op with
    | save q e =>
      obtain ⟨t1, t2⟩ := touch_end ht q (holds q h).isEmpty
      refine ⟨⟨t1, p1.1, p1.2, hb q e (by simp)⟩, ih ?_ p2 hb'⟩
      intro o ho
      rcases List.mem_cons.1 ho with rfl | ho
      · rfl
      · exact t2 o ho
    | tile q c =>
      cases p1
      obtain ⟨t1, t2⟩ := touch_end ht q (holds q h).isEmpty
      refine ⟨t1, ih ?_ p2 hb'⟩
      intro o ho
      rcases List.mem_cons.1 ho with rfl | ho
      · rfl
      · exact t2 o ho
    | text => exact absurd p1 id
    | hasData q => exact ⟨trivial, ih ht p2 hb'⟩
    | erase q => exact ⟨trivial, ih (by simp [Track.next]) p2 hb'⟩
    | flush => exact ⟨trivial, ih (by simp [Track.next]) p2 hb'⟩
    | reopen => exact ⟨trivial, ih (by simp [Track.next]) p2 hb'⟩

theorem replies_agree (tokens : El → List UInt32) (ops : List Op) : ∀ h k, Agrees h k ops (replies tokens h k ops) := by
  induction ops with
  | nil => intro h k; trivial
  | cons op ops ih =>
    intro h k
    refine ⟨?_, ih _ _⟩
    cases op with
    | tile q c => cases c <;> rfl
    | text => trivial
    | _ => rfl

/-- The calls which both stores have. -/
def toMem : Op → Option (MemStore.Op El)
  | .save q e => some (.save q e)
  | .tile q c => some (.tile q c)
  | .erase q => some (.erase q)
  | _ => none

/-- The answers to these calls. -/
def shared : List Op → List (Out El) → List (Out El)
  | op :: ops, o :: os => if (toMem op).isSome then o :: shared ops os else shared ops os
  | _, _ => []

theorem shared_eq (ops : List Op) : ∀ (h : List (Event El)) (k : List QuadKey) (a b : List (Out El)), Agrees h k ops a →
    StoreSpec.Agrees h (ops.filterMap toMem) b → shared ops a = b := by
  induction ops with
  | nil =>
    intro h k a b ha hb
    cases a with
    | nil => cases b with
      | nil => rfl
      | cons => exact absurd hb id
    | cons => exact absurd ha id
  | cons op ops ih =>
    intro h k a b ha hb
    cases a with
    | nil => exact absurd ha id
    | cons o os =>
      obtain ⟨a1, a2⟩ := ha
      have go : ∀ m, toMem op = some m → (∀ y, StoreSpec.Answer h m y → y = o) → StoreSpec.record h m = record h op →
          shared (op :: ops) (o :: os) = b := by
        intro m hm hy hr
        rw [List.filterMap_cons, hm] at hb
        simp only [shared, hm, Option.isSome_some, if_true]
        cases b with
        | nil => exact absurd hb id
        | cons y ys =>
          rw [hy y hb.1]
          congr 1
          exact ih _ _ _ _ a2 (hr ▸ hb.2)
      have skip : toMem op = none → record h op = h → shared (op :: ops) (o :: os) = b := by
        intro hm hr
        rw [List.filterMap_cons, hm] at hb
        simp only [shared, hm, Option.isSome_none]
        rw [hr] at a2
        exact ih _ _ _ _ a2 hb
      cases op with
      | save q e => exact go _ rfl (fun y hy => hy.trans a1.symm) rfl
      | erase q => exact go _ rfl (fun y hy => hy.trans a1.symm) rfl
      | tile q c =>
        cases c with
        | none => exact go _ rfl (fun y hy => hy.trans a1.symm) rfl
        | some n => exact go _ rfl (fun y hy => hy.trans a1.symm) rfl
      | text => exact skip rfl rfl
      | hasData => exact skip rfl rfl
      | flush => exact skip rfl rfl
      | reopen => exact skip rfl rfl

/-- No indeterminate value is the id of a word of a saved element. -/
def NoClash (tokens : El → List UInt32) (ops : List ((QuadKey → UInt32) × Op)) : Prop :=
  ∀ p ∈ ops, ∀ p' ∈ ops, ∀ q q' e, p'.2 = .save q' e → p.1 q ∉ tokens e

/-- C16, partial. In every history of saves, tile searches, `hasData`, erasures, flushes and restarts every tile search yields
exactly the elements saved to this tile since it was last erased, oldest first; `hasData` is true for the tiles saved to or
searched since they were last erased. Excluded: text searches and cancelled tile searches, which leave the files at the wrong
position (`C16_violated_...` below), elements or data files too big for the format (C07), and indeterminate bitmap keys
which hit a word (`C16_violated_garbage_key`). -/
theorem C16_persistent_store_partial (ops : List ((QuadKey → UInt32) × Op)) (hp : AllPlain [] (ops.map (·.2)))
    (hc : NoClash tokens ops) : Agrees [] [] (ops.map (·.2)) (run tokens init ops).2 := by
  have := C16_allowed_histories_partial (bad := fun u => ∃ p ∈ ops, ∃ q, p.1 q = u) (tokens := tokens) ops
    (fun p hp q => ⟨p, hp, q, rfl⟩) (plain_allowed _ (by simp [Track.start]) hp (by
      rintro q' e he u hu ⟨p, hp, q, rfl⟩
      obtain ⟨p', h1, h2⟩ := List.mem_map.1 he
      exact hc p hp p' h1 q q' e h2 hu))
  rw [this]
  exact replies_agree _ _ _ _

/-- C16, partial, as the comparison of the two stores: the answers to the shared calls are those of an in-memory store given
these calls, wherever flushes and restarts occur. -/
theorem C16_same_as_in_memory_partial (ops : List ((QuadKey → UInt32) × Op)) (hp : AllPlain [] (ops.map (·.2)))
    (hc : NoClash tokens ops) :
    shared (ops.map (·.2)) (run tokens init ops).2 = (MemStore.run tokens MemStore.init ((ops.map (·.2)).filterMap toMem)).2 :=
  shared_eq _ _ _ _ _ (C16_persistent_store_partial ops hp hc) (C15_in_memory_store tokens _)

/-! ## Import, restart, query -/

/-- The history of an import. -/
def imported (saves : List (QuadKey × El)) : List (Event El) := saves.foldl (fun h p => .saved p.1 p.2 :: h) []

/-- A text search: query, box filter, tiles. -/
structure Search where
  query : TextQuery
  hit : El → Bool
  tiles : List QuadKey

/-- All tiles used so far are open and were empty when opened. -/
structure Fresh (h : List (Event El)) (t : Track) (ts : List QuadKey) : Prop where
  open_ : ∀ o ∈ t.opened, o.2 = ⟨true, true⟩ ∧ o.1 ∈ ts
  all : ∀ q, holds q h ≠ [] → ∃ o ∈ t.opened, o.1 = q
  nodup : (t.opened.map (·.1)).Nodup
  damaged : t.damaged = []

theorem Fresh.touch {h : List (Event El)} {t : Track} {ts : List QuadKey} (hf : Fresh h t ts) (hl : ts.length ≤ 12)
    {q : QuadKey} (hq : q ∈ ts) : (t.touch q (holds q h).isEmpty).1 = ⟨true, true⟩ ∧
      (∀ o ∈ (t.touch q (holds q h).isEmpty).2, o ∈ t.opened ∧ o.1 ≠ q) ∧
      (∀ o ∈ t.opened, o.1 ≠ q → o ∈ (t.touch q (holds q h).isEmpty).2) ∧
      ((t.touch q (holds q h).isEmpty).2.map (·.1)).Nodup := by
  unfold Track.touch
  cases hx : t.opened.find q with
  | some f =>
    refine ⟨(hf.open_ _ (Assoc.mem_of_find _ _ _ hx)).1, ?_, ?_, hf.nodup.sublist (List.filter_sublist.map _)⟩
    · intro o ho; simpa [Assoc.erase] using ho
    · intro o ho hne; simpa [Assoc.erase] using ⟨ho, hne⟩
  | none =>
    have hno := (Assoc.find_eq_none_iff _ _).1 hx
    have he : holds q h = [] := by
      by_contra hc
      obtain ⟨o, h1, h2⟩ := hf.all q hc
      exact hno o h1 h2
    have hlen : (q :: t.opened.map (·.1)).length ≤ ts.length := by
      apply List.Subperm.length_le
      apply List.subperm_of_subset
      · rw [List.nodup_cons]
        refine ⟨?_, hf.nodup⟩
        intro hc
        obtain ⟨o, h1, h2⟩ := List.mem_map.1 hc
        exact hno o h1 h2
      · intro x hx
        rcases List.mem_cons.1 hx with rfl | hx
        · exact hq
        · obtain ⟨o, h1, rfl⟩ := List.mem_map.1 hx
          exact (hf.open_ o h1).2
    have ht : t.opened.take 11 = t.opened := by
      apply List.take_of_length_le
      simp only [List.length_cons, List.length_map] at hlen
      omega
    simp only [ht, he]
    exact ⟨rfl, fun o ho => ⟨ho, hno o ho⟩, fun o ho _ => ho, hf.nodup⟩

theorem Fresh.save {h : List (Event El)} {t : Track} {ts : List QuadKey} (hf : Fresh h t ts) (hl : ts.length ≤ 12)
    {q : QuadKey} (hq : q ∈ ts) (e : El) : Fresh (.saved q e :: h) (t.next h (.save q e)) ts := by
  obtain ⟨h1, h2, h3, h4⟩ := hf.touch hl hq
  refine ⟨?_, ?_, ?_, ?_⟩
  · intro o ho
    rcases List.mem_cons.1 ho with rfl | ho
    · exact ⟨by simp [h1], hq⟩
    · exact hf.open_ o (h2 o ho).1
  · intro q' hne
    by_cases hqq : q' = q
    · subst hqq; exact ⟨_, List.mem_cons_self, rfl⟩
    · rw [holds, if_neg (fun hc => hqq hc.symm)] at hne
      obtain ⟨o, o1, rfl⟩ := hf.all q' hne
      exact ⟨o, List.mem_cons_of_mem _ (h3 o o1 hqq), rfl⟩
  · show (q :: (t.touch q (holds q h).isEmpty).2.map (·.1)).Nodup
    rw [List.nodup_cons]
    refine ⟨?_, h4⟩
    intro hc
    obtain ⟨o, o1, o2⟩ := List.mem_map.1 hc
    exact (h2 o o1).2 o2
  · simp [Track.next, h1, hf.damaged]

theorem texts_allowed (ss : List Op) : ∀ (h : List (Event El)) (t : Track), t.damaged = [] →
    (∀ op ∈ ss, ∃ terms hit qs, op = .text terms hit qs ∧ (∀ u, u ∈ terms.or ∨ u ∈ terms.and ∨ u ∈ terms.not → ¬ bad u) ∧
      ∀ q ∈ qs, (terms.not = [] ∨ (holds q h).length ≤ 1048544)) → AllAllowed bad tokens h t ss := by
  induction ss with
  | nil => intro h t _ _; trivial
  | cons op ss ih =>
    intro h t hd hs
    obtain ⟨terms, hit, qs, rfl, h1, h2⟩ := hs op (by simp)
    refine ⟨⟨h1, fun q hq => ⟨by simp [hd], h2 q hq⟩⟩, ih h _ ?_ (fun op hop => hs op (by simp [hop]))⟩
    show (qs.foldl (Track.visit h) t).damaged = []
    clear h2 hs
    induction qs generalizing t with
    | nil => exact hd
    | cons q qs ih' => exact ih' (t.visit h q) (by rw [PersistentStore.visit_damaged]; exact hd)

theorem imports_allowed (rest : List Op) (ts : List QuadKey) (hl : ts.length ≤ 12) (saves : List (QuadKey × El)) :
    ∀ {h : List (Event El)} {t : Track}, Fresh h t ts → (∀ p ∈ saves, p.1 ∈ ts ∧ Fits p.2 ∧ ∀ u ∈ tokens p.2, ¬ bad u) →
    (∀ q, bytes (holds q (saves.foldl (fun h p => .saved p.1 p.2 :: h) h)) < 2 ^ 32) →
    (∀ t', t'.damaged = [] → AllAllowed bad tokens (saves.foldl (fun h p => .saved p.1 p.2 :: h) h) t' rest) →
    AllAllowed bad tokens h t (saves.map (fun p => Op.save p.1 p.2) ++ .reopen :: rest) := by
  have mono : ∀ (saves : List (QuadKey × El)) (h : List (Event El)) (q : QuadKey),
      bytes (holds q h) ≤ bytes (holds q (saves.foldl (fun h p => .saved p.1 p.2 :: h) h)) := by
    intro saves
    induction saves with
    | nil => intro h q; exact Nat.le_refl _
    | cons p saves ih =>
      intro h q
      refine Nat.le_trans ?_ (ih _ q)
      rw [holds]
      split
      · simp [bytes]
      · exact Nat.le_refl _
  induction saves with
  | nil => intro h t hf _ _ hr; exact ⟨trivial, hr _ hf.damaged⟩
  | cons p saves ih =>
    intro h t hf hs hb hr
    obtain ⟨p1, p2, p3⟩ := hs p (by simp)
    refine ⟨⟨by rw [(hf.touch hl p1).1], p2, ?_, p3⟩, ih (hf.save hl p1 p.2) (fun p hp => hs p (by simp [hp])) hb hr⟩
    exact Nat.lt_of_le_of_lt (mono (p :: saves) h p.1) (hb p.1)

theorem replies_saves (rest : List Op) (saves : List (QuadKey × El)) : ∀ (h : List (Event El)) (k : List QuadKey),
    ∃ k', replies tokens h k (saves.map (fun p => Op.save p.1 p.2) ++ .reopen :: rest) =
      saves.map (fun _ => .done) ++ .done :: replies tokens (saves.foldl (fun h p => .saved p.1 p.2 :: h) h) k' rest := by
  induction saves with
  | nil => intro h k; exact ⟨k, rfl⟩
  | cons p saves ih =>
    intro h k
    obtain ⟨k', hk⟩ := ih (.saved p.1 p.2 :: h) (p.1 :: k)
    refine ⟨k', ?_⟩
    simp only [List.map_cons, List.cons_append, replies, record, known, hk, List.foldl_cons]
    rfl

/-- The program: an import, a restart, searches. -/
def session (st : Strings) (saves : List (QuadKey × El)) (searches : List Search) : List Op :=
  saves.map (fun p => Op.save p.1 p.2) ++ Op.reopen ::
    searches.map fun s => Op.text (parseTerms st s.query.not s.query.and s.query.or) s.hit s.tiles

open Classical in
/-- C17, partial. Elements are imported into at most twelve tiles, the program is started again, then any text searches are
made: each returns, tile by tile in storage order, exactly the imported elements matching its query. Required, besides the
conditions of C16 and C18: at most twelve tiles, and nothing is saved after the restart (`C17_violated_save_after_restart`
shows why). -/
theorem C17_search_after_restart_partial (st : Strings) (saves : List (QuadKey × El)) (searches : List Search)
    (g : Op → QuadKey → UInt32) (ts : List QuadKey) (hts : ts.length ≤ 12) (hin : ∀ p ∈ saves, p.1 ∈ ts)
    (hfit : ∀ p ∈ saves, Fits p.2) (hsize : ∀ q, bytes (holds q (imported saves)) < 2 ^ 32)
    (hgs : ∀ op q, ∀ p ∈ saves, g op q ∉ elementTokens st p.2)
    (hgq : ∀ op q, ∀ s ∈ searches, ∀ w, IsWord s.query.or w ∨ IsWord s.query.and w ∨ IsWord s.query.not w → g op q ≠ st.id w)
    (hd : ∀ s ∈ searches, ∀ t ∈ s.tiles, Distinct st s.query (holds t (imported saves)))
    (h1 : ∀ s ∈ searches, ∃ w, IsWord s.query.or w ∨ IsWord s.query.and w)
    (h2 : ∀ s ∈ searches, ∀ t ∈ s.tiles, holds t (imported saves) ≠ [] → (∃ w, IsWord s.query.and w) → (∃ w, IsWord s.query.or w) →
      ∃ w, IsWord s.query.or w ∧ ∃ e ∈ holds t (imported saves), HasWord st.str e w)
    (h3 : ∀ s ∈ searches, ∀ t ∈ s.tiles, (∃ w, IsWord s.query.not w) → (holds t (imported saves)).length ≤ 1048544) :
    (run (elementTokens st) init ((session st saves searches).map fun op => (g op, op))).2 =
      saves.map (fun _ => .done) ++ .done :: searches.map fun s => .elements (s.tiles.flatMap fun t =>
        (holds t (imported saves)).filter fun e => decide (s.query.Matches st.str e) && s.hit e) := by
  have hmap : ∀ ops : List Op, (ops.map fun op => (g op, op)).map (·.2) = ops := by
    intro ops; rw [List.map_map]; exact List.map_id' ops
  have hreplies : ∀ k, ∀ ss : List Search, (∀ s ∈ ss, s ∈ searches) →
      replies (elementTokens st) (imported saves) k
        (ss.map fun s => Op.text (parseTerms st s.query.not s.query.and s.query.or) s.hit s.tiles) =
      ss.map fun s => .elements (s.tiles.flatMap fun t =>
        (holds t (imported saves)).filter fun e => decide (s.query.Matches st.str e) && s.hit e) := by
    intro k ss
    induction ss with
    | nil => intro _; rfl
    | cons s ss ih =>
      intro hss
      have hs := hss s (by simp)
      simp only [List.map_cons, replies, record, known]
      rw [ih (fun x hx => hss x (by simp [hx]))]
      congr 1
      simp only [Reply]
      congr 1
      apply List.flatMap_congr
      intro t ht
      apply List.filter_congr
      intro e he
      congr 1
      rw [decide_eq_decide]
      exact selects_iff (hd s hs t ht) (h1 s hs) (h2 s hs t ht (List.ne_nil_of_mem he)) he
  unfold session
  rw [C16_allowed_histories_partial (bad := fun u => ∃ op q, g op q = u)]
  · rw [hmap]
    obtain ⟨k', hk⟩ := replies_saves (tokens := elementTokens st)
      (searches.map fun s => .text (parseTerms st s.query.not s.query.and s.query.or) s.hit s.tiles) saves [] []
    rw [hk]
    congr 2
    exact hreplies k' searches (fun _ h => h)
  · intro p hp q
    obtain ⟨op, -, rfl⟩ := List.mem_map.1 hp
    exact ⟨op, q, rfl⟩
  · rw [hmap]
    apply imports_allowed _ ts hts
    · exact ⟨by simp [Track.start], by simp [holds], by simp [Track.start], rfl⟩
    · intro p hp
      refine ⟨hin p hp, hfit p hp, ?_⟩
      rintro u hu ⟨op, q, rfl⟩
      exact hgs op q p hp hu
    · exact hsize
    · intro t' ht'
      apply texts_allowed _ _ _ ht'
      intro op hop
      obtain ⟨s, hs, rfl⟩ := List.mem_map.1 hop
      refine ⟨_, _, _, rfl, ?_, ?_⟩
      · rintro u hu ⟨op, q, rfl⟩
        simp only [parseTerms, BitmapIndex.mem_tokenize] at hu
        rcases hu with ⟨w, hw, e⟩ | ⟨w, hw, e⟩ | ⟨w, hw, e⟩
        · exact hgq op q s hs w (.inl hw) e.symm
        · exact hgq op q s hs w (.inr (.inl hw)) e.symm
        · exact hgq op q s hs w (.inr (.inr hw)) e.symm
      · intro q hq
        by_cases hn : ∃ w, IsWord s.query.not w
        · exact .inr (h3 s hs q hq hn)
        · left
          show BitmapIndex.tokenize st s.query.not = []
          rw [List.eq_nil_iff_forall_not_mem]
          intro x hx
          obtain ⟨w, hw, -⟩ := (BitmapIndex.mem_tokenize st s.query.not x).1 hx
          exact hn ⟨w, hw⟩

/-! ## Examples and violations -/

/-- A node whose tags have the keys `ks`; the token function lists the keys. -/
def point (id : UInt64) (ks : List UInt32) : El := .node id (ks.map fun k => ⟨k, 0⟩) ⟨id, 0⟩
def keyTokens (e : El) : List UInt32 := e.tags.map (·.key)

/-- What is shown of an answer: the ids and keys of the elements found. -/
def shown : Out El → Option (List (UInt64 × List UInt32))
  | .elements l => some (l.map fun e => (e.id, keyTokens e))
  | _ => none

/-- A run in which the indeterminate values are 0. -/
def runZero (ops : List Op) : List (Out El) := (run keyTokens init (ops.map fun op => (fun _ => 0, op))).2

def tile₁ : QuadKey := ⟨1, 0, 0⟩
def all : El → Bool := fun _ => true

/-- The hypotheses of `C16_persistent_store_partial` are met by a history with a restart and an erasure. -/
example : let ops : List Op := [.save tile₁ (point 1 [97]), .save tile₁ (point 2 [98]), .reopen, .save tile₁ (point 3 []),
      .tile tile₁ none, .erase tile₁, .save tile₁ (point 4 [97, 98]), .flush, .tile tile₁ none, .hasData tile₁]
    AllPlain [] ops ∧ NoClash keyTokens (ops.map fun op => (fun _ => 0, op)) ∧
    (runZero ops).map shown = [none, none, none, none, some [(1, [97]), (2, [98]), (3, [])], none, none, none, some [(4, [97, 98])], none] := by
  refine ⟨?_, ?_, by decide +kernel⟩
  · refine ⟨⟨?_, ?_⟩, ⟨?_, ?_⟩, trivial, ⟨?_, ?_⟩, rfl, trivial, ⟨?_, ?_⟩, trivial, rfl, trivial, trivial⟩ <;>
      first | (with_unfolding_all decide) | (unfold Fits point; simp)
  · intro p hp p' hp' q q' e he
    simp only [List.map_cons, List.map_nil, List.mem_cons, List.not_mem_nil, or_false] at hp hp'
    have hz : p.1 q = 0 := by rcases hp with h | h | h | h | h | h | h | h | h | h <;> rw [h]
    rw [hz]
    rcases hp' with h | h | h | h | h | h | h | h | h | h <;> subst h <;> cases he <;> decide

/-- C16 is violated: after a text search the next tile search finds only the elements up to the last one found. -/
theorem C16_violated_after_text_search :
    (runZero [.save tile₁ (point 1 [97]), .save tile₁ (point 2 [98]), .text ⟨[], [97], []⟩ all [tile₁], .tile tile₁ none]).map shown =
      [none, none, some [(1, [97])], some [(1, [97])]] := by decide +kernel

/-- C16 is violated: after a cancelled tile search the next save is stored with a wrong offset. Element 3 with key 99 is lost
for good: in its place element 2 appears again, under the id 3. -/
theorem C16_violated_after_cancelled_search :
    (runZero [.save tile₁ (point 1 [97]), .save tile₁ (point 2 [98]), .tile tile₁ (some 1), .save tile₁ (point 3 [99]),
      .reopen, .tile tile₁ none]).map shown =
      [none, none, some [(1, [97])], none, none, some [(1, [97]), (2, [98]), (3, [98])]] := by decide +kernel

/-- C16 is violated: `hasData` becomes true when an unknown tile is searched. -/
theorem C16_violated_hasData :
    runZero [.hasData tile₁, .tile tile₁ none, .hasData tile₁] = [.flag false, .elements [], .flag true] := by
  with_unfolding_all rfl

/-- C16 is violated: when the indeterminate key of BitmapStream.cpp:6 is the id of a word of the element, saving it is undefined
behaviour. -/
theorem C16_violated_garbage_key :
    (run keyTokens init [(fun _ => 97, .save tile₁ (point 1 [97]))]).2 = [.failed (.ub "EWAH set")] := by
  with_unfolding_all rfl

/-- The elements 0, 64 and 96 of a tile have the key 97. -/
def spread (n : Nat) : List Op :=
  (List.range n).map fun i => .save tile₁ (point i.toUInt64 (if i = 0 ∨ i = 64 ∨ i = 96 then [97] else []))

/-- C17 is violated: saving into a tile which is not empty after a restart (or after its eviction from the cache of twelve tiles)
spoils the text index. The elements with key 97 are 0, 64 and 96, but 0, 33 and 49 are returned. -/
theorem C17_violated_save_after_restart :
    ((runZero (spread 96 ++ [.reopen, .save tile₁ (point 96 [97]), .text ⟨[], [97], []⟩ all [tile₁]])).getLast?.bind shown) =
      some [(0, [97]), (33, []), (49, [])] := by decide +kernel

/-- Without the restart the answer is right. -/
theorem C17_save_without_restart :
    ((runZero (spread 97 ++ [.text ⟨[], [97], []⟩ all [tile₁]])).getLast?.bind shown) =
      some [(0, [97]), (64, [97]), (96, [97])] := by decide +kernel

/-- Nodes `a=b` and `a=c` in one tile and the and-word `b`: the hypotheses of `C17_search_after_restart_partial` are met. -/
example : (run (elementTokens letters) init ((session letters
      [(tile₁, .node 1 [⟨97, 98⟩] ⟨0, 0⟩), (tile₁, .node 2 [⟨97, 99⟩] ⟨0, 0⟩)] [⟨⟨[], [98], []⟩, all, [tile₁]⟩]).map fun op => ((fun _ _ => 0) op, op))).2 =
    [.done, .done, .done, .elements [.node 1 [⟨97, 98⟩] ⟨0, 0⟩]] := by
  have e1 : ∀ c, c = 97 ∨ c = 98 ∨ c = 99 → BitmapIndex.splitTokens [] [c] = [[c]] := by
    rintro c (rfl | rfl | rfl) <;> decide
  have hw : ∀ c, c = 97 ∨ c = 98 ∨ c = 99 → ∀ w, IsWord [c] w ↔ w = [c] := by
    intro c hc w; rw [isWord_iff, e1 c hc, List.mem_singleton]
  have hn : ∀ w, ¬ IsWord [] w := by intro w; rw [isWord_iff]; simp [BitmapIndex.splitTokens]
  have hh1 : ∀ w, HasWord letters.str (.node 1 [⟨97, 98⟩] ⟨0, 0⟩ : El) w ↔ w = [97] ∨ w = [98] := by
    intro w
    simp only [HasWord, Element.tags, List.mem_singleton, exists_eq_left]
    rw [← hw 97 (by simp), ← hw 98 (by simp)]
    rfl
  have hh2 : ∀ w, HasWord letters.str (.node 2 [⟨97, 99⟩] ⟨0, 0⟩ : El) w ↔ w = [97] ∨ w = [99] := by
    intro w
    simp only [HasWord, Element.tags, List.mem_singleton, exists_eq_left]
    rw [← hw 97 (by simp), ← hw 99 (by simp)]
    rfl
  have hold : holds tile₁ (imported [(tile₁, .node 1 [⟨97, 98⟩] ⟨0, 0⟩), (tile₁, .node 2 [⟨97, 99⟩] ⟨0, 0⟩)]) =
      [.node 1 [⟨97, 98⟩] ⟨0, 0⟩, .node 2 [⟨97, 99⟩] ⟨0, 0⟩] := rfl
  rw [C17_search_after_restart_partial letters _ _ (fun _ _ => 0) [tile₁] (by simp) (by simp)]
  · classical
    have m1 : (⟨[], [98], []⟩ : TextQuery).Matches letters.str (.node 1 [⟨97, 98⟩] ⟨0, 0⟩ : El) :=
      ⟨fun ⟨w, h⟩ => absurd h (hn w), fun w h => (hh1 w).2 (.inr ((hw 98 (by simp) w).1 h)), fun w h => absurd h (hn w)⟩
    have m2 : ¬ (⟨[], [98], []⟩ : TextQuery).Matches letters.str (.node 2 [⟨97, 99⟩] ⟨0, 0⟩ : El) := by
      rintro ⟨-, h, -⟩
      have := (hh2 [98]).1 (h [98] ((hw 98 (by simp) _).2 rfl))
      revert this; decide
    simp [hold, m1, m2, all]
  · intro p hp
    simp only [List.mem_cons, List.not_mem_nil, or_false] at hp
    rcases hp with rfl | rfl <;> simp [Fits]
  · intro q
    by_cases hq : q = tile₁
    · subst hq; rw [hold]; with_unfolding_all decide
    · have : tile₁ ≠ q := fun h => hq h.symm
      simp [imported, holds, this, bytes]
  · intro op q p hp
    simp only [List.mem_cons, List.not_mem_nil, or_false] at hp
    rcases hp with rfl | rfl <;> decide
  · intro op q s hs w h
    simp only [List.mem_singleton] at hs
    subst hs
    rcases h with h | h | h
    · exact absurd h (hn w)
    · rw [(hw 98 (by simp) w).1 h]; decide
    · exact absurd h (hn w)
  · intro s hs t ht
    simp only [List.mem_singleton] at hs
    subst hs
    simp only [List.mem_singleton] at ht
    subst ht
    rw [hold]
    intro w w' h h' e
    have h : w = [98] := by
      rcases h with h | h | h
      · exact absurd h (hn w)
      · exact (hw 98 (by simp) w).1 h
      · exact absurd h (hn w)
    subst h
    have h' : w' = [97] ∨ w' = [98] ∨ w' = [99] := by
      obtain ⟨x, hx, hxw⟩ := h'
      simp only [List.mem_cons, List.not_mem_nil, or_false] at hx
      rcases hx with rfl | rfl
      · rw [hh1] at hxw; tauto
      · rw [hh2] at hxw; tauto
    rcases h' with rfl | rfl | rfl <;> first | rfl | (revert e; decide)
  · intro s hs
    simp only [List.mem_singleton] at hs
    subst hs
    exact ⟨[98], .inr ((hw 98 (by simp) _).2 rfl)⟩
  · intro s hs t ht _ _ h
    simp only [List.mem_singleton] at hs
    subst hs
    obtain ⟨w, h⟩ := h
    exact absurd h (hn w)
  · intro s hs t ht h
    simp only [List.mem_singleton] at hs
    subst hs
    obtain ⟨w, h⟩ := h
    exact absurd h (hn w)

end Verif.Props
