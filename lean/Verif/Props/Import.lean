import Verif.Props.ImportSpec
import Verif.Props.OsmXml
import Verif.Props.OsmStream
import Verif.Props.GeoStore

/-! # C95: importing OSM files in XML, from the text to the tiles -/
namespace Verif.Props
open Verif.Import Verif.ImportSpec
open Verif.Clipper (El)
open Verif.OsmStream (Entry Added visitAll added)
open Verif.OsmStreamSpec (Represents Complete Encloses)
open Verif.OsmXml (Event parse)
open Verif.OsmXmlSpec (Doc events Head Lead PrintsBody)
open Verif.GeoStore (memIface)
open Verif.GeoStoreSpec (Stores update)
open Verif.ElementStoreSpec Verif.BboxSpec
open GeoStoreProof

namespace ImportProof

/-! ## The store -/
section
variable {E : Type}

theorem run_run (tokens : E → List UInt32) : ∀ (u v : List (MemStore.Op E)) (s : MemStore.Store E),
    (MemStore.run tokens (MemStore.run tokens s u).1 v).1 = (MemStore.run tokens s (u ++ v)).1 := by
  intro u
  induction u with
  | nil => intro v s; rfl
  | cons o u ih => intro v s; simp only [MemStore.run, List.cons_append]; exact ih v _

theorem saveAll_run {tokens : E → List UInt32} (l : List (QuadKey × E)) : ∀ {s : MemStore.Store E} {h : List (StoreSpec.Event E)}, MemStore.Inv tokens s h →
    ∃ s' h', GeoStore.saveAll (memIface tokens) s l = .ok s' ∧ s' = (MemStore.run tokens s (l.map fun x => .save x.1 x.2)).1 ∧ MemStore.Inv tokens s' h' ∧
      ∀ q, MemStore.searchTile s' q none = MemStore.searchTile s q none ++ (l.filter fun x => x.1 = q).map (·.2) := by
  induction l with
  | nil => intro s h hi; exact ⟨s, h, rfl, rfl, hi, by simp⟩
  | cons x l ih =>
    intro s h hi
    obtain ⟨q, e⟩ := x
    obtain ⟨s1, h1, h2⟩ := hi.save q e
    obtain ⟨s', h', a1, a2, a3, a4⟩ := ih h2
    refine ⟨s', h', ?_, ?_, a3, fun p => ?_⟩
    · simp only [GeoStore.saveAll]
      rw [show (memIface tokens).save s q e = .ok s1 from h1]
      exact a1
    · rw [a2]
      simp only [List.map_cons, MemStore.run, MemStore.step, h1]
    · rw [a4, h2.searchTile, hi.searchTile]
      simp only [StoreSpec.holds, List.filter_cons]
      by_cases hq : q = p <;> simp [hq]

theorem importFile_run {tokens : E → List UInt32} (ls : List (List (QuadKey × E))) : ∀ {s : MemStore.Store E} {h : List (StoreSpec.Event E)},
    MemStore.Inv tokens s h →
    ∃ s' h', GeoStore.importFile (memIface tokens) (some s) ls = .ok (some s') ∧
      (∃ ops, s' = (MemStore.run tokens s ops).1) ∧ MemStore.Inv tokens s' h' ∧
      ∀ q, MemStore.searchTile s' q none = MemStore.searchTile s q none ++ (ls.flatten.filter fun x => x.1 = q).map (·.2) := by
  induction ls with
  | nil => intro s h hi; exact ⟨s, h, rfl, ⟨[], rfl⟩, hi, by simp⟩
  | cons l ls ih =>
    intro s h hi
    obtain ⟨s1, h1, a1, a2, a3, a4⟩ := saveAll_run l hi
    obtain ⟨s', h', b1, ⟨ops, b2⟩, b3, b4⟩ := ih a3
    refine ⟨s', h', ?_, ⟨l.map (fun x => .save x.1 x.2) ++ ops, ?_⟩, b3, fun q => ?_⟩
    · simp only [GeoStore.importFile, GeoStore.withStore, a1, Outcome.bind]
      exact b1
    · rw [b2, a2]
      exact run_run tokens _ _ _
    · rw [b4, a4]
      simp

variable {K : Type} [LinearOrder K]

/-- What a store has in a tile. -/
def tileOf (q : QuadKey) (e : K × Option (MemStore.Store E)) : List E :=
  match e.2 with
  | some s => MemStore.searchTile s q none
  | none => []

theorem visit_mem (tokens : E → List UInt32) (q : QuadKey) (m : GeoStore.Map K (MemStore.Store E)) (h : ∀ e ∈ m, e.2 ≠ none) :
    GeoStore.visit (GeoStore.searchIfData (memIface tokens) q) m = .ok (m, m.flatMap (tileOf q)) := by
  induction m with
  | nil => rfl
  | cons e m ih =>
    obtain ⟨k, p⟩ := e
    cases p with
    | none => exact absurd rfl (h (k, none) (by simp))
    | some s =>
      have : GeoStore.searchIfData (memIface tokens) q s = .ok (s, MemStore.searchTile s q none) := by
        unfold GeoStore.searchIfData
        show (if MemStore.hasData s q = true then Outcome.ok (s, MemStore.searchTile s q none) else .ok (s, [])) = _
        split
        · rfl
        · rename_i hn
          unfold MemStore.hasData at hn
          unfold MemStore.searchTile
          split
          · rfl
          · rename_i he; rw [he] at hn; simp at hn
      simp only [GeoStore.visit, this, Outcome.bind, ih fun e he => h e (by simp [he])]
      rfl

theorem put_tiles (q : QuadKey) {m : GeoStore.Map K (MemStore.Store E)} {k : K} {s s' : MemStore.Store E} {extra : List E}
    (hs : m.Pairwise fun a b => a.1 < b.1) (hm : (k, some s) ∈ m) (he : MemStore.searchTile s' q none = MemStore.searchTile s q none ++ extra) :
    ((GeoStore.put k s' m).flatMap (tileOf q)).Perm (m.flatMap (tileOf q) ++ extra) := by
  induction m with
  | nil => simp at hm
  | cons e m ih =>
    rw [List.pairwise_cons] at hs
    rcases List.mem_cons.1 hm with rfl | hm
    · have : GeoStore.put k s' m = m := by
        unfold GeoStore.put
        conv_rhs => rw [← List.map_id m]
        refine List.map_congr_left fun e he => ?_
        rw [if_neg (hs.1 e he).ne']
        rfl
      have h2 : GeoStore.put k s' ((k, some s) :: m) = (k, some s') :: m := by
        conv_rhs => rw [← this]
        simp [GeoStore.put]
      rw [h2]
      simp only [List.flatMap_cons, tileOf, he, List.append_assoc]
      exact List.Perm.append_left _ List.perm_append_comm
    · have h2 : GeoStore.put k s' (e :: m) = e :: GeoStore.put k s' m := by
        simp only [GeoStore.put, List.map_cons]
        rw [if_neg (hs.1 _ hm).ne]
      rw [h2]
      simp only [List.flatMap_cons, List.append_assoc]
      exact List.Perm.append_left _ (ih hs.2 hm)

theorem abs_some {m : GeoStore.Map K (MemStore.Store E)} {A : Stores K (MemStore.Store E)} (hm : Abs m A) : ∀ e ∈ m, e.2 ≠ none := by
  rintro ⟨k, p⟩ he rfl
  obtain ⟨s, h, -⟩ := (hm.mem k none).1 he
  cases h

/-- Importing into the stores: never fails, and adds what is to be saved. -/
theorem addFile_mem {tokens : E → List UInt32} {m : GeoStore.Map K (MemStore.Store E)} {A : Stores K (MemStore.Store E)} (hm : Abs m A) (hu : Used tokens A)
    {k : K} {s : MemStore.Store E} (hk : A k = some s) (l : List (List (QuadKey × E))) :
    ∃ m' s', GeoStore.step (memIface tokens) m (.addFile k (some l) .range false) = (m', .done) ∧ Abs m' (update A k s') ∧ Used tokens (update A k s') ∧
      ∀ q, ∃ old new, (GeoStore.step (memIface tokens) m (.tile q)).2 = .elements old ∧ (GeoStore.step (memIface tokens) m' (.tile q)).2 = .elements new ∧
        new.Perm (old ++ (l.flatten.filter fun x => x.1 = q).map (·.2)) := by
  obtain ⟨ops, rfl⟩ := hu k s hk
  obtain ⟨s', h', b1, ⟨ops', b2⟩, -, b4⟩ := importFile_run l (run_inv ops (MemStore.Inv.init tokens)).1
  obtain ⟨e1, e2⟩ := hm.subscript hk
  have ha := hm.put hk s'
  refine ⟨GeoStore.put k s' m, s', ?_, ha, ?_, fun q => ?_⟩
  · simp only [GeoStore.step, e1, e2, b1, GeoStore.putPtr, Bool.false_eq_true, if_false]
  · intro k' t ht
    unfold update at ht
    split at ht
    · obtain rfl := Option.some.inj ht
      exact ⟨ops ++ ops', by rw [b2, run_run]⟩
    · exact hu k' t ht
  · refine ⟨_, _, ?_, ?_, put_tiles q hm.sorted ((hm.mem _ _).2 ⟨_, rfl, hk⟩) (b4 q)⟩
    · simp only [GeoStore.step, visit_mem tokens q m (abs_some hm)]
    · simp only [GeoStore.step, visit_mem tokens q _ (abs_some ha)]

end

/-! ## Where an element is saved -/

/-- The elements of entities/ -/
def element : Added ℝ → El
  | .node n => .node n.id n.tags n.coordinate
  | .way p => .way p.id p.tags p.coordinates
  | .area p => .area p.id p.tags p.coordinates

theorem not_meets {e : El} (h : ClipperSpec.points e = []) (q : QuadKey) : ¬ Meets e q := by
  rintro ⟨-, p, h1, -⟩
  have := h1 ⟨⟨1, 1⟩, ⟨0, 0⟩⟩ (by simp [h])
  have := this.1.trans this.2.1
  norm_num at this

theorem saves_seen (env : Env) {target : Target} (ht : Sensible target) {e : El} (hg : ∀ p ∈ ClipperSpec.points e, OnGlobe p) :
    ∃ l, saves env target e = .ok l ∧ ∀ q, (l.filter fun x => x.1 = q).map (·.2) = (seen env.eng env.style target q e).toList := by
  by_cases hempty : ClipperSpec.points e = []
  · have hno : ∀ q, seen env.eng env.style target q e = none := by
      intro q
      unfold seen
      rw [if_neg]
      rintro ⟨-, -, hm⟩
      exact not_meets hempty q hm
    cases target with
    | range r => exact ⟨_, rfl, fun q => by rw [hno]; unfold ElementStore.storeRange; rw [(C19_no_coordinates env.eng (env.style e) _ e hempty r).1]; rfl⟩
    | tile p =>
      obtain ⟨hv, h1, h2⟩ := ht
      have hm : LodRange.make p.lod p.lod = .ok ⟨p.lod, p.lod⟩ := by
        unfold LodRange.make
        rw [if_neg]
        unfold minLod maxLod
        omega
      refine ⟨(ElementStore.store env.eng (env.style e) (ElementStore.acceptTile p) e ⟨p.lod, p.lod⟩).saves, by simp only [saves, ElementStore.storeInTile, hm, Outcome.bind], fun q => ?_⟩
      rw [hno, (C19_no_coordinates env.eng (env.style e) _ e hempty _).1]; rfl
    | box b r => exact ⟨_, rfl, fun q => by rw [hno]; unfold ElementStore.storeInBox; rw [(C19_no_coordinates env.eng (env.style e) _ e hempty r).1]; rfl⟩
  have he : Located e := ⟨hempty, hg⟩
  have key : ∀ (l : List (QuadKey × El)), (l.map Prod.fst).Nodup → (∀ q e', (q, e') ∈ l ↔ Wanted target e q ∧ Styled (env.style e q.lod) ∧ Meets e q ∧
      ((env.style e q.lod).clip = true → Clipper.clip env.eng (Mercator.tileBox q) e = some e') ∧ ((env.style e q.lod).clip = false → e' = e)) →
      ∀ q, (l.filter fun x => x.1 = q).map (·.2) = (seen env.eng env.style target q e).toList := by
    intro l hn hl q
    have hmem : ∀ e', e' ∈ (l.filter fun x => x.1 = q).map (·.2) ↔ e' ∈ (seen env.eng env.style target q e).toList := by
      intro e'
      have : e' ∈ (l.filter fun x => x.1 = q).map (·.2) ↔ (q, e') ∈ l := by
        simp only [List.mem_map, List.mem_filter, decide_eq_true_eq]
        constructor
        · rintro ⟨⟨a, b⟩, ⟨h1, rfl⟩, rfl⟩; exact h1
        · intro h; exact ⟨_, ⟨h, rfl⟩, rfl⟩
      rw [this, hl]
      unfold seen
      by_cases hc : Wanted target e q ∧ Styled (env.style e q.lod) ∧ Meets e q
      · rw [if_pos hc]
        obtain ⟨h1, h2, h3⟩ := hc
        rcases Bool.eq_false_or_eq_true (env.style e q.lod).clip with hb | hb
        · simp [hb, h1, h2, h3]
        · simp [hb, h1, h2, h3]
      · rw [if_neg hc]
        constructor
        · rintro ⟨h1, h2, h3, -⟩; exact absurd ⟨h1, h2, h3⟩ hc
        · simp
    have hlen : ((l.filter fun x => x.1 = q).map (·.2)).length ≤ 1 := by
      rw [List.length_map]
      have hp : (l.filter fun x => x.1 = q).Pairwise fun a b => a.1 ≠ b.1 := (List.pairwise_map.1 hn).filter _
      have hq : ∀ a ∈ l.filter fun x => x.1 = q, a.1 = q := fun a ha => by simpa using (List.mem_filter.1 ha).2
      generalize (l.filter fun x => x.1 = q) = u at hp hq
      match u, hp, hq with
      | [], _, _ => simp
      | [_], _, _ => simp
      | a :: b :: r, hp, hq =>
        rw [List.pairwise_cons] at hp
        exact absurd ((hq a (by simp)).trans (hq b (by simp)).symm) (hp.1 b (by simp))
    generalize (l.filter fun x => x.1 = q).map (·.2) = u at hmem hlen
    generalize seen env.eng env.style target q e = o at hmem
    match u, o with
    | [], none => rfl
    | [], some x => exact absurd ((hmem x).2 (by simp)) (by simp)
    | [x], none => exact absurd ((hmem x).1 (by simp)) (by simp)
    | [x], some y =>
      have := (hmem x).1 (by simp)
      simp only [Option.mem_toList, Option.some.injEq] at this
      rw [this]; rfl
    | _ :: _ :: _, _ => simp at hlen
  cases target with
  | range r =>
    refine ⟨_, rfl, key _ (C19_once_per_tile _ _ _ _ r) fun q e' => ?_⟩
    rw [C19_store_range_partial env.eng (env.style e) e he r ht]
    exact Iff.rfl
  | tile p =>
    obtain ⟨hv, h1, h2⟩ := ht
    obtain ⟨s, hs, hmem, -⟩ := (C19_store_in_tile_partial env.eng (env.style e) e he p hv).1 h1 h2
    refine ⟨s.saves, by simp only [saves, hs, Outcome.bind], key _ ?_ fun q e' => ?_⟩
    · unfold ElementStore.storeInTile at hs
      split at hs
      · rw [← Outcome.ok.inj hs]; exact C19_once_per_tile _ _ _ _ _
      · cases hs
      · cases hs
    · rw [hmem]
      simp only [Wanted]
      constructor
      · rintro ⟨rfl, h⟩; exact ⟨rfl, h⟩
      · rintro ⟨rfl, h⟩; exact ⟨rfl, h⟩
  | box b r =>
    refine ⟨_, rfl, key _ (C19_once_per_tile _ _ _ _ r) fun q e' => ?_⟩
    rw [(C19_store_in_box_partial env.eng (env.style e) e he b ht.1 r ht.2).1, C19_store_range_partial env.eng (env.style e) e he r ht.2]
    simp only [Wanted]
    tauto

theorem collect_seen (env : Env) {target : Target} (ht : Sensible target) (es : List El) (he : ∀ e ∈ es, ∀ p ∈ ClipperSpec.points e, OnGlobe p) :
    ∃ l, collect env target es = .ok l ∧ ∀ q, (l.flatten.filter fun x => x.1 = q).map (·.2) = es.filterMap (seen env.eng env.style target q) := by
  induction es with
  | nil => exact ⟨[], rfl, by simp⟩
  | cons e es ih =>
    obtain ⟨a, h1, h2⟩ := saves_seen env ht (he e (by simp))
    obtain ⟨as, h3, h4⟩ := ih fun x hx => he x (by simp [hx])
    refine ⟨a :: as, by simp only [collect, h1, h3, Outcome.bind], fun q => ?_⟩
    simp only [List.flatten_cons, List.filter_append, List.map_append, h2, h4]
    cases h : seen env.eng env.style target q e <;> simp [h]

/-! ## What is in the file -/

/-- The numbers which are written are not too large, and ways are not empty. -/
def Small (d : Doc) : Prop :=
  (∀ n ∈ d.nodes, n.id < 2 ^ 64) ∧ ∀ w ∈ d.ways, w.id < 2 ^ 64 ∧ w.refs ≠ [] ∧ ∀ i ∈ w.refs, i < 2 ^ 64

theorem each_mem {α : Type} {P : α → List Char → Prop} {as : List α} {w : List Char} (h : OsmXmlSpec.Each P as w) : ∀ a ∈ as, ∃ v, P a v := by
  induction h with
  | nil => simp
  | cons a as w v ha _ ih =>
    intro x hx
    rcases List.mem_cons.1 hx with rfl | hx
    · exact ⟨_, ha⟩
    · exact ih x hx

theorem small_node {n : OsmXml.Node} {v : List Char} (h : OsmXmlSpec.PrintsNode n v) : n.id < 2 ^ 64 := by
  obtain ⟨_, _, -, ⟨_, _, ⟨_, _, -, ⟨b, d, c, -, -, h, -⟩, -⟩, -⟩, -⟩ := h
  exact h

theorem small_way {x : OsmXml.Way} {v : List Char} (h : OsmXmlSpec.PrintsWay x v) : x.id < 2 ^ 64 ∧ x.refs ≠ [] ∧ ∀ i ∈ x.refs, i < 2 ^ 64 := by
  obtain ⟨hr, _, _, -, ⟨_, _, ⟨_, _, -, ⟨b, d, c, -, -, h, -⟩, -⟩, ⟨_, _, -, ⟨_, _, he, -⟩, -⟩, -⟩, -⟩ := h
  refine ⟨h, hr, fun i hi => ?_⟩
  obtain ⟨v, _, _, -, ⟨_, _, ⟨_, _, -, ⟨b, d, c, -, -, h, -⟩, -⟩, -⟩, -⟩ := each_mem he i hi
  exact h

theorem small_body {d : Doc} {w : List Char} (h : PrintsBody d w) : Small d := by
  obtain ⟨_, _, -, ⟨_, _, hn, ⟨_, _, hw, -⟩, -⟩, -⟩ := h
  exact ⟨fun n hn' => (each_mem hn n hn').elim fun _ => small_node, fun x hx => (each_mem hw x hx).elim fun _ => small_way⟩

theorem small_elements {d : Doc} {w : List Char} (h : OsmXmlSpec.PrintsElements d w) : Small d := by
  obtain ⟨_, _, -, ⟨_, _, hn, ⟨_, _, hw, -⟩, -⟩, -⟩ := h
  exact ⟨fun n hn' => (each_mem hn n hn').elim fun _ => small_node, fun x hx => (each_mem hw x hx).elim fun _ => small_way⟩

theorem ofNat_inj {a b : Nat} (ha : a < 2 ^ 64) (hb : b < 2 ^ 64) (h : UInt64.ofNat a = UInt64.ofNat b) : a = b := by
  have := congrArg UInt64.toNat h
  rwa [UInt64.toNat_ofNat_of_lt' ha, UInt64.toNat_ofNat_of_lt' hb] at this

noncomputable def nodeEntry (n : OsmXml.Node) : Entry ℝ := .node (UInt64.ofNat n.id) (place n) (n.tags.map rawTag)
noncomputable def wayEntry (w : OsmXml.Way) : Entry ℝ := .way (UInt64.ofNat w.id) (w.refs.map UInt64.ofNat) (w.tags.map rawTag)
noncomputable def itemEntry : Item → Entry ℝ
  | .node n => nodeEntry n
  | .way w => wayEntry w

theorem entries (d : Doc) : (events d).filterMap entry = d.nodes.map nodeEntry ++ d.ways.map wayEntry := by
  have h1 : ∀ l : List OsmXml.Node, (l.map Event.node).filterMap entry = l.map nodeEntry := by
    intro l; induction l with
    | nil => rfl
    | cons a l ih => simp [entry, nodeEntry, place] at ih ⊢; exact ih
  have h2 : ∀ l : List OsmXml.Way, (l.map Event.way).filterMap entry = l.map wayEntry := by
    intro l; induction l with
    | nil => rfl
    | cons a l ih => simp [entry, wayEntry] at ih ⊢; exact ih
  have h3 : ∀ l : List OsmXml.Relation, (l.map fun r => Event.relation ⟨r.id, r.members.map fun m => ⟨OsmXmlSpec.short m.type, m.ref, m.role⟩, r.tags⟩).filterMap entry = [] := by
    intro l; induction l with
    | nil => rfl
    | cons a l ih => simp [entry]
  unfold events
  simp only [List.filterMap_append, h1, h2, h3, List.append_nil]
  cases d.bounds <;> simp [entry]

theorem relations_none {d : Doc} (h : d.relations = []) : (events d).filterMap relationOf = [] := by
  unfold events
  rw [h]
  simp only [List.filterMap_append, List.map_nil, List.filterMap_nil, List.append_nil, List.append_eq_nil_iff, List.filterMap_eq_nil_iff]
  refine ⟨⟨?_, ?_⟩, ?_⟩
  · cases d.bounds <;> simp [relationOf]
  · simp [relationOf]
  · simp [relationOf]

theorem items_entries (d : Doc) : (events d).filterMap entry = (items d).map itemEntry := by
  rw [entries]
  simp [items, itemEntry, Function.comp_def]

theorem nodeIds_entries (d : Doc) : OsmStreamSpec.nodeIds ((events d).filterMap entry) = d.nodes.map fun n => UInt64.ofNat n.id := by
  rw [entries]
  have h0 : ∀ a b : List (Entry ℝ), OsmStreamSpec.nodeIds (a ++ b) = OsmStreamSpec.nodeIds a ++ OsmStreamSpec.nodeIds b := fun a b => List.filterMap_append
  have h1 : ∀ l : List OsmXml.Node, OsmStreamSpec.nodeIds (l.map nodeEntry) = l.map fun n => UInt64.ofNat n.id := by
    intro l; induction l with
    | nil => rfl
    | cons a l ih => rw [List.map_cons, List.map_cons, ← ih]; rfl
  have h2 : ∀ l : List OsmXml.Way, OsmStreamSpec.nodeIds (l.map wayEntry) = [] := by
    intro l; induction l with
    | nil => rfl
    | cons a l ih => rw [List.map_cons, ← ih]; rfl
  rw [h0, h1, h2]
  simp

theorem wayIds_entries (d : Doc) : OsmStreamSpec.wayIds ((events d).filterMap entry) = d.ways.map fun n => UInt64.ofNat n.id := by
  rw [entries]
  have h0 : ∀ a b : List (Entry ℝ), OsmStreamSpec.wayIds (a ++ b) = OsmStreamSpec.wayIds a ++ OsmStreamSpec.wayIds b := fun a b => List.filterMap_append
  have h1 : ∀ l : List OsmXml.Way, OsmStreamSpec.wayIds (l.map wayEntry) = l.map fun n => UInt64.ofNat n.id := by
    intro l; induction l with
    | nil => rfl
    | cons a l ih => rw [List.map_cons, List.map_cons, ← ih]; rfl
  have h2 : ∀ l : List OsmXml.Node, OsmStreamSpec.wayIds (l.map nodeEntry) = [] := by
    intro l; induction l with
    | nil => rfl
    | cons a l ih => rw [List.map_cons, ← ih]; rfl
  rw [h0, h1, h2]
  simp

theorem nodup_ofNat {α : Type} {f : α → Nat} {l : List α} (h : (l.map f).Nodup) (hl : ∀ a ∈ l, f a < 2 ^ 64) : (l.map fun a => UInt64.ofNat (f a)).Nodup := by
  rw [List.nodup_iff_pairwise_ne, List.pairwise_map] at h ⊢
  refine List.Pairwise.imp_of_mem ?_ h
  intro a b ha hb hne he
  exact hne (ofNat_inj (hl a ha) (hl b hb) he)

theorem complete_entries {d : Doc} (h : Whole d) : Complete ((events d).filterMap entry) := by
  rw [entries]
  intro before id ids tags rest he n hn
  have hmem : Entry.way id ids tags ∈ d.nodes.map nodeEntry ++ d.ways.map wayEntry := by rw [he]; simp
  rcases List.mem_append.1 hmem with hm | hm
  · obtain ⟨x, -, hx⟩ := List.mem_map.1 hm
    cases hx
  · obtain ⟨w, hw, hx⟩ := List.mem_map.1 hm
    simp only [wayEntry, Entry.way.injEq] at hx
    obtain ⟨-, rfl, -⟩ := hx
    obtain ⟨i, hi, rfl⟩ := List.mem_map.1 hn
    obtain ⟨x, hx, rfl⟩ := h w hw i hi
    have hin : nodeEntry x ∈ before := by
      rcases List.append_eq_append_iff.1 he with ⟨c, h1, h2⟩ | ⟨c, h1, h2⟩
      · rw [h1]; exact List.mem_append_left _ (List.mem_map_of_mem hx)
      · have hx' : nodeEntry x ∈ before ++ c := by rw [← h1]; exact List.mem_map_of_mem hx
        rcases List.mem_append.1 hx' with h | h
        · exact h
        · cases c with
          | nil => simp at h
          | cons y c =>
            simp only [List.cons_append, List.cons.injEq] at h2
            have hy : y ∈ d.nodes.map nodeEntry := by rw [h1]; simp
            obtain ⟨z, -, hz⟩ := List.mem_map.1 hy
            rw [← hz] at h2
            exact absurd h2.1.symm (by simp [nodeEntry])
    exact ⟨_, _, hin⟩

theorem tagged_of {getId : String → UInt32} {raw : List OsmXml.Tag} {tags : List Tag} (h : OsmSpec.TagsOf getId (raw.map rawTag) tags) : Tagged getId raw tags := by
  obtain ⟨h1, h2⟩ := h
  refine ⟨?_, h2⟩
  simpa [rawTag, Function.comp_def] using h1

theorem shows_of {eps : ℝ} {getId : String → UInt32} {d : Doc} (hs : Small d) {x : Item} (hx : x ∈ items d) {a : Added ℝ}
    (h : Represents eps getId ((events d).filterMap entry) (itemEntry x) a) : Shows eps getId d x (element a) := by
  cases x with
  | node n =>
    obtain ⟨m, rfl, h1, h2, h3⟩ := h
    exact ⟨m.tags, tagged_of h3, by simp only [element, h1, h2]⟩
  | way w =>
    have hw : w ∈ d.ways := by simpa [items] using hx
    obtain ⟨cs, h1, p, h2, h3, h4⟩ := h
    refine ⟨p.tags, cs, tagged_of h3, ?_, ?_⟩
    · rw [List.forall₂_map_left_iff] at h1
      have hsm := (hs.2 w hw).2.2
      clear h4 hx hw h2 h3
      generalize w.refs = refs at h1 hsm
      induction h1 with
      | nil => exact .nil
      | @cons i c is cs h _ ih =>
        refine .cons ?_ (ih fun j hj => hsm j (by simp [hj]))
        obtain ⟨t, ht⟩ := h
        rw [entries] at ht
        rcases List.mem_append.1 ht with hm | hm
        · obtain ⟨n, hn, he⟩ := List.mem_map.1 hm
          simp only [nodeEntry, Entry.node.injEq] at he
          exact ⟨n, hn, ofNat_inj (hs.1 n hn) (hsm i (by simp)) he.1, he.2.1.symm⟩
        · obtain ⟨n, hn, he⟩ := List.mem_map.1 hm
          cases he
    · rcases h4 with ⟨h5, rfl, h6, h7⟩ | ⟨h5, rfl, h6⟩
      · exact .inr ⟨h5, p.coordinates, by simp only [element, h2], h6, h7⟩
      · exact .inl ⟨h5, by simp only [element, h2, h6]⟩

theorem located_of {eps : ℝ} {getId : String → UInt32} {d : Doc} (hs : Small d) (hg : ∀ n ∈ d.nodes, OnGlobe (place n)) {x : Item} (hx : x ∈ items d) {e : El}
    (h : Shows eps getId d x e) : Located e := by
  cases x with
  | node n =>
    obtain ⟨tags, -, rfl⟩ := h
    have hn : n ∈ d.nodes := by simpa [items] using hx
    exact ⟨by simp [ClipperSpec.points, ClipperSpec.leaves, ClipperSpec.coords], by
      simpa [ClipperSpec.points, ClipperSpec.leaves, ClipperSpec.coords] using hg n hn⟩
  | way w =>
    have hw : w ∈ d.ways := by simpa [items] using hx
    obtain ⟨tags, cs, -, h1, h2⟩ := h
    have hall : ∀ c ∈ cs, OnGlobe c := by
      clear h2
      generalize w.refs = refs at h1
      induction h1 with
      | nil => simp
      | cons h _ ih =>
        intro c hc
        rcases List.mem_cons.1 hc with rfl | hc
        · obtain ⟨n, hn, -, rfl⟩ := h; exact hg n hn
        · exact ih c hc
    have hlen := h1.length_eq
    have hne := (hs.2 w hw).2.1
    rcases h2 with ⟨-, rfl⟩ | ⟨⟨hl, -⟩, ps, rfl, h3, -⟩
    · refine ⟨?_, by simpa [ClipperSpec.points, ClipperSpec.leaves, ClipperSpec.coords] using hall⟩
      simp only [ClipperSpec.points, ClipperSpec.leaves, ClipperSpec.coords, List.flatMap_cons, List.flatMap_nil, List.append_nil]
      rintro rfl
      exact hne (List.length_eq_zero_iff.1 hlen)
    · have hps : ps ≠ [] ∧ ∀ c ∈ ps, c ∈ cs := by
        have hd : cs.dropLast ≠ [] := by
          intro h0
          have := congrArg List.length h0
          simp at this; omega
        rcases h3 with rfl | rfl
        · exact ⟨hd, fun c hc => List.mem_of_mem_dropLast hc⟩
        · exact ⟨by simpa using hd, fun c hc => List.mem_of_mem_dropLast (by simpa using hc)⟩
      exact ⟨by simpa [ClipperSpec.points, ClipperSpec.leaves, ClipperSpec.coords] using hps.1, by
        simpa [ClipperSpec.points, ClipperSpec.leaves, ClipperSpec.coords] using fun c hc => hall c (hps.2 c hc)⟩

/-- What holds of the maps of the visitor at any time. -/
structure Wf (ctx : Osm.Context ℝ) : Prop where
  nodes : (ctx.nodeMap.map (·.1)).Nodup ∧ ∀ x ∈ ctx.nodeMap, x.2.id = x.1
  ways : (ctx.wayMap.map (·.1)).Nodup ∧ ∀ x ∈ ctx.wayMap, x.2.id = x.1
  areas : (ctx.areaMap.map (·.1)).Nodup ∧ ∀ x ∈ ctx.areaMap, x.2.id = x.1

theorem set_nodup {V : Type} {m : Assoc UInt64 V} (h : (m.map (·.1)).Nodup) (k : UInt64) (v : V) : ((m.set k v).map (·.1)).Nodup := by
  simp only [Assoc.set, List.map_cons, List.nodup_cons]
  refine ⟨?_, List.Nodup.sublist (List.filter_sublist.map _) h⟩
  simp [Assoc.erase]

theorem set_ids {V : Type} {m : Assoc UInt64 V} {f : V → UInt64} (h : ∀ x ∈ m, f x.2 = x.1) (k : UInt64) {v : V} (hv : f v = k) : ∀ x ∈ m.set k v, f x.2 = x.1 := by
  intro x hx
  rcases List.mem_cons.1 hx with rfl | hx
  · exact hv
  · exact h x (List.mem_filter.1 hx).1

theorem visitAll_wf {eps : ℝ} {getId : String → UInt32} {sort : List Tag → List Tag} (l : List (Entry ℝ)) : ∀ {ctx ctx' : Osm.Context ℝ}, Wf ctx →
    visitAll eps getId sort ctx l = .ok ctx' → Wf ctx' := by
  induction l with
  | nil => intro ctx ctx' h hv; cases hv; exact h
  | cons e l ih =>
    intro ctx ctx' h hv
    rw [visitAll] at hv
    cases e with
    | node id c raw =>
      exact ih (ctx := Osm.visitNode getId sort ctx id c raw) ⟨⟨set_nodup h.nodes.1 _ _, set_ids (f := Osm.Node.id) h.nodes.2 _ rfl⟩, h.ways, h.areas⟩ hv
    | way id ids raw =>
      cases hw : OsmStream.visit eps getId sort ctx (.way id ids raw) with
      | throw e => rw [hw] at hv; cases hv
      | ub e => rw [hw] at hv; cases hv
      | ok ctx1 =>
        rw [hw] at hv
        refine ih ?_ hv
        simp only [OsmStream.visit, Osm.visitWay] at hw
        cases hc : Osm.nodeCoordinates ctx ids with
        | throw e => rw [hc] at hw; cases hw
        | ub e => rw [hc] at hw; cases hw
        | ok cs =>
          simp only [hc, Outcome.bind] at hw
          split at hw
          · split at hw
            · cases hw; exact ⟨h.nodes, h.ways, set_nodup h.areas.1 _ _, set_ids (f := Osm.Path.id) h.areas.2 _ rfl⟩
            · cases hw; exact ⟨h.nodes, ⟨set_nodup h.ways.1 _ _, set_ids (f := Osm.Path.id) h.ways.2 _ rfl⟩, h.areas⟩
          · cases hw; exact ⟨h.nodes, ⟨set_nodup h.ways.1 _ _, set_ids (f := Osm.Path.id) h.ways.2 _ rfl⟩, h.areas⟩

theorem wf_start : Wf {} := ⟨⟨by simp, by simp⟩, ⟨by simp, by simp⟩, ⟨by simp, by simp⟩⟩

theorem each_map {A B : Type} {f : A → Outcome B} {g : A → B} (l : List A) (h : ∀ a ∈ l, f a = .ok (g a)) : Resolve.each f l = .ok (l.map g) := by
  induction l with
  | nil => rfl
  | cons a l ih => simp [Resolve.each, h a (by simp), ih fun x hx => h x (by simp [hx]), Outcome.bind]

/-- Without relations the elements are handed on as they are. -/
theorem complete_nil (env : Env) (hord : ∀ l, (env.order l).Perm l) {ctx : Osm.Context ℝ} (h : Wf ctx) : complete env ctx [] = .ok ((added ctx).map element) := by
  have h0 : env.order [] = [] := (hord []).eq_nil
  unfold complete
  simp only [relations, List.foldl_nil, List.map_nil, h0, Resolve.complete, Resolve.resolveAll, Outcome.bind, Resolve.keys, List.nil_append]
  let g : Resolve.Key → El := fun k => match k with
    | .node i => .node i (((ctx.nodeMap.find i).map (·.tags)).getD []) (((ctx.nodeMap.find i).map (·.coordinate)).getD ⟨0, 0⟩)
    | .way i => .way i (((ctx.wayMap.find i).map (·.tags)).getD []) (((ctx.wayMap.find i).map (·.coordinates)).getD [])
    | .area i => .area i (((ctx.areaMap.find i).map (·.tags)).getD []) (((ctx.areaMap.find i).map (·.coordinates)).getD [])
    | .relation i => .relation i [] []
  rw [each_map (g := g)]
  · congr 1
    simp only [added, List.map_append, List.map_map]
    congr 1
    · congr 1
      · refine List.map_congr_left fun x hx => ?_
        simp only [Function.comp_apply, g, Assoc.find_of_mem _ _ _ h.nodes.1 hx, element, Option.map_some, Option.getD_some, h.nodes.2 x hx]
      · refine List.map_congr_left fun x hx => ?_
        simp only [Function.comp_apply, g, Assoc.find_of_mem _ _ _ h.ways.1 hx, element, Option.map_some, Option.getD_some, h.ways.2 x hx]
    · refine List.map_congr_left fun x hx => ?_
      simp only [Function.comp_apply, g, Assoc.find_of_mem _ _ _ h.areas.1 hx, element, Option.map_some, Option.getD_some, h.areas.2 x hx]
  · intro k hk
    rw [List.mem_append, List.mem_append] at hk
    rcases hk with (hk | hk) | hk
    · obtain ⟨x, hx, rfl⟩ := List.mem_map.1 hk
      have hf := Assoc.find_of_mem _ _ _ h.nodes.1 hx
      cases env.stack <;> simp [Resolve.element, hf, Resolve.start, Resolve.Data.tags, g]
    · obtain ⟨x, hx, rfl⟩ := List.mem_map.1 hk
      have hf := Assoc.find_of_mem _ _ _ h.ways.1 hx
      cases env.stack <;> simp [Resolve.element, hf, Resolve.start, Resolve.Data.tags, g]
    · obtain ⟨x, hx, rfl⟩ := List.mem_map.1 hk
      have hf := Assoc.find_of_mem _ _ _ h.areas.1 hx
      cases env.stack <;> simp [Resolve.element, hf, Resolve.start, Resolve.Data.tags, g]

theorem visit_ok (env : Env) (hsort : OsmSpec.Sorts env.sort) {d : Doc} (hs : Small d) (hd : Sound d) :
    ∃ ctx els, visitAll env.eps env.getId env.sort {} ((events d).filterMap entry) = .ok ctx ∧ List.Forall₂ (Shows env.eps env.getId d) (items d) els ∧
      ((added ctx).map element).Perm els ∧ ∀ e ∈ els, Located e := by
  obtain ⟨ctx, h1, l, h2, h3⟩ := C72_every_entry_once env.eps env.getId env.sort hsort ((events d).filterMap entry)
    (by rw [nodeIds_entries]; exact nodup_ofNat hd.nodes hs.1) (by rw [wayIds_entries]; exact nodup_ofNat hd.ways fun w hw => (hs.2 w hw).1)
    (complete_entries hd.whole)
  have hshow : List.Forall₂ (Shows env.eps env.getId d) (items d) (l.map element) := by
    rw [List.forall₂_map_right_iff]
    have h4 : List.Forall₂ (fun x a => Represents env.eps env.getId ((events d).filterMap entry) (itemEntry x) a) (items d) l := by
      rw [← List.forall₂_map_left_iff, ← items_entries]; exact h3
    have key : ∀ (xs : List Item) (l : List (Added ℝ)), (∀ x ∈ xs, x ∈ items d) →
        List.Forall₂ (fun x a => Represents env.eps env.getId ((events d).filterMap entry) (itemEntry x) a) xs l →
        List.Forall₂ (fun x a => Shows env.eps env.getId d x (element a)) xs l := by
      intro xs l hx h
      induction h with
      | nil => exact .nil
      | cons h _ ih => exact .cons (shows_of hs (hx _ (by simp)) h) (ih fun x hx' => hx x (by simp [hx']))
    exact key _ _ (fun _ h => h) h4
  have hloc : ∀ e ∈ l.map element, Located e := by
    have key : ∀ (xs : List Item) (es : List El), (∀ x ∈ xs, x ∈ items d) → List.Forall₂ (Shows env.eps env.getId d) xs es → ∀ e ∈ es, Located e := by
      intro xs es hx h
      induction h with
      | nil => simp
      | cons h _ ih =>
        intro e he
        rcases List.mem_cons.1 he with rfl | he
        · exact located_of hs hd.globe (hx _ (by simp)) h
        · exact ih (fun x hx' => hx x (by simp [hx'])) e he
    exact key _ _ (fun _ h => h) hshow
  exact ⟨ctx, l.map element, h1, hshow, (h2.map element).symm, hloc⟩

theorem read_ok (env : Env) (hsort : OsmSpec.Sorts env.sort) {target : Target} (ht : Sensible target) {text : List Char} {d : Doc} (hp : parse text = (events d, .ok ()))
    (hs : Small d) (hd : Sound d) (hord : ∀ l, (env.order l).Perm l) (hr : d.relations = []) :
    ∃ l els, Import.read env target text = .ok l ∧ List.Forall₂ (Shows env.eps env.getId d) (items d) els ∧
      ∀ q, ((l.flatten.filter fun x => x.1 = q).map (·.2)).Perm (els.filterMap (seen env.eng env.style target q)) := by
  obtain ⟨ctx, els, h1, hshow, hperm, hloc⟩ := visit_ok env hsort hs hd
  obtain ⟨sv, h5, h6⟩ := collect_seen env ht ((added ctx).map element) fun e he => (hloc e (hperm.mem_iff.1 he)).2
  refine ⟨sv, els, ?_, hshow, fun q => ?_⟩
  · simp only [Import.read, hp, h1, Outcome.bind, relations_none hr, complete_nil env hord (visitAll_wf _ wf_start h1), h5]
  · rw [h6]
    exact hperm.filterMap _

/-! ## Files which are refused -/

theorem visitNodes (eps : ℝ) (getId : String → UInt32) (sort : List Tag → List Tag) (ns : List OsmXml.Node) : ∀ (ctx : Osm.Context ℝ) (rest : List (Entry ℝ)),
    ∃ ctx' : Osm.Context ℝ, visitAll eps getId sort ctx (ns.map nodeEntry ++ rest) = visitAll eps getId sort ctx' rest ∧
      ∀ i, (ctx'.nodeMap.find i).isSome = true ↔ (ctx.nodeMap.find i).isSome = true ∨ ∃ n ∈ ns, UInt64.ofNat n.id = i := by
  induction ns with
  | nil => intro ctx rest; exact ⟨ctx, rfl, by simp⟩
  | cons n ns ih =>
    intro ctx rest
    obtain ⟨ctx', h1, h2⟩ := ih (Osm.visitNode getId sort ctx (UInt64.ofNat n.id) (place n) (n.tags.map rawTag)) rest
    refine ⟨ctx', ?_, fun i => ?_⟩
    · rw [← h1]; rfl
    · rw [h2]
      simp only [Osm.visitNode, Assoc.find_set, List.mem_cons, exists_eq_or_imp]
      by_cases hi : i = UInt64.ofNat n.id
      · simp [hi]
      · rw [if_neg hi]
        have : ¬ UInt64.ofNat n.id = i := fun h => hi h.symm
        simp [this]

theorem coordinates_ok {ctx : Osm.Context ℝ} {ids : List UInt64} (h : ∀ i ∈ ids, (ctx.nodeMap.find i).isSome = true) : ∃ cs, Osm.nodeCoordinates ctx ids = .ok cs := by
  induction ids with
  | nil => exact ⟨[], rfl⟩
  | cons i ids ih =>
    obtain ⟨cs, hc⟩ := ih fun j hj => h j (by simp [hj])
    have := h i (by simp)
    cases hf : ctx.nodeMap.find i with
    | none => rw [hf] at this; simp at this
    | some n => exact ⟨_, by simp only [Osm.nodeCoordinates, hf, hc, Outcome.bind]; rfl⟩

theorem coordinates_ub {ctx : Osm.Context ℝ} {ids : List UInt64} {i : UInt64} (hi : i ∈ ids) (h : ctx.nodeMap.find i = none) :
    Osm.nodeCoordinates ctx ids = .ub "null node" := by
  induction ids with
  | nil => simp at hi
  | cons j ids ih =>
    unfold Osm.nodeCoordinates
    cases hf : ctx.nodeMap.find j with
    | none => rfl
    | some n =>
      rcases List.mem_cons.1 hi with rfl | hi
      · rw [h] at hf; cases hf
      · simp only [ih hi, Outcome.bind]

theorem way_ok {eps : ℝ} {getId : String → UInt32} {sort : List Tag → List Tag} {ctx : Osm.Context ℝ} {id : UInt64} {ids : List UInt64} {raw : List Osm.RawTag}
    (h : ∃ cs, Osm.nodeCoordinates ctx ids = .ok cs) : ∃ ctx', Osm.visitWay eps getId sort ctx id ids raw = .ok ctx' ∧ ctx'.nodeMap = ctx.nodeMap := by
  obtain ⟨cs, hc⟩ := h
  unfold Osm.visitWay
  simp only [hc, Outcome.bind]
  split
  · split
    · exact ⟨_, rfl, rfl⟩
    · exact ⟨_, rfl, rfl⟩
  · exact ⟨_, rfl, rfl⟩

/-- Ways are read if and only if their nodes are there. -/
theorem visitWays (eps : ℝ) (getId : String → UInt32) (sort : List Tag → List Tag) (ws : List OsmXml.Way) : ∀ ctx : Osm.Context ℝ,
    ((∀ w ∈ ws, ∀ i ∈ w.refs, (ctx.nodeMap.find (UInt64.ofNat i)).isSome = true) → ∃ ctx', visitAll eps getId sort ctx (ws.map wayEntry) = .ok ctx') ∧
    ((∃ w ∈ ws, ∃ i ∈ w.refs, ctx.nodeMap.find (UInt64.ofNat i) = none) → visitAll eps getId sort ctx (ws.map wayEntry) = .ub "null node") := by
  induction ws with
  | nil => intro ctx; exact ⟨fun _ => ⟨ctx, rfl⟩, by simp⟩
  | cons w ws ih =>
    intro ctx
    by_cases hw : ∀ i ∈ w.refs, (ctx.nodeMap.find (UInt64.ofNat i)).isSome = true
    · obtain ⟨ctx', h1, h2⟩ := way_ok (eps := eps) (getId := getId) (sort := sort) (id := UInt64.ofNat w.id) (raw := w.tags.map rawTag)
        (coordinates_ok (ctx := ctx) (ids := w.refs.map UInt64.ofNat) (by simpa using hw))
      have hstep : visitAll eps getId sort ctx ((w :: ws).map wayEntry) = visitAll eps getId sort ctx' (ws.map wayEntry) := by
        simp only [List.map_cons, visitAll, OsmStream.visit, wayEntry, h1, Outcome.bind]
      rw [hstep]
      obtain ⟨i1, i2⟩ := ih ctx'
      rw [h2] at i1 i2
      refine ⟨fun h => i1 fun x hx => h x (by simp [hx]), ?_⟩
      rintro ⟨x, hx, i, hi, hn⟩
      rcases List.mem_cons.1 hx with rfl | hx
      · have := hw i hi; rw [hn] at this; simp at this
      · exact i2 ⟨x, hx, i, hi, hn⟩
    · push Not at hw
      obtain ⟨i, hi, hn⟩ := hw
      refine ⟨fun h => absurd (h w (by simp) i hi) hn, fun _ => ?_⟩
      have hub : Osm.nodeCoordinates ctx (w.refs.map UInt64.ofNat) = .ub "null node" :=
        coordinates_ub (List.mem_map_of_mem hi) (by simpa using hn)
      simp only [List.map_cons, visitAll, OsmStream.visit, wayEntry, Osm.visitWay, hub, Outcome.bind]

theorem visit_whole (eps : ℝ) (getId : String → UInt32) (sort : List Tag → List Tag) {d : Doc} (hs : Small d) :
    (Whole d → ∃ ctx, visitAll eps getId sort {} ((events d).filterMap entry) = .ok ctx) ∧
    (¬ Whole d → visitAll eps getId sort {} ((events d).filterMap entry) = .ub "null node") := by
  rw [entries]
  obtain ⟨ctx', h1, h2⟩ := visitNodes eps getId sort d.nodes {} (d.ways.map wayEntry)
  rw [h1]
  obtain ⟨i1, i2⟩ := visitWays eps getId sort d.ways ctx'
  have hw : ∀ w ∈ d.ways, ∀ i ∈ w.refs, (ctx'.nodeMap.find (UInt64.ofNat i)).isSome = true ↔ ∃ n ∈ d.nodes, n.id = i := by
    intro w hw i hi
    rw [h2]
    have : ((({} : Osm.Context ℝ).nodeMap.find (UInt64.ofNat i)).isSome = true) = False := by simp [Assoc.find]
    rw [this, false_or]
    constructor
    · rintro ⟨n, hn, he⟩; exact ⟨n, hn, ofNat_inj (hs.1 n hn) ((hs.2 w hw).2.2 i hi) he⟩
    · rintro ⟨n, hn, he⟩; exact ⟨n, hn, by rw [he]⟩
  refine ⟨fun h => i1 fun w hw' i hi => (hw w hw' i hi).2 (h w hw' i hi), fun h => i2 ?_⟩
  unfold Whole at h
  push Not at h
  obtain ⟨w, hw', i, hi, hn⟩ := h
  refine ⟨w, hw', i, hi, ?_⟩
  by_contra hne
  obtain ⟨n, h3, h4⟩ := (hw w hw' i hi).1 (Option.isSome_iff_ne_none.2 hne)
  exact hn n h3 h4

end ImportProof
open ImportProof

variable {K : Type} [LinearOrder K]

/-- C95: a file which is written as it should be is imported, and afterwards every tile shows, besides what it has shown before, exactly the nodes and ways of the
file which belong there: each of them once, with its tags, at the places which are written, clipped if the stylesheet wants that. The stores under other keys are
as before, and all stores can be used and imported into again. Partial: files with relations are not covered, no number may be used twice, and the stores are in memory. -/
theorem C95_import_partial (env : Env) (hsort : OsmSpec.Sorts env.sort) (hord : ∀ l, (env.order l).Perm l) (tokens : El → List UInt32) {m : GeoStore.Map K (MemStore.Store El)}
    {A : Stores K (MemStore.Store El)} (hm : Abs m A) (hu : Used tokens A) {k : K} {s : MemStore.Store El} (hk : A k = some s) {target : Target} (ht : Sensible target)
    {h w u : List Char} {d : Doc} (hh : Head h) (hw : PrintsBody d w) (hf : ∃ v, w = '<' :: v) (hb : d.bounds ≠ none ∨ d.nodes ≠ []) (hd : Sound d)
    (hr : d.relations = []) :
    ∃ m' s' els, importXml (memIface tokens) env m k target (h ++ (w ++ u)) = (m', .done) ∧ Abs m' (update A k s') ∧ Used tokens (update A k s') ∧
      List.Forall₂ (Shows env.eps env.getId d) (items d) els ∧
      ∀ q, ∃ old new, (GeoStore.step (memIface tokens) m (.tile q)).2 = .elements old ∧ (GeoStore.step (memIface tokens) m' (.tile q)).2 = .elements new ∧
        new.Perm (old ++ els.filterMap (seen env.eng env.style target q)) := by
  obtain ⟨l, els, h1, h2, h3⟩ := read_ok env hsort ht (C93_read (u := u) hh hw hf hb) (small_body hw) hd hord hr
  obtain ⟨m', s', a1, a2, a3, a4⟩ := addFile_mem hm hu hk l
  refine ⟨m', s', els, by simp only [importXml, h1, a1], a2, a3, h2, fun q => ?_⟩
  obtain ⟨old, new, b1, b2, b3⟩ := a4 q
  exact ⟨old, new, b1, b2, b3.trans (List.Perm.append_left _ (h3 q))⟩

/-- C95: a file which is refused leaves all stores as they were, although the visitor was told about the elements before the error (`C93_violated_atomic`): nothing
of it is stored, and the failure is reported. This is so for stores of every kind. Partial: the nodes of the ways before the error must be in the file, see
`C95_violated_missing`. -/
theorem C95_refused_partial {S Q : Type} (I : GeoStore.Iface S El Q) (env : Env) {m : GeoStore.Map K S} {A : Stores K S} (hm : Abs m A) {k : K} {s : S} (hk : A k = some s)
    (target : Target) {text : List Char} (h : (parse text).2 ≠ .ok ())
    (hw : ∀ w, .way w ∈ (parse text).1 → ∀ i ∈ w.refs, ∃ n, .node n ∈ (parse text).1 ∧ n.id = i) :
    importXml I env m k target text = (m, .failed (.throw "domain_error")) := by
  obtain ⟨h1, h2⟩ := C93_delivered text
  have h2 := h2.resolve_left h
  have hv : ∃ ctx, visitAll env.eps env.getId env.sort {} ((parse text).1.filterMap entry) = .ok ctx := by
    rcases h1 with h1 | ⟨l, d, w, u, -, -, hp, h1⟩
    · exact ⟨{}, by rw [h1]; rfl⟩
    · rw [h1]
      refine (visit_whole env.eps env.getId env.sort (small_elements hp)).1 ?_
      rw [h1] at hw
      intro x hx i hi
      obtain ⟨n, hn, he⟩ := hw x (by simp [events, hx]) i hi
      refine ⟨n, ?_, he⟩
      unfold events at hn
      simpa using hn
  obtain ⟨ctx, hv⟩ := hv
  simp only [importXml, Import.read, hv, h2, Outcome.bind, (hm.subscript hk).1]

/-- C95 is false: a file in which a node of a way is missing, as in every cutout of a larger map which keeps whole ways, is not refused: importing it is undefined. -/
theorem C95_violated_missing {S Q : Type} (I : GeoStore.Iface S El Q) (env : Env) (m : GeoStore.Map K S) (k : K) (target : Target)
    {h w u : List Char} {d : Doc} (hh : Head h) (hw : PrintsBody d w) (hf : ∃ v, w = '<' :: v) (hb : d.bounds ≠ none ∨ d.nodes ≠ []) (hd : ¬ Whole d) :
    (importXml I env m k target (h ++ (w ++ u))).2 = .failed (.ub "null node") := by
  have hp := C93_read (u := u) hh hw hf hb
  have hv := (visit_whole env.eps env.getId env.sort (small_body hw)).2 hd
  simp only [importXml, Import.read, hp, hv, Outcome.bind]

namespace ImportProof
open Verif.OsmXmlSpec Verif.Props.OsmXmlProof Verif.OsmXmlProof Verif.MapCssProof Verif.AtlasProof

/-- `<way id="3"><nd ref="i"/></way>` -/
def wayText (i : Char) : List Char := "<way".toList ++ (((' ' :: "id=\"".toList) ++ ['3', '"']) ++ (">".toList ++ ((("<nd".toList ++ (((' ' :: "ref=\"".toList) ++ [i, '"']) ++
  "/>".toList)) ++ []) ++ ([] ++ "</way>".toList))))

/-- A file with a node which has a tag, and a way through one node. -/
def sample (i : Nat) : Doc := ⟨none, [⟨1, 0, 0, [⟨['a'], ['b']⟩]⟩], [⟨3, [i], []⟩], []⟩

theorem id_digit {c : Char} {n : Nat} (hn : n < 10) (hc : OsmXmlSpec.Id n [c, '"']) : PrintsWay ⟨3, [n], []⟩ (wayText c) := by
  have h3 : OsmXmlSpec.Id 3 ['3', '"'] := ⟨[], ['3'], [], blanks_nil, digits_one (n := 3) (by decide), by norm_num, blanks_nil, rfl⟩
  refine ⟨by simp, ?_⟩
  have hr : PrintsRef n _ := OsmXmlProof.seq (word_plain _) (OsmXmlProof.seq (OsmXmlProof.seq (word_space _) hc) (word_plain _))
  exact OsmXmlProof.seq (token_plain _) (OsmXmlProof.seq (OsmXmlProof.seq (token_space _) h3) (OsmXmlProof.seq (token_plain _)
    (OsmXmlProof.seq (.cons _ [] _ [] hr .nil) (OsmXmlProof.seq .nil (token_plain _)))))

theorem sample_prints {c : Char} {n : Nat} (hn : n < 10) (hc : OsmXmlSpec.Id n [c, '"']) :
    PrintsBody (sample n) (nodeWith ['b'] ++ (wayText c ++ "</osm>".toList)) := by
  have h1 : PrintsBody (sample n) ([] ++ ((nodeWith ['b'] ++ []) ++ ((wayText c ++ []) ++ ([] ++ "</osm>".toList)))) :=
    OsmXmlProof.seq .nil (OsmXmlProof.seq (.cons _ [] _ [] (nodeWith_prints (by decide)) .nil) (OsmXmlProof.seq (.cons _ [] _ [] (id_digit hn hc) .nil)
      (OsmXmlProof.seq .nil (token_plain _))))
  simpa using h1

end ImportProof
open Verif.Props.OsmXmlProof Verif.OsmXmlProof Verif.MapCssProof

/-- The hypotheses of `C95_import_partial` are met by a file with a node and a way. -/
example : Head start ∧ PrintsBody (sample 1) (nodeWith ['b'] ++ (wayText '1' ++ "</osm>".toList)) ∧
    (∃ v, nodeWith ['b'] ++ (wayText '1' ++ "</osm>".toList) = '<' :: v) ∧ (sample 1).nodes ≠ [] ∧ Sound (sample 1) ∧ (sample 1).relations = [] := by
  refine ⟨start_head (p := []) (.inl rfl) clean_nil, sample_prints (by decide) id_one, ⟨_, rfl⟩, by simp [sample], ⟨by simp [sample], by simp [sample], ?_, ?_⟩, rfl⟩
  · intro w hw i hi
    simp only [sample, List.mem_singleton] at hw
    subst hw
    exact ⟨⟨1, 0, 0, [⟨['a'], ['b']⟩]⟩, by simp [sample], by simpa [eq_comm] using hi⟩
  · intro n hn
    simp only [sample, List.mem_singleton] at hn
    subst hn
    norm_num [OnGlobe, place]

/-- Stores which are there from the begin. -/
example (tokens : El → List UInt32) : ∃ (m : GeoStore.Map Nat (MemStore.Store El)) (A : Stores Nat (MemStore.Store El)) (s : MemStore.Store El),
    m = (GeoStore.step (memIface tokens) GeoStore.init (.register 5 MemStore.init)).1 ∧ Abs m A ∧ Used tokens A ∧ A 5 = some s := by
  refine ⟨_, fun k => if k = 5 then some MemStore.init else none, MemStore.init, rfl, ⟨by simp [GeoStore.step, GeoStore.init, GeoStore.emplace], ?_⟩, ?_, by simp⟩
  · intro k p
    simp only [GeoStore.step, GeoStore.init, GeoStore.emplace, List.mem_singleton, Prod.mk.injEq]
    constructor
    · rintro ⟨rfl, rfl⟩; exact ⟨_, rfl, by simp⟩
    · rintro ⟨s, rfl, h⟩
      split at h
      · exact ⟨by assumption, by rw [h]⟩
      · cases h
  · intro k s h
    simp only at h
    split at h
    · exact ⟨[], (Option.some.inj h).symm⟩
    · cases h

/-- The node of this file is seen in a tile of the first level. -/
example (eng : Clipper.Engine) (tags : List Tag) :
    seen eng (fun _ _ => ⟨false, false, false⟩) (.range ⟨1, 1⟩) ⟨1, 1, 1⟩ (.node 1 tags ⟨0, 0⟩) = some (.node 1 tags ⟨0, 0⟩) := by
  unfold seen
  rw [if_pos]
  · simp
  · refine ⟨⟨le_rfl, le_rfl⟩, ⟨rfl, rfl⟩, ⟨by unfold TilesSpec.Valid; decide, ⟨0, 0⟩, ?_, ?_⟩⟩
    · intro b hb
      exact hb _ (by simp [ClipperSpec.points, ClipperSpec.leaves, ClipperSpec.coords])
    · have e0 : Mercator.tileYToLat 1 1 = 0 := by
        simp only [Mercator.tileYToLat, Mercator.sinh_half]; norm_num
      have e1 : Mercator.tileYToLat 2 1 < 0 := by
        rw [Mercator.tileYToLat_lt_iff (by norm_num)]
        have h2 := Mercator.row_tileYToLat 1 1
        rw [e0] at h2
        rw [h2]; norm_num
      simp only [MercatorSpec.Owns, Mercator.tileBox]
      refine ⟨by simp only [Mercator.tileXToLon]; norm_num, .inl (by simp only [Mercator.tileXToLon]; norm_num), by rw [e0], .inl ?_⟩
      simpa using e1

/-- The hypotheses of `C95_violated_missing` are met by the same file if the way names another node. -/
example : PrintsBody (sample 3) (nodeWith ['b'] ++ (wayText '3' ++ "</osm>".toList)) ∧ ¬ Whole (sample 3) := by
  refine ⟨sample_prints (by decide) ⟨[], ['3'], [], blanks_nil, digits_one (n := 3) (by decide), by norm_num, blanks_nil, rfl⟩, fun h => ?_⟩
  obtain ⟨n, hn, he⟩ := h ⟨3, [3], []⟩ (by simp [sample]) 3 (by simp)
  simp only [sample, List.mem_singleton] at hn
  subst hn
  simp at he

/-- The hypotheses of `C95_refused_partial` are met by a file with a way without number behind its node. -/
example (v : List Char) : (parse (start ++ (nodeWith ['b'] ++ ("<way>".toList ++ v)))).2 ≠ .ok () ∧
    ∀ w, .way w ∈ (parse (start ++ (nodeWith ['b'] ++ ("<way>".toList ++ v)))).1 → ∀ i ∈ w.refs,
      ∃ n, .node n ∈ (parse (start ++ (nodeWith ['b'] ++ ("<way>".toList ++ v)))).1 ∧ n.id = i := by
  have hw : OsmXmlSpec.Each OsmXmlSpec.PrintsNode [⟨1, 0, 0, [⟨['a'], ['b']⟩]⟩] (nodeWith ['b']) := by
    simpa using OsmXmlSpec.Each.cons _ [] _ [] (nodeWith_prints (v := ['b']) (by decide)) .nil
  have hs : Head start := start_head (p := []) (.inl rfl) clean_nil
  rw [C93_violated_atomic hs hw ⟨_, rfl⟩ (by simp)]
  simp

end Verif.Props
