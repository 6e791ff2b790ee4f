import Verif.Props.PbfFileSpec
import Verif.Props.Pbf
import Verif.Props.ImportRelations

/-! # C103: OSM files in PBF -/
namespace Verif.Props
open Verif.PbfFile Verif.PbfFileSpec
open Verif.PbfSpec (Source Indexed Encodes deltas unsigned degrees)
open Verif.Clipper (El)
open Verif.GeoStore (memIface)
open Verif.GeoStoreSpec (Stores update)
open Verif.Props.GeoStoreProof (Abs)
open Verif.ImportSpec (Used seen Sensible Sound Whole Item items)
open Verif.Import (Env Target importXml entry relationOf)
open Verif.OsmXml (Event)
open Verif.OsmXmlSpec (Doc Head PrintsBody events)
open Verif.ImportRelationsSpec (Describes)

namespace PbfFileProof

/-! ## Frames -/

theorem size_bigEndian {n : Nat} (h : n ≤ 65536) : ∃ a b c d, bigEndian n = [a, b, c, d] ∧ size a b c d = n := by
  refine ⟨_, _, _, _, rfl, ?_⟩
  simp only [size, UInt8.toNat_ofNat']
  have h1 : n / 2 ^ 24 = 0 := by omega
  rw [if_pos (by omega)]
  push_cast
  omega

theorem take_append (a b : Bytes) : PbfFile.take (a.length : Int) (a ++ b) = some (a, b) := by
  unfold PbfFile.take
  rw [if_pos ⟨by omega, by simp⟩]
  simp

theorem take_short {n : Int} {b : Bytes} (h : (b.length : Int) < n) : PbfFile.take n b = none := by
  unfold PbfFile.take
  rw [if_neg (by omega)]

theorem readHeader_eq (T : Tools) (a b c d : UInt8) (rest : Bytes) (n : Int) (hs : size a b c d = n) : readHeader T (a :: b :: c :: d :: rest) = readSized T n rest := by
  rw [readHeader, hs]

theorem small_header {n : Nat} (h : n ≤ 65536) : ¬ maxHeader < (n : Int) := by
  have : maxHeader = 65536 := by decide
  omega

theorem small_blob {n : Nat} (h : n ≤ 33554432) : ¬ maxBlob < (n : Int) := by
  have : maxBlob = 33554432 := by decide
  omega

theorem readHeader_ok {T : Tools} {h rest : Bytes} {x : Header} (h1 : T.header h = some x) (h2 : h.length ≤ 65536) :
    readHeader T (bigEndian h.length ++ (h ++ rest)) = .ok (some (x, rest)) := by
  obtain ⟨a, b, c, d, e1, e2⟩ := size_bigEndian h2
  rw [e1]
  show readHeader T (a :: b :: c :: d :: (h ++ rest)) = _
  rw [readHeader_eq _ _ _ _ _ _ _ e2, readSized, if_neg (small_header h2), take_append]
  simp only [h1]

theorem readBlob_ok {T : Tools} {b rest content z : Bytes} {type : String} (h1 : b.length ≤ 33554432) (h2 : T.blob b = some ⟨none, content.length, some z, none⟩)
    (h3 : T.inflate z = (content, true)) (h4 : content.length ≤ 33554432) : readBlob T ⟨type, b.length⟩ (b ++ rest) = .ok (content, rest) := by
  have h5 : (((content.length : Int)) % 2 ^ 32).toNat = content.length := by omega
  have h6 : unpack T b ⟨none, content.length, some z, none⟩ = .ok content := by
    unfold unpack
    simp only [h3, h5, List.take_length]
    rw [if_neg (small_blob h4), if_pos ⟨trivial, le_refl _⟩]
  unfold readBlob
  simp only [take_append, h2, h6]
  rw [if_neg (small_blob h1)]
  rfl

theorem parts_step {T : Tools} {bytes rest rest' u : Bytes} {h : Header} (h1 : readHeader T bytes = .ok (some (h, rest))) (h2 : readBlob T h rest = .ok (u, rest')) (n : Nat) :
    parts T (n + 1) bytes = Told.andThen (if h.type = "OSMData" then blockTold T u else ([], .ok ())) fun _ => parts T n rest' := by
  rw [parts, h1]
  simp only
  rw [h2]

theorem parts_noBlob {T : Tools} {bytes rest : Bytes} {h : Header} {e : String} (h1 : readHeader T bytes = .ok (some (h, rest))) (h2 : readBlob T h rest = .throw e) (n : Nat) :
    parts T (n + 1) bytes = ([], .throw e) := by
  rw [parts, h1]
  simp only
  rw [h2]

theorem parts_ub {T : Tools} {bytes rest : Bytes} {h : Header} {e : String} (h1 : readHeader T bytes = .ok (some (h, rest))) (h2 : readBlob T h rest = .ub e) (n : Nat) :
    parts T (n + 1) bytes = ([], .ub e) := by
  rw [parts, h1]
  simp only
  rw [h2]

theorem parts_noHeader {T : Tools} {bytes : Bytes} {e : String} (h1 : readHeader T bytes = .throw e) (n : Nat) : parts T (n + 1) bytes = ([], .throw e) := by
  rw [parts, h1]

theorem part_parts {T : Tools} {type : String} {content bytes : Bytes} (h : Part T type content bytes) (n : Nat) (rest : Bytes) :
    parts T (n + 1) (bytes ++ rest) = Told.andThen (if type = "OSMData" then blockTold T content else ([], .ok ())) fun _ => parts T n rest := by
  obtain ⟨hb, b, z, h1, h2, h3, h4, h5, h6, rfl⟩ := h
  rw [List.append_assoc, List.append_assoc]
  exact parts_step (readHeader_ok h1 h2) (readBlob_ok h3 h4 h5 h6) n

theorem part_length {T : Tools} {type : String} {content bytes : Bytes} (h : Part T type content bytes) : 4 ≤ bytes.length := by
  obtain ⟨hb, b, z, -, -, -, -, -, -, rfl⟩ := h
  simp [bigEndian]

/-! ## Groups -/

theorem each_ok {α β : Type} (parse : α → Outcome β) (event : β → Event) {ys : List Event} {l : List α} (h : List.Forall₂ (fun y a => ∃ b, parse a = .ok b ∧ event b = y) ys l) :
    each parse event l = (ys, .ok ()) := by
  induction h with
  | nil => rfl
  | cons h _ ih =>
    obtain ⟨b, h1, h2⟩ := h
    simp only [each, h1, Told.andThen, ih, h2]
    rfl

/-- What the visitor is told about a group. -/
def eventsOf (c : Content) : List Event :=
  c.nodes.map .node ++ c.ways.map .way ++ c.relations.map fun r => .relation ⟨r.id, r.members.map fun m => ⟨OsmXmlSpec.short m.type, m.ref, m.role⟩, r.tags⟩

theorem nodes_of {b : Pbf.Block} {ns : List OsmXml.Node} {ss : List Source} (h : List.Forall₂ (NodeOf b) ns ss) :
    ns.map Event.node = (ss.map fun s => (⟨unsigned s.id, degrees b.latOffset b.granularity s.lat, degrees b.lonOffset b.granularity s.lon, s.tags⟩ : Pbf.NodeOut)).map nodeEvent := by
  induction h with
  | nil => rfl
  | cons h _ ih =>
    rw [h]
    simp only [List.map_cons, ih]
    rfl

theorem member_of {m : OsmXml.Member} {x : Int × Nat × String} (h : MemberOf m x) :
    (⟨OsmXmlSpec.short m.type, m.ref, m.role⟩ : OsmXml.Member) = ⟨(if x.2.1 = 0 then "n" else if x.2.1 = 1 then "w" else "r").toList, unsigned x.1, x.2.2.toList⟩ := by
  obtain ⟨h1, h2, h3⟩ := h
  rw [h1, h2]
  rcases h3 with ⟨h, e⟩ | ⟨h, e⟩ | ⟨h, e⟩ <;> rw [h, e] <;> rfl

theorem members_of {ms : List OsmXml.Member} {xs : List (Int × Nat × String)} (h : List.Forall₂ MemberOf ms xs) :
    ms.map (fun m => (⟨OsmXmlSpec.short m.type, m.ref, m.role⟩ : OsmXml.Member)) =
      xs.map fun x => ⟨(if x.2.1 = 0 then "n" else if x.2.1 = 1 then "w" else "r").toList, unsigned x.1, x.2.2.toList⟩ := by
  induction h with
  | nil => rfl
  | cons h _ ih => simp only [List.map_cons, ih, member_of h]

theorem group_told {b : Pbf.Block} {index : String → Nat} {c : Content} {g : Group} (h : GroupOf b index c g) : groupTold b g = (eventsOf c, .ok ()) := by
  obtain ⟨⟨plain, dense, h1, h2, h3, h4⟩, h5, h6⟩ := h
  have e1 : each (Pbf.parseNode b) nodeEvent g.nodes =
      ((plain.map fun s => (⟨unsigned s.id, degrees b.latOffset b.granularity s.lat, degrees b.lonOffset b.granularity s.lon, s.tags⟩ : Pbf.NodeOut)).map nodeEvent, .ok ()) := by
    apply each_ok
    rw [h3, List.map_map, List.forall₂_map_left_iff, List.forall₂_map_right_iff]
    exact List.forall₂_same.2 fun s hs => ⟨_, C49_node b index s (h2 s hs), rfl⟩
  have e2 : denseTold b g.dense =
      ((dense.map fun s => (⟨unsigned s.id, degrees b.latOffset b.granularity s.lat, degrees b.lonOffset b.granularity s.lon, s.tags⟩ : Pbf.NodeOut)).map nodeEvent, .ok ()) := by
    rcases h4 with ⟨h, rfl⟩ | ⟨d, h, hd, o1, o2⟩
    · rw [h]; rfl
    · simp only [h, denseTold, C49_dense_partial b index dense d hd o1 o2]
  have e3 : each (Pbf.parseWay b) wayEvent g.ways = (c.ways.map .way, .ok ()) := by
    apply each_ok
    rw [List.forall₂_map_left_iff]
    refine h5.imp fun w x hx => ?_
    obtain ⟨id, refs, tags, i1, rfl, rfl⟩ := hx
    exact ⟨_, C49_way b index id refs tags i1, rfl⟩
  have e4 : each (Pbf.parseRelation b) relationEvent g.relations =
      (c.relations.map fun r => .relation ⟨r.id, r.members.map fun m => ⟨OsmXmlSpec.short m.type, m.ref, m.role⟩, r.tags⟩, .ok ()) := by
    apply each_ok
    rw [List.forall₂_map_left_iff]
    refine h6.imp fun r x hx => ?_
    obtain ⟨id, members, tags, i1, i2, i3, i4, i5, rfl⟩ := hx
    refine ⟨_, C49_relation b index id members tags i1 i2, ?_⟩
    rw [i3, members_of i4, i5]
    simp only [relationEvent, List.map_map, Function.comp_def]
    rfl
  have e5 := nodes_of h1
  rw [List.map_append, List.map_append] at e5
  simp only [groupTold, e1, e2, e3, e4, Told.andThen, eventsOf]
  rw [e5]
  simp only [List.append_assoc]

theorem groups_told {b : Pbf.Block} {index : String → Nat} {cs : List Content} {gs : List Group} (h : List.Forall₂ (GroupOf b index) cs gs) :
    groupsTold b gs = (cs.flatMap eventsOf, .ok ()) := by
  induction h with
  | nil => rfl
  | cons h _ ih => simp only [groupsTold, group_told h, ih, Told.andThen, List.flatMap_cons]

/-- Behind a file the reading goes on. -/
theorem file_parts {T : Tools} {cs : List Content} {bytes : Bytes} (h : FileOf T cs bytes) (tail : Bytes) (n : Nat) (hn : (bytes ++ tail).length < n) :
    ∃ n', tail.length < n' ∧ parts T n (bytes ++ tail) = (cs.flatMap eventsOf ++ (parts T n' tail).1, (parts T n' tail).2) := by
  induction h generalizing n with
  | nil => exact ⟨n, by simpa using hn, by simp⟩
  | other hp ht hf ih =>
    have hl := part_length hp
    rw [List.append_assoc] at hn ⊢
    obtain ⟨k, rfl⟩ : ∃ k, n = k + 1 := ⟨n - 1, by omega⟩
    obtain ⟨n', i1, i2⟩ := ih k (by simp only [List.length_append] at hn ⊢; omega)
    refine ⟨n', i1, ?_⟩
    rw [part_parts hp, if_neg ht, i2]
    rfl
  | data hp hb hg hf ih =>
    have hl := part_length hp
    rw [List.append_assoc] at hn ⊢
    obtain ⟨k, rfl⟩ : ∃ k, n = k + 1 := ⟨n - 1, by omega⟩
    obtain ⟨n', i1, i2⟩ := ih k (by simp only [List.length_append] at hn ⊢; omega)
    refine ⟨n', i1, ?_⟩
    rw [part_parts hp, if_pos rfl]
    simp only [blockTold, hb, groups_told hg, i2, Told.andThen, List.flatMap_append, List.append_assoc]

theorem parts_end {T : Tools} {tail : Bytes} (h : tail.length < 4) (n : Nat) : parts T n tail = ([], .ok ()) := by
  cases n with
  | zero => rfl
  | succ n =>
    match tail, h with
    | [], _ => rfl
    | [_], _ => rfl
    | [_, _], _ => rfl
    | [_, _, _], _ => rfl
    | _ :: _ :: _ :: _ :: _, h => simp at h; omega

theorem told_ok {T : Tools} {cs : List Content} {bytes tail : Bytes} (h : FileOf T cs bytes) (ht : tail.length < 4) : parse T (bytes ++ tail) = (cs.flatMap eventsOf, .ok ()) := by
  obtain ⟨n', -, h1⟩ := file_parts h tail _ (Nat.lt_succ_self _)
  unfold parse
  rw [h1, parts_end ht]
  simp

/-- A part which is cut off behind its size is an error. -/
theorem parts_cut {T : Tools} {type : String} {content bytes cut rest : Bytes} (hp : Part T type content bytes) (hc : bytes = cut ++ rest) (h4 : 4 ≤ cut.length) (hr : rest ≠ []) (n : Nat)
    (hn : 0 < n) : parts T n cut = ([], .throw "domain_error") := by
  obtain ⟨h, b, z, h1, h2, h3, h4', h5, h6, rfl⟩ := hp
  obtain ⟨k, rfl⟩ : ∃ k, n = k + 1 := ⟨n - 1, by omega⟩
  obtain ⟨w, x, y, v, e1, e2⟩ := size_bigEndian h2
  obtain ⟨t, rfl⟩ : ∃ t, cut = bigEndian h.length ++ t := by
    rw [e1] at hc ⊢
    match cut, h4 with
    | _ :: _ :: _ :: _ :: t, _ =>
      simp only [List.cons_append, List.nil_append, List.cons.injEq] at hc
      obtain ⟨rfl, rfl, rfl, rfl, -⟩ := hc
      exact ⟨t, rfl⟩
  rw [List.append_assoc, List.append_cancel_left_eq] at hc
  have hlen := congrArg List.length hc
  simp only [List.length_append] at hlen
  have hrl := List.length_pos_iff.2 hr
  by_cases hlt : t.length < h.length
  · rw [e1]
    refine parts_noHeader ?_ k
    show readHeader T (w :: x :: y :: v :: t) = _
    rw [readHeader_eq _ _ _ _ _ _ _ e2, readSized, if_neg (small_header h2), take_short (by omega)]
  · obtain ⟨s, rfl⟩ : ∃ s, t = h ++ s := by
      refine ⟨t.drop h.length, ?_⟩
      have := congrArg (List.take h.length) hc
      rw [List.take_left', List.take_append_of_le_length (by omega)] at this
      · conv_lhs => rw [← List.take_append_drop h.length t]
        rw [← this]
      · rfl
    simp only [List.length_append] at hlen hlt
    refine parts_noBlob (readHeader_ok h1 h2) ?_ k
    unfold readBlob
    simp only [take_short (show (s.length : Int) < (b.length : Int) by omega)]
    rw [if_neg (small_blob h3)]

/-! ## What is told -/

theorem entry_events (c : Content) : (eventsOf c).filterMap entry = (c.nodes.map Item.node ++ c.ways.map Item.way).map ImportProof.itemEntry := by
  have := ImportProof.items_entries ⟨none, c.nodes, c.ways, c.relations⟩
  simp only [events, Option.toList_none, List.map_nil, List.nil_append] at this
  exact this

theorem relation_events (c : Content) : (eventsOf c).filterMap relationOf = c.relations.map fun r => ⟨r.id, r.members.map fun m => ⟨OsmXmlSpec.short m.type, m.ref, m.role⟩, r.tags⟩ := by
  have := ImportRelationsProof.told_events ⟨none, c.nodes, c.ways, c.relations⟩
  simp only [events, Option.toList_none, List.map_nil, List.nil_append] at this
  exact this

theorem told_entries {d : Doc} {cs : List Content} (h : Holds d cs) : (cs.flatMap eventsOf).filterMap entry = (events d).filterMap entry := by
  rw [ImportProof.items_entries, ← h.1, List.filterMap_flatMap, List.map_flatMap]
  exact List.flatMap_congr fun c _ => entry_events c

theorem told_relations {d : Doc} {cs : List Content} (h : Holds d cs) : (cs.flatMap eventsOf).filterMap relationOf = (events d).filterMap relationOf := by
  rw [ImportRelationsProof.told_events, ImportRelationsProof.told, ← h.2, List.filterMap_flatMap, List.map_flatMap]
  exact List.flatMap_congr fun c _ => relation_events c

theorem unsigned_lt (z : Int) : unsigned z < 2 ^ 64 := by unfold unsigned; omega

theorem forall₂_left {α β : Type} {R : α → β → Prop} {xs : List α} {ys : List β} (h : List.Forall₂ R xs ys) : ∀ x ∈ xs, ∃ y, R x y := by
  induction h with
  | nil => simp
  | cons h _ ih =>
    intro x hx
    rcases List.mem_cons.1 hx with rfl | hx
    · exact ⟨_, h⟩
    · exact ih x hx

theorem file_small {T : Tools} {cs : List Content} {bytes : Bytes} (h : FileOf T cs bytes) :
    ∀ c ∈ cs, (∀ n ∈ c.nodes, n.id < 2 ^ 64) ∧ (∀ w ∈ c.ways, w.id < 2 ^ 64 ∧ ∀ i ∈ w.refs, i < 2 ^ 64) ∧ ∀ r ∈ c.relations, r.id < 2 ^ 64 := by
  induction h with
  | nil => simp
  | other _ _ _ ih => exact ih
  | data _ _ hg _ ih =>
    intro c hc
    rcases List.mem_append.1 hc with hc | hc
    · obtain ⟨g, ⟨plain, dense, h1, -⟩, h2, h3⟩ := forall₂_left hg c hc
      refine ⟨fun n hn => ?_, fun w hw => ?_, fun r hr => ?_⟩
      · obtain ⟨s, rfl⟩ := forall₂_left h1 n hn
        exact unsigned_lt _
      · obtain ⟨x, id, refs, tags, -, rfl, -⟩ := forall₂_left h2 w hw
        refine ⟨unsigned_lt _, fun i hi => ?_⟩
        obtain ⟨z, -, rfl⟩ := List.mem_map.1 hi
        exact unsigned_lt _
      · obtain ⟨x, id, ms, tags, -, -, hi, -⟩ := forall₂_left h3 r hr
        rw [hi]
        exact unsigned_lt _
    · exact ih c hc

theorem doc_small {T : Tools} {cs : List Content} {bytes : Bytes} {d : Doc} (h : FileOf T cs bytes) (hc : Holds d cs) (hw : ∀ w ∈ d.ways, w.refs ≠ []) :
    ImportProof.Small d ∧ ∀ r ∈ d.relations, r.id < 2 ^ 64 := by
  have hs := file_small h
  refine ⟨⟨fun n hn => ?_, fun w hwm => ?_⟩, fun r hr => ?_⟩
  · have : Item.node n ∈ items d := by simp [items, hn]
    rw [← hc.1] at this
    obtain ⟨c, h1, h2⟩ := List.mem_flatMap.1 this
    exact (hs c h1).1 n (by simpa using h2)
  · have : Item.way w ∈ items d := by simp [items, hwm]
    rw [← hc.1] at this
    obtain ⟨c, h1, h2⟩ := List.mem_flatMap.1 this
    have := (hs c h1).2.1 w (by simpa using h2)
    exact ⟨this.1, hw w hwm, this.2⟩
  · rw [← hc.2] at hr
    obtain ⟨c, h1, h2⟩ := List.mem_flatMap.1 hr
    exact (hs c h1).2.2 r h2

end PbfFileProof
open PbfFileProof

variable {K : Type} [LinearOrder K]

/-- C103, partial: it does not matter whether a map comes as XML or as PBF: importing the files gives the same result and leaves the same stores, for stores of every kind, whatever the
stylesheet, the string table, the order of hash maps and the stack are. Missing: dense nodes in blocks with offsets (`C49_violated_offset`), blocks which are not compressed
(`C49_violated_raw`), rounding of coordinates. -/
theorem C103_same_partial {S Q : Type} (I : GeoStore.Iface S El Q) (T : Tools) (env : Env) (m : GeoStore.Map K S) (k : K) (target : Target) {d : Doc} {cs : List Content} {bytes : Bytes}
    (hf : FileOf T cs bytes) (hc : Holds d cs) {h w u : List Char} (hh : Head h) (hw : PrintsBody d w) (hx : ∃ v, w = '<' :: v) (hb : d.bounds ≠ none ∨ d.nodes ≠ []) :
    importPbf I T env m k target bytes = importXml I env m k target (h ++ (w ++ u)) := by
  have h1 := told_ok hf (tail := []) (by simp)
  rw [List.append_nil] at h1
  have h2 := C93_read (u := u) hh hw hx hb
  have h3 : readTold env target (parse T bytes) = Import.read env target (h ++ (w ++ u)) := by
    simp only [Import.read, readTold, h1, h2, told_entries hc, told_relations hc]
  unfold importPbf importXml
  rw [h3]
  generalize Import.read env target (h ++ (w ++ u)) = o
  cases o <;> rfl

/-- C103, partial: what an imported file in PBF shows, as `C97_import_partial`. -/
theorem C103_import_partial (T : Tools) (env : Env) (hsort : OsmSpec.Sorts env.sort) (tokens : El → List UInt32) {m : GeoStore.Map K (MemStore.Store El)}
    {A : Stores K (MemStore.Store El)} (hm : Abs m A) (hu : Used tokens A) {k : K} {s : MemStore.Store El} (hk : A k = some s) {target : Target} (ht : Sensible target)
    {d : Doc} {cs : List Content} {bytes : Bytes} (hf : FileOf T cs bytes) (hc : Holds d cs) (hd : Sound d) (hw : ∀ w ∈ d.ways, w.refs ≠ [])
    (hr : (d.relations.map (·.id)).Nodup) :
    ∃ x, Describes env.eps env.getId d x ∧ (ResolveSpec.Sound env.resolver x →
      ∃ es, List.Forall₂ (fun key e => ResolveSpec.Becomes env.resolver x (.old key) e) (ResolveSpec.All x) es ∧
        ∀ order : List UInt64 → List UInt64, (∀ l, (order l).Perm l) → ∃ N, ∀ n ≥ N,
          ∃ m' s', importPbf (memIface tokens) T { env with order := order, stack := n } m k target bytes = (m', .done) ∧
            Abs m' (update A k s') ∧ Used tokens (update A k s') ∧
            ∀ q, ∃ old new, (GeoStore.step (memIface tokens) m (.tile q)).2 = .elements old ∧ (GeoStore.step (memIface tokens) m' (.tile q)).2 = .elements new ∧
              new.Perm (old ++ es.filterMap (seen env.eng env.style target q))) := by
  obtain ⟨h1, h2⟩ := doc_small hf hc hw
  obtain ⟨x, hx, himp⟩ := ImportRelationsProof.events_seen env hsort ht h1 hd h2 hr
  refine ⟨x, hx, fun hsound => ?_⟩
  obtain ⟨es, g1, g2⟩ := himp hsound
  refine ⟨es, g1, fun order hord => ?_⟩
  obtain ⟨N, hN⟩ := g2 order hord
  refine ⟨N, fun n hn => ?_⟩
  obtain ⟨ctx, es', l, i1, i2, i3, i4⟩ := hN n hn
  obtain ⟨m', s', a1, a2, a3, a4⟩ := ImportProof.addFile_mem hm hu hk l
  have hp := told_ok hf (tail := []) (by simp)
  rw [List.append_nil] at hp
  have hread : readTold { env with order := order, stack := n } target (parse T bytes) = .ok l := by
    simp only [readTold, hp, told_entries hc, told_relations hc, i1, Outcome.bind, i2, i3]
  refine ⟨m', s', by simp only [importPbf, hread, a1], a2, a3, fun q => ?_⟩
  obtain ⟨old, new, b1, b2, b3⟩ := a4 q
  exact ⟨old, new, b1, b2, b3.trans (by rw [i4])⟩

/-- C103, partial: a file which ends inside of a part, behind the four bytes with the size of its header, is refused, and all stores stay as they were. Missing: cuts in front of that, see
`C103_violated_cut`. -/
theorem C103_cut_partial {S Q : Type} (I : GeoStore.Iface S El Q) (T : Tools) (env : Env) {m : GeoStore.Map K S} {A : Stores K S} (hm : Abs m A) {k : K} {s : S} (hk : A k = some s)
    (target : Target) {d : Doc} {cs : List Content} {bytes : Bytes} (hf : FileOf T cs bytes) (hc : Holds d cs) (hd : Whole d) (hw : ∀ w ∈ d.ways, w.refs ≠ [])
    {type : String} {content part cut rest : Bytes} (hp : Part T type content part) (hcut : part = cut ++ rest) (h4 : 4 ≤ cut.length) (hr : rest ≠ []) :
    importPbf I T env m k target (bytes ++ cut) = (m, .failed (.throw "domain_error")) := by
  obtain ⟨n', h1, h2⟩ := file_parts hf cut _ (Nat.lt_succ_self _)
  rw [parts_cut hp hcut h4 hr n' (by omega)] at h2
  have h3 : parse T (bytes ++ cut) = (cs.flatMap eventsOf, .throw "domain_error") := by
    unfold parse
    rw [h2, List.append_nil]
  obtain ⟨ctx, hv⟩ := (ImportProof.visit_whole env.eps env.getId env.sort (doc_small hf hc hw).1).1 hd
  have h5 : readTold env target (parse T (bytes ++ cut)) = .throw "domain_error" := by
    simp only [readTold, h3, told_entries hc, hv, Outcome.bind]
  simp only [importPbf, h5, (hm.subscript hk).1]

/-- C103 is violated: a file which is cut off inside of the size of a part, so that parts are missing, is imported as if it was whole. -/
theorem C103_violated_cut {S Q : Type} (I : GeoStore.Iface S El Q) (T : Tools) (env : Env) (m : GeoStore.Map K S) (k : K) (target : Target) {cs : List Content} {bytes cut : Bytes}
    (hf : FileOf T cs bytes) (hc : cut.length < 4) : importPbf I T env m k target (bytes ++ cut) = importPbf I T env m k target bytes := by
  have h1 := told_ok hf hc
  have h2 := told_ok hf (tail := []) (by simp)
  rw [List.append_nil] at h2
  unfold importPbf
  rw [h1, h2]

/-- C103 is violated: an empty file, or one which does not exist, is imported without an error, where the reader of XML refuses it. -/
theorem C103_violated_empty (T : Tools) (env : Env) (hord : ∀ l, (env.order l).Perm l) (tokens : El → List UInt32) {m : GeoStore.Map K (MemStore.Store El)} {A : Stores K (MemStore.Store El)}
    (hm : Abs m A) (hu : Used tokens A) {k : K} {s : MemStore.Store El} (hk : A k = some s) (target : Target) :
    (importPbf (memIface tokens) T env m k target []).2 = .done ∧ importXml (memIface tokens) env m k target [] = (m, .failed (.throw "domain_error")) := by
  have h1 := told_ok (T := T) .nil (tail := []) (by simp)
  have h0 : env.order [] = [] := List.perm_nil.1 (hord [])
  have hread : readTold env target (parse T []) = .ok [] := by
    simp only [List.append_nil] at h1
    simp only [readTold, h1, List.flatMap_nil, List.filterMap_nil, OsmStream.visitAll, Outcome.bind, Import.complete, Import.relations, List.foldl_nil, List.map_nil, h0]
    simp [Resolve.complete, Import.collect, Outcome.bind, Resolve.resolveAll, Resolve.keys, Resolve.each]
  obtain ⟨m', s', a1, -⟩ := ImportProof.addFile_mem hm hu hk []
  refine ⟨by simp only [importPbf, hread, a1], ?_⟩
  have he : OsmXml.parse [] = ([], .throw "domain_error") := by decide
  exact C95_refused_partial (memIface tokens) env hm hk target (text := []) (by rw [he]; simp) (by rw [he]; simp)

/-- C103 is violated: a block which unpacks to more than 32 MiB is written behind the end of the buffer; the size in the file is not looked at. -/
theorem C103_violated_buffer (T : Tools) {h b z content : Bytes} {type : String} (h1 : T.header h = some ⟨type, b.length⟩) (h2 : h.length ≤ 65536) (h3 : b.length ≤ 33554432)
    (h4 : T.blob b = some ⟨none, content.length, some z, none⟩) (h5 : T.inflate z = (content, true)) (h6 : 33554432 < content.length) (h7 : content.length < 2147483648) (rest : Bytes) :
    parse T (bigEndian h.length ++ (h ++ (b ++ rest))) = ([], .ub "write behind the buffer") := by
  have h8 : (((content.length : Int)) % 2 ^ 32).toNat = content.length := by omega
  have h9 : unpack T b ⟨none, content.length, some z, none⟩ = .ub "write behind the buffer" := by
    unfold unpack
    simp only [h5, h8, List.take_length]
    rw [if_pos (by have : maxBlob = 33554432 := by decide
                   omega)]
  refine parts_ub (readHeader_ok h1 h2) ?_ _
  unfold readBlob
  simp only [take_append, h4, h9]
  rw [if_neg (small_blob h3)]
  rfl


namespace PbfFileProof

/-- Messages for the example. -/
def tools : Tools where
  header h := if h = [1] then some ⟨"OSMData", 1⟩ else some ⟨"OSMHeader", 1⟩
  blob b := some ⟨none, b.length, some b, none⟩
  inflate z := (z, true)
  block _ := some ⟨⟨0, 0, 100, ["", "a", "b"]⟩, [⟨[], some ⟨[1], [0], [0], [1, 2, 0]⟩, [], []⟩, ⟨[], none, [⟨3, [1], [], []⟩], []⟩]⟩

/-- The groups of the file. -/
def groups : List Content := [⟨[⟨1, 0, 0, [⟨['a'], ['b']⟩]⟩], [], []⟩, ⟨[], [⟨3, [1], []⟩], []⟩]

theorem part_of (k x : UInt8) : Part tools (if k = 1 then "OSMData" else "OSMHeader") [x] (bigEndian 1 ++ ([k] ++ [x])) := by
  refine ⟨[k], [x], [x], ?_, by simp, by simp, rfl, rfl, by simp, rfl⟩
  by_cases h : k = 1 <;> simp [tools, h]

theorem groups_of : FileOf tools groups ((bigEndian 1 ++ ([0] ++ [5])) ++ ((bigEndian 1 ++ ([1] ++ [7])) ++ [])) := by
  refine .other (part_of 0 5) (by decide) ?_
  have h := FileOf.data (T := tools) (content := [7]) (index := fun s => if s = "a" then 1 else 2) (gs := groups) (part_of 1 7) rfl ?_ .nil
  · simpa using h
  · refine .cons ⟨⟨[], [⟨1, 0, 0, [("a", "b")]⟩], ?_, by simp, rfl, .inr ⟨_, rfl, ⟨rfl, rfl, rfl, ?_, .inl (by decide)⟩, rfl, rfl⟩⟩, .nil, .nil⟩
      (.cons ⟨⟨[], [], .nil, by simp, rfl, .inl ⟨rfl, rfl⟩⟩, .cons ⟨3, [1], [], by simp [Indexed], rfl, rfl⟩ .nil, .nil⟩ .nil)
    · refine .cons ?_ .nil
      simp [NodeOf, texts, degrees, unsigned]
    · intro n hn t ht
      simp only [List.mem_singleton] at hn
      subst hn
      simp only [List.mem_singleton] at ht
      subst ht
      decide

end PbfFileProof

/-- The hypotheses of `C103_same_partial`, `C103_import_partial`, `C103_cut_partial` and `C103_violated_cut` are met by a file with a node and a way, which is also there as a text. -/
example : ∃ cs bytes, FileOf tools cs bytes ∧ Holds (ImportProof.sample 1) cs ∧ Whole (ImportProof.sample 1) ∧ (∀ w ∈ (ImportProof.sample 1).ways, w.refs ≠ []) ∧
    (∃ w, PrintsBody (ImportProof.sample 1) w ∧ ∃ v, w = '<' :: v) ∧ (ImportProof.sample 1).nodes ≠ [] ∧ Part tools "OSMData" [7] (bigEndian 1 ++ ([1] ++ [7])) := by
  refine ⟨groups, _, groups_of, ⟨by simp [groups, items, ImportProof.sample], by simp [groups, ImportProof.sample]⟩, ?_, by simp [ImportProof.sample],
    ⟨_, ImportProof.sample_prints (by decide) OsmXmlProof.id_one, _, rfl⟩, by simp [ImportProof.sample], part_of 1 7⟩
  intro w hw i hi
  simp only [ImportProof.sample, List.mem_singleton] at hw
  subst hw
  exact ⟨⟨1, 0, 0, [⟨['a'], ['b']⟩]⟩, by simp [ImportProof.sample], by simpa [eq_comm] using hi⟩

/-- The hypotheses of `C103_violated_buffer` are met, with a zlib which knows one stream of many zeros. -/
example : ∃ (T : Tools) (h b z content : Bytes) (type : String), T.header h = some ⟨type, b.length⟩ ∧ h.length ≤ 65536 ∧ b.length ≤ 33554432 ∧
    T.blob b = some ⟨none, content.length, some z, none⟩ ∧ T.inflate z = (content, true) ∧ 33554432 < content.length ∧ content.length < 2147483648 := by
  refine ⟨⟨fun _ => some ⟨"OSMData", 1⟩, fun b => some ⟨none, 40000000, some b, none⟩, fun _ => (List.replicate 40000000 0, true), fun _ => none⟩, [1], [2], [2], List.replicate 40000000 0, "OSMData",
    rfl, by simp, by simp, ?_, rfl, ?_, ?_⟩
  · rw [List.length_replicate]; rfl
  · rw [List.length_replicate]; norm_num
  · rw [List.length_replicate]; norm_num

end Verif.Props
