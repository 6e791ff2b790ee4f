import Mathlib.Tactic.Ring
import Mathlib.Tactic.Linarith
import Mathlib.Tactic.NormNum
import Mathlib.Tactic.FieldSimp
import Verif.Props.PbfSpec

/-! # C49: decoding of PBF blocks -/
namespace Verif.Props
open Verif.Pbf Verif.PbfSpec

namespace PbfProof

theorem wrap_eq (z : Int) : wrap z = unsigned z := rfl

theorem addWrapped_unsigned (a b : Int) : addWrapped (unsigned a) (b - a) = unsigned b := by
  unfold addWrapped wrap unsigned
  omega

theorem at_ok {α : Type} {l : List α} {i : Nat} {a : α} (h : l[i]? = some a) : at' l i = .ok a := by unfold at'; rw [h]

theorem denseTags_ok (b : Block) (index : String → Nat) (tags : List (String × String)) (h : Indexed b index tags) (rest : List Nat) :
    denseTags b (tags.flatMap (fun t => [index t.1, index t.2]) ++ 0 :: rest) = .ok (tags, rest) := by
  induction tags with
  | nil => cases rest <;> simp [denseTags]
  | cons t tags ih =>
    obtain ⟨h1, h2, h3⟩ := h t List.mem_cons_self
    have ih := ih fun t ht => h t (List.mem_cons_of_mem _ ht)
    rw [List.flatMap_cons, List.append_assoc]
    show denseTags b (index t.1 :: index t.2 :: (tags.flatMap (fun t => [index t.1, index t.2]) ++ 0 :: rest)) = _
    unfold denseTags
    rw [if_neg h1, at_ok h2, at_ok h3, ih]
    rfl

/-- What the loop delivers: the offset is added once more for every node. -/
def expected (b : Block) : Nat → List Source → List NodeOut
  | _, [] => []
  | i, n :: rest => ⟨unsigned n.id, degrees (((i : Int) + 1) * b.latOffset) b.granularity n.lat, degrees (((i : Int) + 1) * b.lonOffset) b.granularity n.lon, n.tags⟩ ::
      expected b (i + 1) rest

theorem degrees_step (offset granularity previous value : Int) (i : Nat) :
    degrees ((i : Int) * offset) granularity previous + nano offset granularity (value - previous) =
      degrees (((i : Int) + 1) * offset) granularity value := by
  unfold degrees nano
  push_cast
  ring

theorem denseLoop_ok (b : Block) (index : String → Nat) (nodes : List Source) (hs : ∀ n ∈ nodes, Indexed b index n.tags) (kv : List Nat)
    (hkv : kv = nodes.flatMap (fun n => n.tags.flatMap (fun t => [index t.1, index t.2]) ++ [0]) ∨ ((∀ n ∈ nodes, n.tags = []) ∧ kv = []))
    (i : Nat) (id lat lon : Int) :
    denseLoop b (unsigned id) (degrees ((i : Int) * b.latOffset) b.granularity lat) (degrees ((i : Int) * b.lonOffset) b.granularity lon) kv
      (deltas id (nodes.map Source.id)) (deltas lat (nodes.map Source.lat)) (deltas lon (nodes.map Source.lon)) = .ok (expected b i nodes) := by
  induction nodes generalizing kv i id lat lon with
  | nil => rfl
  | cons n nodes ih =>
    have htags : ∃ kv', denseTags b kv = .ok (n.tags, kv') ∧
        (kv' = nodes.flatMap (fun n => n.tags.flatMap (fun t => [index t.1, index t.2]) ++ [0]) ∨ ((∀ n ∈ nodes, n.tags = []) ∧ kv' = [])) := by
      rcases hkv with rfl | ⟨h1, rfl⟩
      · refine ⟨_, ?_, .inl rfl⟩
        rw [List.flatMap_cons, List.append_assoc]
        exact denseTags_ok b index n.tags (hs n List.mem_cons_self) _
      · exact ⟨[], by rw [h1 n List.mem_cons_self]; rfl, .inr ⟨fun n hn => h1 n (List.mem_cons_of_mem _ hn), rfl⟩⟩
    obtain ⟨kv', h1, h2⟩ := htags
    simp only [List.map_cons, deltas]
    unfold denseLoop
    simp only [addWrapped_unsigned, degrees_step, h1, Outcome.bind]
    have := ih (fun n hn => hs n (List.mem_cons_of_mem _ hn)) kv' h2 (i + 1) n.id n.lat n.lon
    push_cast at this
    rw [this]
    rfl

theorem expected_zero (b : Block) (h1 : b.latOffset = 0) (h2 : b.lonOffset = 0) (i : Nat) (nodes : List Source) :
    expected b i nodes = nodes.map fun n => ⟨unsigned n.id, degrees b.latOffset b.granularity n.lat, degrees b.lonOffset b.granularity n.lon, n.tags⟩ := by
  induction nodes generalizing i with
  | nil => rfl
  | cons n nodes ih => unfold expected; rw [ih]; simp [h1, h2]

theorem expected_get (b : Block) (i : Nat) (nodes : List Source) (k : Nat) (n : Source) (h : nodes[k]? = some n) :
    (expected b i nodes)[k]? = some ⟨unsigned n.id, degrees (((i + k : Nat) + 1 : Int) * b.latOffset) b.granularity n.lat,
      degrees (((i + k : Nat) + 1 : Int) * b.lonOffset) b.granularity n.lon, n.tags⟩ := by
  induction nodes generalizing i k with
  | nil => simp at h
  | cons m nodes ih =>
    unfold expected
    cases k with
    | zero => simp at h; subst h; simp
    | succ k =>
      simp only [List.getElem?_cons_succ] at h ⊢
      rw [ih (i + 1) k h]
      have : i + 1 + k = i + (k + 1) := by omega
      rw [this]

theorem parseRefs_ok (previous : Int) (ids : List Int) : parseRefs (unsigned previous) (deltas previous ids) = ids.map unsigned := by
  induction ids generalizing previous with
  | nil => rfl
  | cons x ids ih => simp only [deltas, parseRefs, addWrapped_unsigned, ih, List.map_cons]

theorem setTags_ok (b : Block) (index : String → Nat) (tags : List (String × String)) (h : Indexed b index tags) :
    setTags b (tags.map fun t => index t.1) (tags.map fun t => index t.2) = .ok tags := by
  induction tags with
  | nil => rfl
  | cons t tags ih =>
    obtain ⟨h1, h2, h3⟩ := h t List.mem_cons_self
    simp only [List.map_cons]
    unfold setTags
    rw [at_ok h2, at_ok h3, ih fun t ht => h t (List.mem_cons_of_mem _ ht)]
    rfl

end PbfProof

open PbfProof

/-- C49: dense nodes are decoded to the ids, coordinates and tags of the nodes which were encoded, if the block has no offsets. Partial: with
offsets only the first node is right, see `C49_violated_offset`. -/
theorem C49_dense_partial (b : Block) (index : String → Nat) (nodes : List Source) (d : Dense) (h : Encodes b index nodes d) (h1 : b.latOffset = 0)
    (h2 : b.lonOffset = 0) :
    parseDense b d = .ok (nodes.map fun n => ⟨unsigned n.id, degrees b.latOffset b.granularity n.lat, degrees b.lonOffset b.granularity n.lon, n.tags⟩) := by
  have := denseLoop_ok b index nodes h.strings d.keysVals h.tags 0 0 0 0
  rw [← h.ids, ← h.lats, ← h.lons, expected_zero b h1 h2] at this
  unfold parseDense
  rw [← this]
  simp [degrees, unsigned]

/-- C49: a simple node is decoded to its values, with any offsets. -/
theorem C49_node (b : Block) (index : String → Nat) (n : Source) (h : Indexed b index n.tags) :
    parseNode b ⟨n.id, n.lat, n.lon, n.tags.map fun t => index t.1, n.tags.map fun t => index t.2⟩ =
      .ok ⟨unsigned n.id, degrees b.latOffset b.granularity n.lat, degrees b.lonOffset b.granularity n.lon, n.tags⟩ := by
  unfold parseNode
  simp only [setTags_ok b index n.tags h, Outcome.bind]
  congr 1
  simp only [NodeOut.mk.injEq, nano, degrees, wrap_eq, true_and, and_true]
  constructor <;> ring

/-- C49: the references of a way are decoded to the ids which were encoded. -/
theorem C49_way (b : Block) (index : String → Nat) (id : Int) (refs : List Int) (tags : List (String × String)) (h : Indexed b index tags) :
    parseWay b ⟨id, deltas 0 refs, tags.map fun t => index t.1, tags.map fun t => index t.2⟩ = .ok (unsigned id, refs.map unsigned, tags) := by
  unfold parseWay
  simp only [setTags_ok b index tags h, Outcome.bind, wrap_eq]
  have := parseRefs_ok 0 refs
  rw [show unsigned 0 = 0 from rfl] at this
  rw [this]

/-- C49: the members of a relation are decoded to the ids, kinds and roles which were encoded. -/
theorem C49_relation (b : Block) (index : String → Nat) (id : Int) (members : List (Int × Nat × String)) (tags : List (String × String))
    (h : Indexed b index tags) (hr : ∀ m ∈ members, b.strings[index m.2.2]? = some m.2.2) :
    parseRelation b ⟨id, deltas 0 (members.map Prod.fst), members.map fun m => m.2.1, members.map fun m => index m.2.2,
      tags.map fun t => index t.1, tags.map fun t => index t.2⟩ =
    .ok (unsigned id, members.map (fun m => ⟨unsigned m.1, if m.2.1 = 0 then "n" else if m.2.1 = 1 then "w" else "r", m.2.2⟩), tags) := by
  have gen : ∀ (members : List (Int × Nat × String)) (previous : Int), (∀ m ∈ members, b.strings[index m.2.2]? = some m.2.2) →
      parseMembers b (unsigned previous) (deltas previous (members.map Prod.fst)) (members.map fun m => m.2.1) (members.map fun m => index m.2.2) =
      .ok (members.map fun m => ⟨unsigned m.1, if m.2.1 = 0 then "n" else if m.2.1 = 1 then "w" else "r", m.2.2⟩) := by
    intro members
    induction members with
    | nil => intro _ _; rfl
    | cons m members ih =>
      intro previous hm
      simp only [List.map_cons, deltas]
      unfold parseMembers
      simp only [addWrapped_unsigned, at_ok (hm m List.mem_cons_self), ih m.1 fun m' h' => hm m' (List.mem_cons_of_mem _ h'), Outcome.bind]
      rfl
  have g := gen members 0 hr
  rw [show unsigned 0 = 0 from rfl] at g
  unfold parseRelation
  simp only [g, setTags_ok b index tags h, Outcome.bind, wrap_eq]

/-- C49 is false for dense nodes in blocks with an offset: it is added once more for every node, so every node but the first is displaced. -/
theorem C49_violated_offset (b : Block) (index : String → Nat) (nodes : List Source) (d : Dense) (h : Encodes b index nodes d) (hoff : b.latOffset ≠ 0)
    (k : Nat) (hk : 0 < k) (n : Source) (hn : nodes[k]? = some n) :
    ∃ out o, parseDense b d = .ok out ∧ out[k]? = some o ∧ o.lat = degrees b.latOffset b.granularity n.lat + k * (b.latOffset / 1000000000 : ℚ) ∧
      o.lat ≠ degrees b.latOffset b.granularity n.lat := by
  have hloop := denseLoop_ok b index nodes h.strings d.keysVals h.tags 0 0 0 0
  rw [← h.ids, ← h.lats, ← h.lons] at hloop
  have hparse : parseDense b d = .ok (expected b 0 nodes) := by
    unfold parseDense
    rw [← hloop]
    simp [degrees, unsigned]
  have e : degrees (((0 + k : Nat) + 1 : Int) * b.latOffset) b.granularity n.lat =
      degrees b.latOffset b.granularity n.lat + k * (b.latOffset / 1000000000 : ℚ) := by
    unfold degrees
    push_cast
    ring
  refine ⟨_, _, hparse, expected_get b 0 nodes k n hn, e, ?_⟩
  simp only
  rw [e]
  intro hc
  have : (k : ℚ) * (b.latOffset / 1000000000 : ℚ) = 0 := by linarith
  rcases mul_eq_zero.1 this with h1 | h1
  · have : k = 0 := by exact_mod_cast h1
    omega
  · have h2 : (b.latOffset : ℚ) = 0 := by
      rcases div_eq_zero_iff.1 h1 with h2 | h2
      · exact h2
      · norm_num at h2
    exact hoff (by exact_mod_cast h2)

/-- C49 is false for uncompressed blocks: the bytes of the enclosing message are copied instead of its content, so that the block begins with the
length of itself. (Only a block whose second byte happens to be its own length, which no block with a string table is, could be read.) -/
theorem C49_violated_raw (raw : List UInt8) (first second : UInt8) (rest : List UInt8) (h : raw = first :: second :: rest)
    (hs : second ≠ UInt8.ofNat raw.length) : readRaw (blob raw) raw ≠ raw := by
  subst h
  unfold readRaw blob
  simp only [List.length_cons, List.take_succ_cons]
  intro hc
  simp only [List.cons.injEq] at hc
  exact hs hc.2.1.symm

/-- Two dense nodes, one with a tag. -/
example : Encodes ⟨0, 0, 100, ["", "a", "b"]⟩ (fun s => if s = "a" then 1 else 2) [⟨7, 10, 20, [("a", "b")]⟩, ⟨5, 12, 19, []⟩] ⟨[7, -2], [10, 2], [20, -1], [1, 2, 0, 0]⟩ := by
  refine ⟨rfl, rfl, rfl, ?_, .inl (by decide)⟩
  intro n hn
  simp only [List.mem_cons, List.not_mem_nil, or_false] at hn
  rcases hn with rfl | rfl
  · intro t ht
    simp only [List.mem_cons, List.not_mem_nil, or_false] at ht
    subst ht
    decide
  · intro t ht; simp at ht

/-- A block with an empty string table and the granularity 200. -/
example : readRaw (blob [0x0A, 0, 0x88, 1, 0xC8, 1]) [0x0A, 0, 0x88, 1, 0xC8, 1] = [0x0A, 6, 0x0A, 0, 0x88, 1] := by decide

end Verif.Props
