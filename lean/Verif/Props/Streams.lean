import Verif.Proof.Streams
import Mathlib.Data.List.Nodup

/-! # C07, C08, C56: binary codecs -/
namespace Verif.Props
open Verif Verif.Streams Verif.StreamsSpec Verif.StreamsProof

/-- C07, the part that holds: every element whose lists have fewer than 65536 entries comes back equal, whatever
bytes follow, and the stream stands exactly behind its bytes. Missing: longer lists, which the 16 bit counters
truncate (see `C07_violated_65536`). -/
theorem C07_element_round_trip_partial (e : Element Coord) (hf : Fits e) (rest : Bytes) :
    readElement e.id (writeElement e ++ rest) = .ok (e, rest) := by
  unfold readElement
  rw [readElementAux_write e hf _ (by simp) rest]
  cases e <;> rfl

/-- C07 for a file of concatenated elements: each one is read back from its own offset. -/
theorem C07_concatenated_partial (before after : List (Element Coord)) (e : Element Coord) (hf : Fits e) :
    readElement e.id (((before ++ e :: after).flatMap writeElement).drop (before.flatMap writeElement).length) =
      .ok (e, after.flatMap writeElement) := by
  rw [List.flatMap_append, List.drop_left' rfl, List.flatMap_cons]
  exact C07_element_round_trip_partial e hf _

/-- The writer is injective on elements that fit, up to the id which is kept elsewhere. -/
theorem C07_write_injective (e e' : Element Coord) (hf : Fits e) (hf' : Fits e') (hid : e.id = e'.id)
    (h : writeElement e = writeElement e') : e = e' := by
  have h1 := C07_element_round_trip_partial e hf []
  have h2 := C07_element_round_trip_partial e' hf' []
  rw [← hid, ← h, h1] at h2
  simpa using h2

/-- C07 is violated by every way with 65536 points: it comes back without points. -/
theorem C07_violated_65536 (i : UInt64) (cs : List Coord) (h : cs.length = 65536) :
    readElement i (writeElement (.way i [] cs)) = .ok (.way i [] [], cs.flatMap writeCoord) := by
  have e1 : leBytes 2 65536 = [0, 0] := by decide
  have e2 : leBytes 2 0 = [0, 0] := by decide
  have hw : writeElement (.way i [] cs) = 1 :: 0 :: 0 :: 0 :: 0 :: cs.flatMap writeCoord := by
    simp only [writeElement, writeVec, h, e1]
    simp [e2]
  rw [hw]
  generalize cs.flatMap writeCoord = body
  unfold readElement
  rw [show (1 :: 0 :: 0 :: 0 :: 0 :: body : Bytes).length = (body.length + 4) + 1 by simp]
  have e3 : ∀ b : Bytes, readLe 2 (0 :: 0 :: b) = some (0, b) := by
    intro b; simp [readLe, leNat]
  simp only [readElementAux, dropWhile_type 1 (by decide)]
  simp [readVec, e3, readN, Element.withId]

/-- Non-trivial case: a relation containing a relation with a way, followed by other bytes. -/
example : Fits (.relation 7 [⟨1, 2⟩] [.relation 5 [] [.way 3 [⟨4, 5⟩] [⟨1, 2⟩, ⟨3, 4⟩]], .node 9 [] ⟨5, 6⟩]) := by
  simp [Fits, FitsAll]

example : readElement 7 (writeElement (.relation 7 [⟨1, 2⟩]
    [.relation 5 [] [.way 3 [⟨4, 5⟩] [⟨1, 2⟩, ⟨3, 4⟩]], .node 9 [] ⟨5, 6⟩]) ++ [42]) =
    .ok (.relation 7 [⟨1, 2⟩] [.relation 5 [] [.way 3 [⟨4, 5⟩] [⟨1, 2⟩, ⟨3, 4⟩]], .node 9 [] ⟨5, 6⟩], [42]) :=
  C07_element_round_trip_partial (.relation 7 [⟨1, 2⟩] [.relation 5 [] [.way 3 [⟨4, 5⟩] [⟨1, 2⟩, ⟨3, 4⟩]], .node 9 [] ⟨5, 6⟩])
    (by simp [Fits, FitsAll]) _

/-- C08. Every mesh comes back with its single precision rounding, and the stream stands behind its bytes; names with
NUL and lists of 2^32 entries are excluded. -/
theorem C08_mesh_round_trip {D : Type} (fc : FloatConv D) (m : Mesh D) (hm : MeshFits m) (rest : Bytes) :
    readMesh fc (writeMesh fc m ++ rest) = some (rounded fc m, rest) := by
  obtain ⟨hname, h1, h2, h3, h4, h5⟩ := hm
  unfold readMesh writeMesh
  simp only [List.append_assoc, List.cons_append]
  rw [readLine_write _ _ hname]
  simp only [Option.bind_eq_bind, Option.bind_some,
    readVec32_write _ _ _ (readDouble_write fc) _ h1, readVec32_write _ _ _root_.id readInt_write _ h2,
    readVec32_write _ _ _root_.id readInt_write _ h3, readVec32_write _ _ _ (readDouble_write fc) _ h4,
    readVec32_write _ _ _root_.id readInt_write _ h5, List.map_id]
  rfl

/-- C08, lengths never change. -/
theorem C08_lengths {D : Type} (fc : FloatConv D) (m : Mesh D) (hm : MeshFits m) (rest : Bytes) :
    ∃ m', readMesh fc (writeMesh fc m ++ rest) = some (m', rest) ∧ m'.vertices.length = m.vertices.length ∧
      m'.uvs.length = m.uvs.length ∧ m'.triangles = m.triangles ∧ m'.colors = m.colors ∧ m'.uvMap = m.uvMap ∧
      m'.name = m.name :=
  ⟨_, C08_mesh_round_trip fc m hm rest, by simp [rounded], by simp [rounded], rfl, rfl, rfl, rfl⟩

/-- C08, a mesh which went through the stream once is stored without further loss, if converting a float to double
and back is exact (as IEEE 754 guarantees for numbers). -/
theorem C08_second_trip_exact {D : Type} (fc : FloatConv D) (hfc : ∀ b, fc.toFloat (fc.ofFloat b) = b) (m : Mesh D) :
    writeMesh fc (rounded fc m) = writeMesh fc m := by
  simp [writeMesh, rounded, writeVec32, writeDouble, List.flatMap_map, hfc]
  rfl

/-- A name with an embedded NUL is cut: MeshStream.cpp:57. -/
theorem C08_violated_nul_name {D : Type} (fc : FloatConv D) :
    readMesh fc (writeMesh fc ⟨[97, 0, 98], [], [], [], [], []⟩) = some (⟨[97], [], [], [], [], []⟩, []) := by
  have h0 : leBytes 4 0 = [0, 0, 0, 0] := by decide
  have hw : writeMesh fc ⟨[97, 0, 98], [], [], [], [], []⟩ = writeMesh fc ⟨[97], [], [], [], [], []⟩ ++ [] := by
    simp [writeMesh]
  rw [hw, C08_mesh_round_trip fc _ (by simp [MeshFits])]
  rfl

/-- Non-trivial case: doubles are natural numbers rounded down to even ones. -/
example : readMesh (D := Nat) ⟨fun n => UInt32.ofNat (n / 2), fun b => 2 * b.toNat⟩
    (writeMesh ⟨fun n => UInt32.ofNat (n / 2), fun b => 2 * b.toNat⟩ ⟨[109], [3, 4, 7], [0, 1, 2], [255], [1], [9]⟩) =
    some (⟨[109], [2, 4, 6], [0, 1, 2], [255], [0], [9]⟩, []) := by decide

/-- C56, the part that holds: a non-empty index comes back with the same bitmap for every token, whatever the
uninitialised key variable contains. Missing: the empty index (`C56_violated_empty`). -/
theorem C56_bitmap_round_trip_partial (garbage : UInt32) (m : Assoc UInt32 Bitset) (hne : m ≠ [])
    (hn : (m.map (·.1)).Nodup) (hb : ∀ e ∈ m, e.2.buffer.length < 2 ^ 64) :
    ∃ m', readBitmap garbage (writeBitmap m) = some m' ∧ ∀ k, m'.find k = m.find k := by
  refine ⟨m.reverse ++ [], readBitmapLoop_write m hb hn _ (by omega) _ _ _ (fun h => absurd h hne) ?_, ?_⟩
  · intro e _; rfl
  · intro k
    rw [List.append_nil]
    cases hf : m.find k with
    | none =>
      rw [Assoc.find_eq_none_iff] at hf ⊢
      intro e he; exact hf e (List.mem_reverse.1 he)
    | some v =>
      apply Assoc.find_of_mem
      · rw [List.map_reverse]; exact List.nodup_reverse.2 hn
      · exact List.mem_reverse.2 (Assoc.mem_of_find _ _ _ hf)

/-- C56 is violated by the empty index (every tile whose bitmap file does not exist yet): reading it invents an entry
under whatever value the uninitialised key variable has. -/
theorem C56_violated_empty (garbage : UInt32) :
    readBitmap garbage (writeBitmap []) = some [(garbage, ⟨0, []⟩)] := rfl

example : (readBitmap 77 (writeBitmap [(3, ⟨5, [1, 2]⟩), (9, ⟨6, [7]⟩)])).map (fun m => (m.find 3, m.find 9, m.find 77)) =
    some (some ⟨5, [1, 2]⟩, some ⟨6, [7]⟩, none) := by decide +kernel

end Verif.Props
