import Verif.Props.PbfDamagedSpec
import Verif.Props.PbfFile

/-! # Damaged OSM files in PBF (C103) -/
namespace Verif.Props
open Verif.PbfFile Verif.PbfFileSpec Verif.PbfDamagedSpec
open Verif.Clipper (El)
open Verif.GeoStoreSpec (Stores)
open Verif.Props.GeoStoreProof (Abs)
open Verif.ImportSpec (Whole)
open Verif.Import (Env Target)
open Verif.OsmXmlSpec (Doc)
open PbfFileProof

namespace PbfDamagedProof

theorem size_big {n : Nat} (h : n < 2 ^ 31) : ∃ a b c d, bigEndian n = [a, b, c, d] ∧ size a b c d = n := by
  refine ⟨_, _, _, _, rfl, ?_⟩
  simp only [size, UInt8.toNat_ofNat']
  rw [if_pos (by omega)]
  push_cast
  omega

theorem frame_unpack {T : Tools} {b bytes rest : Bytes} (h : Frame T b bytes) {x : Blob} (hx : T.blob b = some x) (hu : unpack T b x = .throw "domain_error") (n : Nat) :
    parts T (n + 1) (bytes ++ rest) = ([], .throw "domain_error") := by
  obtain ⟨h, type, h1, h2, h3, rfl⟩ := h
  rw [List.append_assoc, List.append_assoc]
  refine parts_noBlob (readHeader_ok h1 h2) ?_ n
  unfold readBlob
  simp only [take_append, hx, hu]
  rw [if_neg (small_blob h3)]
  rfl

theorem damaged_parts {T : Tools} {bytes : Bytes} (h : Damaged T bytes) (rest : Bytes) (n : Nat) : parts T (n + 1) (bytes ++ rest) = ([], .throw "domain_error") := by
  cases h with
  | longHeader h1 h2 =>
    obtain ⟨a, b, c, d, e1, e2⟩ := size_big h2
    rw [e1]
    refine parts_noHeader ?_ n
    show readHeader T (a :: b :: c :: d :: rest) = _
    rw [readHeader_eq _ _ _ _ _ _ _ e2, readSized, if_pos]
    have : maxHeader = 65536 := by decide
    omega
  | @header h h1 h2 =>
    obtain ⟨a, b, c, d, e1, e2⟩ := size_bigEndian h2
    rw [List.append_assoc, e1]
    refine parts_noHeader ?_ n
    show readHeader T (a :: b :: c :: d :: (h ++ rest)) = _
    rw [readHeader_eq _ _ _ _ _ _ _ e2, readSized, if_neg (small_header h2), take_append]
    simp only [h1]
  | longBlob h1 h2 h3 =>
    rw [List.append_assoc]
    refine parts_noBlob (readHeader_ok h1 h2) ?_ n
    unfold readBlob
    rw [if_pos]
    have : maxBlob = 33554432 := by decide
    simp only
    omega
  | blob h1 hx =>
    obtain ⟨h, type, h1, h2, h3, rfl⟩ := h1
    rw [List.append_assoc, List.append_assoc]
    refine parts_noBlob (readHeader_ok h1 h2) ?_ n
    unfold readBlob
    simp only [take_append, hx]
    rw [if_neg (small_blob h3)]
  | stream h1 hx h3 h4 =>
    refine frame_unpack h1 hx ?_ n
    unfold unpack
    simp only [h3]
    rw [if_neg, if_neg (by simp)]
    have : maxBlob = 33554432 := by decide
    rw [List.length_take]
    omega
  | longer h1 hx h3 h4 h5 =>
    refine frame_unpack h1 hx ?_ n
    unfold unpack
    simp only [h3]
    rw [if_neg, if_neg]
    · rintro ⟨-, h⟩
      omega
    · have : maxBlob = 33554432 := by decide
      rw [List.length_take]
      omega
  | lzma h1 hx =>
    refine frame_unpack h1 hx ?_ n
    rfl
  | block h1 h2 =>
    rw [part_parts h1, if_pos rfl]
    simp only [blockTold, h2]
    rfl

end PbfDamagedProof
open PbfDamagedProof

variable {K : Type} [LinearOrder K]

/-- C103: a file with a damaged part, behind any parts which are fine and in front of anything, is refused, and all stores stay as they were. -/
theorem C103_damaged {S Q : Type} (I : GeoStore.Iface S El Q) (T : Tools) (env : Env) {m : GeoStore.Map K S} {A : Stores K S} (hm : Abs m A) {k : K} {s : S} (hk : A k = some s)
    (target : Target) {d : Doc} {cs : List Content} {bytes : Bytes} (hf : FileOf T cs bytes) (hc : Holds d cs) (hd : Whole d) (hw : ∀ w ∈ d.ways, w.refs ≠ [])
    {part : Bytes} (hp : Damaged T part) (rest : Bytes) : importPbf I T env m k target (bytes ++ (part ++ rest)) = (m, .failed (.throw "domain_error")) := by
  obtain ⟨n', h1, h2⟩ := file_parts hf (part ++ rest) _ (Nat.lt_succ_self _)
  obtain ⟨n, rfl⟩ : ∃ n, n' = n + 1 := ⟨n' - 1, by omega⟩
  rw [damaged_parts hp] at h2
  have h3 : parse T (bytes ++ (part ++ rest)) = (cs.flatMap eventsOf, .throw "domain_error") := by
    unfold parse
    rw [h2, List.append_nil]
  obtain ⟨ctx, hv⟩ := (ImportProof.visit_whole env.eps env.getId env.sort (doc_small hf hc hw).1).1 hd
  have h5 : readTold env target (parse T (bytes ++ (part ++ rest))) = .throw "domain_error" := by
    simp only [readTold, h3, told_entries hc, hv, Outcome.bind]
  simp only [importPbf, h5, (hm.subscript hk).1]

/-- A file with a node and a way, followed by a part whose header has more than 64 KiB. -/
example : ∃ cs bytes, FileOf tools cs bytes ∧ Holds (ImportProof.sample 1) cs ∧ Damaged tools (bigEndian 70000) :=
  ⟨groups, _, groups_of, ⟨by simp [groups, ImportSpec.items, ImportProof.sample], by simp [groups, ImportProof.sample]⟩, .longHeader (by norm_num) (by norm_num)⟩

/-- Every kind of damage occurs: with messages which cannot be read, streams which end early, and so on. -/
example : ∃ T : Tools, Damaged T (bigEndian 1 ++ [0]) ∧ Damaged T (bigEndian 1 ++ [9]) ∧ Damaged T (bigEndian 1 ++ ([1] ++ [2])) ∧ Damaged T (bigEndian 1 ++ ([1] ++ [3])) ∧
    Damaged T (bigEndian 1 ++ ([1] ++ [4])) ∧ Damaged T (bigEndian 1 ++ ([1] ++ [5])) ∧ Damaged T (bigEndian 1 ++ ([1] ++ [6])) := by
  let T : Tools := ⟨fun h => if h = [1] then some ⟨"OSMData", 1⟩ else if h = [9] then some ⟨"OSMData", 40000000⟩ else none,
    fun b => if b = [2] then none else if b = [4] then some ⟨none, 0, some b, none⟩ else if b = [5] then some ⟨none, 1, none, some []⟩ else some ⟨none, 1, some b, none⟩,
    fun z => (z, decide (z ≠ [3])), fun _ => none⟩
  have hf : ∀ x : UInt8, Frame T [x] (bigEndian 1 ++ ([1] ++ [x])) := fun x => ⟨[1], "OSMData", rfl, by simp, by simp, rfl⟩
  exact ⟨T, .header (h := [0]) rfl (by simp), .longBlob (h := [9]) (n := 40000000) rfl (by simp) (by norm_num), .blob (hf 2) rfl,
    .stream (hf 3) (z := [3]) (n := 1) rfl rfl (by simp), .longer (hf 4) (n := 0) (z := [4]) (content := [4]) rfl rfl (by simp) (by simp), .lzma (hf 5) (n := 1) (l := []) rfl,
    .block (content := [6]) ⟨[1], [6], [6], rfl, by simp, by simp, rfl, rfl, by simp, rfl⟩ rfl⟩

end Verif.Props
