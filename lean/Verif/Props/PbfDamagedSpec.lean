import Verif.Props.PbfFileSpec

/-! # Specification of damaged parts of OSM files in PBF (C103) -/
namespace Verif.PbfDamagedSpec
open Verif.PbfFile (Tools)
open Verif.PbfFileSpec (Part bigEndian)

/-- A part with a header which can be read, and `b` as bytes of the blob. -/
def Frame (T : Tools) (b bytes : Bytes) : Prop :=
  ∃ h type, T.header h = some ⟨type, b.length⟩ ∧ h.length ≤ 65536 ∧ b.length ≤ 33554432 ∧ bytes = bigEndian h.length ++ (h ++ b)

/-- Parts which cannot be read. -/
inductive Damaged (T : Tools) : Bytes → Prop
  /-- The header has more than 64 KiB. -/
  | longHeader {n} (h1 : 65536 < n) (h2 : n < 2 ^ 31) : Damaged T (bigEndian n)
  /-- The header is not a message. -/
  | header {h} (h1 : T.header h = none) (h2 : h.length ≤ 65536) : Damaged T (bigEndian h.length ++ h)
  /-- The blob has more than 32 MiB. -/
  | longBlob {h type n} (h1 : T.header h = some ⟨type, n⟩) (h2 : h.length ≤ 65536) (h3 : 33554432 < n) : Damaged T (bigEndian h.length ++ h)
  /-- The blob is not a message. -/
  | blob {b bytes} (h1 : Frame T b bytes) (h2 : T.blob b = none) : Damaged T bytes
  /-- The compressed bytes end too early or are damaged. -/
  | stream {b bytes n z content} (h1 : Frame T b bytes) (h2 : T.blob b = some ⟨none, n, some z, none⟩) (h3 : T.inflate z = (content, false)) (h4 : content.length ≤ 33554432) : Damaged T bytes
  /-- There are more bytes than the blob says. -/
  | longer {b bytes z content} {n : Nat} (h1 : Frame T b bytes) (h2 : T.blob b = some ⟨none, n, some z, none⟩) (h3 : T.inflate z = (content, true)) (h4 : n < content.length)
      (h5 : n ≤ 33554432) : Damaged T bytes
  /-- The bytes are compressed in a way which is not supported. -/
  | lzma {b bytes n l} (h1 : Frame T b bytes) (h2 : T.blob b = some ⟨none, n, none, some l⟩) : Damaged T bytes
  /-- The block is not a message. -/
  | block {content bytes} (h1 : Part T "OSMData" content bytes) (h2 : T.block content = none) : Damaged T bytes

end Verif.PbfDamagedSpec
