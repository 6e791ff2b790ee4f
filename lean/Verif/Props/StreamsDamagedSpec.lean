import Verif.Props.MeshCacheSpec

/-! # Specification of damaged elements and cache files (C07, C23) -/
namespace Verif.StreamsDamagedSpec
open Verif.Streams Verif.StreamsSpec Verif.MeshCache

/-- The bytes of an element of unknown kind, or of a relation whose first members can be read and which has such an element behind them. -/
inductive BadElement : Bytes → Prop
  | kind (ty : UInt8) (rest : Bytes) : 32 ≠ ty → ¬ (9 ≤ ty ∧ ty ≤ 13) → 3 < ty → BadElement (ty :: rest)
  | member (tags : List Tag) (n : Nat) (ms : List (Element Coord)) (id : UInt64) (u : Bytes) : tags.length < 65536 → n < 65536 → ms.length < n → FitsAll ms →
      BadElement u → BadElement (3 :: (writeVec writeTag tags ++ (leBytes 2 n ++ (writeMembers ms ++ (leBytes 8 id.toNat ++ u)))))

/-- The bytes of a record of a cache file which is neither mesh nor element, with the reason of the refusal. -/
inductive BadRecord : Bytes → String → Prop
  | kind (ty : UInt8) (rest : Bytes) : 32 ≠ ty → ¬ (9 ≤ ty ∧ ty ≤ 13) → 1 < ty → BadRecord (ty :: rest) "invalid_argument"
  | element (id : UInt64) (u : Bytes) : BadElement u → BadRecord (0 :: (leBytes 8 id.toNat ++ u)) "domain_error"

end Verif.StreamsDamagedSpec
