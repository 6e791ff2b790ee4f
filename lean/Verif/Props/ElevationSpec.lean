import Verif.Model.Elevation

/-! # Specification for C40 and C41 -/
namespace Verif.ElevationSpec
open Verif.Elevation

variable {K : Type} [Field K] [LinearOrder K] [IsStrictOrderedRing K] [FloorRing K]

/-- `h` is between the smallest and the largest of the numbers. -/
def Between (h : K) (samples : List Int) : Prop := (∃ a ∈ samples, (a : K) ≤ h) ∧ ∃ b ∈ samples, h ≤ (b : K)

/-- The big endian signed number of two bytes, the format of SRTM files. -/
def sampleValue (b0 b1 : UInt8) : Int := if 128 ≤ b0.toNat then (b0.toNat * 256 + b1.toNat : Int) - 65536 else b0.toNat * 256 + b1.toNat

/-- The sample in row `r` from the south and column `c` from the west of a file with `n` rows stored from north to south. -/
def Sample (data : List UInt8) (n r c : Nat) (v : Int) : Prop :=
  ∃ b0 b1, data[2 * ((n - 1 - r) * n + c)]? = some b0 ∧ data[2 * ((n - 1 - r) * n + c) + 1]? = some b1 ∧ v = sampleValue b0 b1

/-- The name of the SRTM file covering a coordinate: that of its south west corner. -/
def properName (lat lon : K) : FileName :=
  ⟨if 0 ≤ ⌊lat⌋ then 'N' else 'S', ⌊lat⌋.natAbs, if 0 ≤ ⌊lon⌋ then 'E' else 'W', ⌊lon⌋.natAbs⟩

end Verif.ElevationSpec
