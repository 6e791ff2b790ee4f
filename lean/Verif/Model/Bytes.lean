/-!
# Little-endian integers in files

`stream.write(reinterpret_cast<const char*>(&x), sizeof(x))` and the matching `read`, as used by
`core/src/index/StringTable.cpp`, `ElementStream.cpp`, `MeshStream.cpp`, `BitmapStream.cpp`.
Simplification: the platform is little-endian.
-/
namespace Verif

/-- A file content, a byte string (`std::string`). -/
abbrev Bytes := List UInt8

/-- The `w` bytes of the unsigned integer `n` (taken modulo `256^w`, as a cast to that width does). -/
def leBytes : Nat → Nat → Bytes
  | 0, _ => []
  | w + 1, n => UInt8.ofNat (n % 256) :: leBytes w (n / 256)

/-- The unsigned integer stored in the bytes. -/
def leNat : Bytes → Nat
  | [] => 0
  | b :: bs => b.toNat + 256 * leNat bs

theorem leBytes_length (w n : Nat) : (leBytes w n).length = w := by
  induction w generalizing n with
  | zero => rfl
  | succ w ih => simp [leBytes, ih]

theorem leNat_leBytes (w n : Nat) : leNat (leBytes w n) = n % 256 ^ w := by
  induction w generalizing n with
  | zero => simp [leBytes, leNat, Nat.mod_one]
  | succ w ih =>
    simp only [leBytes, leNat, ih]
    have h1 : (UInt8.ofNat (n % 256)).toNat = n % 256 := by
      simp
    rw [h1, Nat.pow_succ, Nat.mul_comm (256 ^ w) 256, Nat.mod_mul]

end Verif
