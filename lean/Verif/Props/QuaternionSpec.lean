import Verif.Model.Quaternion

/-! # Specification for C54 and C63 -/
namespace Verif.QuaternionSpec
open Verif.Quaternion

variable {K : Type} [Field K]

/-- Square of the length of a vector. -/
def lengthSq (v : Vec3 K) : K := v.x ^ 2 + v.y ^ 2 + v.z ^ 2

/-- Square of the length of a quaternion. -/
def sizeSq (q : Quat K) : K := q.x ^ 2 + q.y ^ 2 + q.z ^ 2 + q.w ^ 2

/-- Cosine of the angle between two unit quaternions. -/
def inner (p q : Quat K) : K := p.x * q.x + p.y * q.y + p.z * q.z + p.w * q.w

/-- The angle function: sine and cosine of it are the arguments. -/
def IsAtan2 (atan2 : ℝ → ℝ → ℝ) : Prop := ∀ s c : ℝ, s ^ 2 + c ^ 2 = 1 → Real.sin (atan2 s c) = s ∧ Real.cos (atan2 s c) = c

end Verif.QuaternionSpec
