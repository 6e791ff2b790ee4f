import Mathlib.Algebra.Order.Field.Basic
import Mathlib.Analysis.SpecialFunctions.Trigonometric.Basic

/-! # Vectors and quaternions

Models math/Vector3.hpp and math/Quaternion.hpp. Numbers are an arbitrary field instead of `double`: rounding is not modelled, and division by
zero gives zero instead of infinity, so theorems about divisions assume that the divisor is not zero. -/
namespace Verif.Quaternion

/-- math/Vector3.hpp:11-16 -/
@[ext] structure Vec3 (K : Type) where
  x : K
  y : K
  z : K
deriving DecidableEq

/-- math/Quaternion.hpp:11-23 -/
@[ext] structure Quat (K : Type) where
  x : K
  y : K
  z : K
  w : K
deriving DecidableEq

variable {K : Type} [Field K]

/-- math/Vector3.hpp:24-26 -/
def Vec3.scale (v : Vec3 K) (s : K) : Vec3 K := ⟨v.x * s, v.y * s, v.z * s⟩

/-- math/Vector3.hpp:32-34 -/
def Vec3.add (v u : Vec3 K) : Vec3 K := ⟨v.x + u.x, v.y + u.y, v.z + u.z⟩

/-- math/Vector3.hpp:80-82 -/
def Vec3.dot (a b : Vec3 K) : K := a.x * b.x + a.y * b.y + a.z * b.z

/-- math/Vector3.hpp:84-88 -/
def Vec3.cross (a b : Vec3 K) : Vec3 K := ⟨a.y * b.z - a.z * b.y, a.z * b.x - a.x * b.z, a.x * b.y - a.y * b.x⟩

/-- math/Quaternion.hpp:35-40 -/
def Quat.mul (p q : Quat K) : Quat K :=
  ⟨p.w * q.x + p.x * q.w + p.y * q.z - p.z * q.y,
   p.w * q.y + p.y * q.w + p.z * q.x - p.x * q.z,
   p.w * q.z + p.z * q.w + p.x * q.y - p.y * q.x,
   p.w * q.w - p.x * q.x - p.y * q.y - p.z * q.z⟩

/-- math/Quaternion.hpp:26-31: the four assignments one after the other, each seeing the previous ones. -/
def Quat.rotate (p q : Quat K) : Quat K :=
  let p : Quat K := { p with x := p.w * q.x + p.x * q.w + p.y * q.z - p.z * q.y }
  let p : Quat K := { p with y := p.w * q.y + p.y * q.w + p.z * q.x - p.x * q.z }
  let p : Quat K := { p with z := p.w * q.z + p.z * q.w + p.x * q.y - p.y * q.x }
  { p with w := p.w * q.w - p.x * q.x - p.y * q.y - p.z * q.z }

/-- math/Quaternion.hpp:55-57 -/
def Quat.norm (p : Quat K) : K := p.x * p.x + p.y * p.y + p.z * p.z + p.w * p.w

/-- math/Quaternion.hpp:44-53 -/
def Quat.apply (p : Quat K) (v : Vec3 K) : Vec3 K :=
  let q : Quat K := ⟨v.x * p.w + v.z * p.y - v.y * p.z, v.y * p.w + v.x * p.z - v.z * p.x, v.z * p.w + v.y * p.x - v.x * p.y,
    v.x * p.x + v.y * p.y + v.z * p.z⟩
  Vec3.scale ⟨p.w * q.x + p.x * q.w + p.y * q.z - p.z * q.y, p.w * q.y + p.y * q.w + p.z * q.x - p.x * q.z,
    p.w * q.z + p.z * q.w + p.x * q.y - p.y * q.x⟩ (1 / p.norm)

/-- math/Quaternion.hpp:60-63 -/
def Quat.inversed (p : Quat K) : Quat K :=
  let i := 1 / p.norm
  ⟨-p.x * i, -p.y * i, -p.z * i, p.w * i⟩

/-- math/Quaternion.hpp:66-68 -/
def Quat.identity : Quat K := ⟨0, 0, 0, 1⟩

/-- math/Quaternion.hpp:71-74; sine and cosine of half the angle are given. -/
def fromAngleAxis (sinHalf cosHalf : K) (v : Vec3 K) : Quat K := ⟨v.x * sinHalf, v.y * sinHalf, v.z * sinHalf, cosHalf⟩

/-- math/Quaternion.hpp:77-89; cosines and sines of the half angles are given. -/
def fromEulerAngles (t0 t1 t2 t3 t4 t5 : K) : Quat K :=
  ⟨t0 * t3 * t4 - t1 * t2 * t5, t0 * t2 * t5 + t1 * t3 * t4, t1 * t2 * t4 - t0 * t3 * t5, t0 * t2 * t4 + t1 * t3 * t5⟩

/-- math/Quaternion.hpp:92-125 over the real numbers; `atan2` is given. -/
noncomputable def slerp (atan2 : ℝ → ℝ → ℝ) (q0 q1 : Quat ℝ) (t : ℝ) : Quat ℝ :=
  let cosOmega := q0.w * q1.w + q0.x * q1.x + q0.y * q1.y + q0.z * q1.z
  let sign : ℝ := if cosOmega < 0 then -1 else 1
  let cosOmega := if cosOmega < 0 then -cosOmega else cosOmega
  let k : ℝ × ℝ :=
    if 9999 / 10000 < cosOmega then (1 - t, t)
    else
      let sinOmega := Real.sqrt (1 - cosOmega * cosOmega)
      let omega := atan2 sinOmega cosOmega
      (Real.sin ((1 - t) * omega) * (1 / sinOmega) * sign, Real.sin (t * omega) * (1 / sinOmega) * sign)
  ⟨q0.x * k.1 + q1.x * k.2, q0.y * k.1 + q1.y * k.2, q0.z * k.1 + q1.z * k.2, q0.w * k.1 + q1.w * k.2⟩

end Verif.Quaternion
