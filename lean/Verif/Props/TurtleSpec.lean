import Verif.Model.Lsys

/-! # Specification of the commands of the turtle (C71) -/
namespace Verif.TurtleSpec
open Verif.Lsys Verif.Quaternion

variable {K : Type} [Field K]

/-- The program `first`, `second` brings every turtle of a kind back to its state. -/
def Undoes (set : Settings K) (kind : State K → Prop) (first second : Op) : Prop :=
  ∀ t : Turtle K, kind t.state → ∃ t', runRules set t [.op first, .op second] = .ok t' ∧ t'.state = t.state ∧ t'.stack = t.stack ∧ t'.drawn = t.drawn

/-- `u` is `v` turned towards `w` (perpendicular to it) by the angle whose half has this sine and cosine. -/
def Turned (sinHalf cosHalf : K) (v w u : Vec3 K) : Prop :=
  let c := cosHalf ^ 2 - sinHalf ^ 2
  let s := 2 * sinHalf * cosHalf
  u.x = c * v.x + s * w.x ∧ u.y = c * v.y + s * w.y ∧ u.z = c * v.z + s * w.z

/-- The opposite vector. -/
def Opposite (v u : Vec3 K) : Prop := u.x = -v.x ∧ u.y = -v.y ∧ u.z = -v.z

/-- `q` is reached from `p` by going this far in this direction. -/
def Ahead (p direction : Vec3 K) (length : K) (q : Vec3 K) : Prop :=
  q.x - p.x = length * direction.x ∧ q.y - p.y = length * direction.y ∧ q.z - p.z = length * direction.z

end Verif.TurtleSpec
