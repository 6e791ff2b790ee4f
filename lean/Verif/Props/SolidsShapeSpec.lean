import Mathlib.Algebra.Order.Field.Basic
import Mathlib.Algebra.Order.Group.Unbundled.Abs
import Verif.Model.MeshBuilder

/-! # Specification of the shape of spheres and cylinders -/
namespace Verif.SolidsShapeSpec
open Verif.MeshBuilder (Vec3)

variable {K : Type} [Field K] [LinearOrder K]

/-- The scalar product. -/
def dot (a b : Vec3 K) : K := a.x * b.x + a.y * b.y + a.z * b.z

/-- The square of the distance of two points. -/
def distance2 (a b : Vec3 K) : K := (a.x - b.x) * (a.x - b.x) + (a.y - b.y) * (a.y - b.y) + (a.z - b.z) * (a.z - b.z)

/-- The volume spanned by three vectors; positive if the triangle of their ends faces away from the origin. -/
def volume (a b c : Vec3 K) : K :=
  a.x * (b.y * c.z - b.z * c.y) - a.y * (b.x * c.z - b.z * c.x) + a.z * (b.x * c.y - b.y * c.x)

/-- `t` is a triangle of points of the unit sphere which faces outwards. -/
def Outward (t : Vec3 K × Vec3 K × Vec3 K) : Prop :=
  dot t.1 t.1 = 1 ∧ dot t.2.1 t.2.1 = 1 ∧ dot t.2.2 t.2.2 = 1 ∧ 0 < volume t.1 t.2.1 t.2.2

/-- A point of the ellipsoid with the given centre and half axes which belongs to point `u` of the unit sphere. -/
def ellipsoid (center size u : Vec3 K) : Vec3 K := ⟨center.x + size.x * u.x, center.y + size.y * u.y, center.z + size.z * u.z⟩

/-- `base` plus `v` times `f`. -/
def beyond (base v : Vec3 K) (f : K) : Vec3 K := ⟨base.x + f * v.x, base.y + f * v.y, base.z + f * v.z⟩

/-- The radius at height `i` of `n`: from the first one at the bottom to the second one at the top. -/
def radiusAt (r1 r2 : K) (i n : Nat) : K := r1 + (r2 - r1) * ((i : K) / (n : K))

end Verif.SolidsShapeSpec
