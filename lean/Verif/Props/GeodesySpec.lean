import Mathlib.Analysis.SpecialFunctions.Trigonometric.Basic
import Verif.Model.Bbox

/-! # Specification of distances on the globe (C69) -/
namespace Verif.GeodesySpec
open Real

/-- Radians -/
noncomputable def rad (d : ℝ) : ℝ := d / 180 * π

/-- The unit vector from the center of the globe to a point of it. -/
noncomputable def direction (p : Geo ℝ) : ℝ × ℝ × ℝ := (cos (rad p.lat) * cos (rad p.lon), cos (rad p.lat) * sin (rad p.lon), sin (rad p.lat))

/-- The angle at the center between two points of the globe. -/
def IsCentralAngle (p q : Geo ℝ) (angle : ℝ) : Prop :=
  0 ≤ angle ∧ angle ≤ π ∧ cos angle = (direction p).1 * (direction q).1 + (direction p).2.1 * (direction q).2.1 + (direction p).2.2 * (direction q).2.2

/-- A point of the globe. -/
def OnGlobe (p : Geo ℝ) : Prop := -90 ≤ p.lat ∧ p.lat ≤ 90

/-- The smallest and the largest radius of the earth in metres. -/
noncomputable def polarRadius : ℝ := 6356752.3
noncomputable def equatorialRadius : ℝ := 6378137

end Verif.GeodesySpec
