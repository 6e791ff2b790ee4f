import Verif.Model.Bbox

/-! Specification vocabulary for bounding boxes (C14): boxes as sets of points. -/
namespace Verif.BboxSpec
variable {α : Type} [Field α] [LinearOrder α]

/-- The point lies in the closed box. -/
def In (b : Bbox α) (p : Geo α) : Prop :=
  b.lo.lat ≤ p.lat ∧ p.lat ≤ b.hi.lat ∧ b.lo.lon ≤ p.lon ∧ p.lon ≤ b.hi.lon

/-- The point lies in the open box. -/
def Inside (b : Bbox α) (p : Geo α) : Prop :=
  b.lo.lat < p.lat ∧ p.lat < b.hi.lat ∧ b.lo.lon < p.lon ∧ p.lon < b.hi.lon

/-- The coordinate is on the globe, borders included. -/
def OnGlobe (p : Geo α) : Prop := -90 ≤ p.lat ∧ p.lat ≤ 90 ∧ -180 ≤ p.lon ∧ p.lon ≤ 180

/-- `b` covers all the points and every box that covers them contains `b`. -/
def SmallestCover (b : Bbox α) (ps : List (Geo α)) : Prop :=
  (∀ p ∈ ps, In b p) ∧ ∀ b' : Bbox α, (∀ p ∈ ps, In b' p) → ∀ p, In b p → In b' p

end Verif.BboxSpec
