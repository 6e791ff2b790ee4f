import Verif.Model.Mercator
import Verif.Props.TilesSpec
import Verif.Props.BboxSpec

/-! Specification vocabulary for the tile projection (C12, C13). -/
namespace Verif.MercatorSpec
open Verif.Mercator Verif.BboxSpec Verif.TilesSpec

/-- The square map: longitudes up to ±180 and latitudes up to ±gd(π) = ±85.0511287798...°,
the gudermannian being `arctan ∘ sinh`. -/
def OnMap (p : Geo ℝ) : Prop :=
  -180 ≤ p.lon ∧ p.lon ≤ 180 ∧
  -(180 / Real.pi * Real.arctan (Real.sinh Real.pi)) ≤ p.lat ∧
  p.lat ≤ 180 / Real.pi * Real.arctan (Real.sinh Real.pi)

/-- Each point of the map has one owner: west and north borders belong to a tile, east and south ones
only on the edge of the map. -/
def Owns (q : QuadKey) (p : Geo ℝ) : Prop :=
  let b := tileBox q
  b.lo.lon ≤ p.lon ∧ (p.lon < b.hi.lon ∨ q.x + 1 = 2 ^ q.lod.toNat ∧ p.lon ≤ b.hi.lon) ∧
  p.lat ≤ b.hi.lat ∧ (b.lo.lat < p.lat ∨ q.y + 1 = 2 ^ q.lod.toNat ∧ b.lo.lat ≤ p.lat)

end Verif.MercatorSpec
