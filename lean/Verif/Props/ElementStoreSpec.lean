import Verif.Model.ElementStore
import Verif.Props.ClipperSpec
import Verif.Props.MercatorSpec

/-! Specification vocabulary for storing elements (C19). -/
namespace Verif.ElementStoreSpec
open Verif.Clipper (El)
open Verif.ClipperSpec Verif.BboxSpec Verif.TilesSpec Verif.MercatorSpec Verif.ElementStore

/-- The point belongs to the bounding box of the element: every box around all its coordinates contains it. -/
def Covered (e : El) (p : Geo ℝ) : Prop := ∀ b : Bbox ℝ, (∀ c ∈ points e, In b c) → In b p

/-- The bounding box of the element has a point owned by the tile. -/
def Meets (e : El) (q : QuadKey) : Prop := Valid q ∧ ∃ p, Covered e p ∧ Owns q p

/-- The bounding box of the element has a point in the box. -/
def MeetsBox (e : El) (b : Bbox ℝ) : Prop := ∃ p, Covered e p ∧ In b p

/-- The stylesheet gives the element a style which does not skip it. -/
def Styled (s : StyleInfo) : Prop := s.empty = false ∧ s.skip = false

/-- The element has coordinates, all on the globe. -/
def Located (e : El) : Prop := points e ≠ [] ∧ ∀ p ∈ points e, OnGlobe p

end Verif.ElementStoreSpec
