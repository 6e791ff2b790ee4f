import Mathlib.Analysis.SpecialFunctions.Trigonometric.Arctan
import Mathlib.Analysis.SpecialFunctions.Log.Basic
import Verif.Model.Bbox
import Verif.Model.Tiles

/-!
# Tile projection: `core/src/utils/GeoUtils.hpp`

Over the real numbers: the rounding of `double` and of libm functions is outside the model, and so is
the overflow of `static_cast<int>` (indices stay below 2^lod, lods up to 19 are accepted).
-/
namespace Verif.Mercator
open Real

/-- MathUtils.hpp:20-22 -/
noncomputable def clamp (n lo hi : ℝ) : ℝ := max lo (min n hi)

/-- GeoUtils.hpp:144-146 -/
noncomputable def lonToTileX (lon : ℝ) (lod : ℤ) : ℤ := ⌊(lon + 180) / 360 * (2 : ℝ) ^ lod⌋

/-- GeoUtils.hpp:148-151 -/
noncomputable def latToTileY (lat : ℝ) (lod : ℤ) : ℤ :=
  ⌊(1 - log (tan (lat * π / 180) + 1 / cos (lat * π / 180)) / π) / 2 * (2 : ℝ) ^ lod⌋

/-- GeoUtils.hpp:153-155 -/
noncomputable def tileXToLon (x : ℤ) (lod : ℤ) : ℝ := x / (2 : ℝ) ^ lod * 360 - 180

/-- GeoUtils.hpp:157-160 -/
noncomputable def tileYToLat (y : ℤ) (lod : ℤ) : ℝ :=
  let n := π - 2 * π * y / (2 : ℝ) ^ lod
  180 / π * arctan (0.5 * (exp n - exp (-n)))

/-- GeoUtils.hpp:26-30, the clamping of both coordinates. -/
noncomputable def clampGeo (c : Geo ℝ) : Geo ℝ :=
  ⟨clamp c.lat (-85.05112877) 85.05112877, clamp c.lon (-179.9999999) 179.9999999⟩

/-- GeoUtils.hpp:26-30 `GeoCoordinateToQuadKey` -/
noncomputable def toQuadKey (c : Geo ℝ) (lod : ℤ) : QuadKey :=
  ⟨lod, lonToTileX (clampGeo c).lon lod, latToTileY (clampGeo c).lat lod⟩

/-- GeoUtils.hpp:43-52 `quadKeyToBoundingBox` -/
noncomputable def tileBox (q : QuadKey) : Bbox ℝ :=
  ⟨⟨tileYToLat (q.y + 1) q.lod, tileXToLon q.x q.lod⟩, ⟨tileYToLat q.y q.lod, tileXToLon (q.x + 1) q.lod⟩⟩

/-- GeoUtils.hpp:73-88 `visitTileRange`: the tiles passed to the visitor, in order. -/
noncomputable def visitTileRange (bbox : Bbox ℝ) (lod : ℤ) : List QuadKey :=
  if bbox.isValid then
    let s := toQuadKey bbox.lo lod
    let e := toQuadKey bbox.hi lod
    (intRange e.y s.y).flatMap fun y =>
      ((intRange s.x e.x).map fun x => (⟨lod, x, y⟩ : QuadKey)).filter fun q => bbox.intersects (tileBox q)
  else []

end Verif.Mercator
