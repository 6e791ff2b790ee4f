import Mathlib.Analysis.SpecialFunctions.Complex.Arg
import Mathlib.Analysis.SpecialFunctions.Trigonometric.Basic
import Verif.Model.Bbox

/-! # Distances on the globe

Models the functions of utils/GeoUtils.hpp which convert between metres and degrees, over the real numbers instead of `double`. -/
namespace Verif.Geodesy
open Real

/-- utils/MathUtils.hpp:25-27 -/
noncomputable def deg2Rad (degrees : ℝ) : ℝ := π * degrees / 180

/-- utils/MathUtils.hpp:30-32 -/
noncomputable def rad2Deg (radians : ℝ) : ℝ := 180 * radians / π

/-- GeoUtils.hpp:165 -/
noncomputable def majorAxis : ℝ := 6378137

/-- GeoUtils.hpp:166 -/
noncomputable def minorAxis : ℝ := 6356752.3

/-- GeoUtils.hpp:163-174 -/
noncomputable def earthRadius (lat : ℝ) : ℝ :=
  let an := majorAxis * majorAxis * cos lat
  let bn := minorAxis * minorAxis * sin lat
  let ad := majorAxis * cos lat
  let bd := minorAxis * sin lat
  sqrt ((an * an + bn * bn) / (ad * ad + bd * bd))

/-- GeoUtils.hpp:104-109 -/
noncomputable def getOffset (point : Geo ℝ) (offsetInMeters : ℝ) : ℝ := rad2Deg (offsetInMeters / earthRadius (deg2Rad point.lat))

/-- GeoUtils.hpp:112-114 -/
noncomputable def getScaled (bbox : Bbox ℝ) (scale value : ℝ) : ℝ := getOffset bbox.center value * scale / bbox.width

/-- `std::atan2` -/
noncomputable def atan2 (y x : ℝ) : ℝ := Complex.arg ⟨x, y⟩

/-- GeoUtils.hpp:117-132 -/
noncomputable def distance (p1 p2 : Geo ℝ) : ℝ :=
  let dLat := deg2Rad (p1.lat - p2.lat)
  let dLon := deg2Rad (p1.lon - p2.lon)
  let lat1 := deg2Rad p1.lat
  let lat2 := deg2Rad p2.lat
  let a := sin (dLat / 2) * sin (dLat / 2) + sin (dLon / 2) * sin (dLon / 2) * cos lat1 * cos lat2
  let c := 2 * atan2 (sqrt a) (sqrt (1 - a))
  let radius := earthRadius dLat
  radius * c

/-- GeoUtils.hpp:135-140 -/
noncomputable def newPoint (p1 p2 : Geo ℝ) (r : ℝ) : Geo ℝ := ⟨p1.lat + (p2.lat - p1.lat) * r, p1.lon + (p2.lon - p1.lon) * r⟩

/-- GeoUtils.hpp:16-19 -/
noncomputable def latitudeEquator : ℝ := 40075160
noncomputable def circleDistance : ℝ := 40008000

/-- GeoUtils.hpp:33-40 -/
noncomputable def worldToGeo (zero : Geo ℝ) (x y : ℝ) : Geo ℝ :=
  let circumference := latitudeEquator * cos (deg2Rad zero.lat)
  ⟨zero.lat + y * 360 / circleDistance, zero.lon + x * 360 / circumference⟩

end Verif.Geodesy
