import Verif.Model.MeshBuilder
import Verif.Model.Noise
import Verif.Model.Color
import Verif.Model.Geodesy
import Verif.Model.Mercator

/-! # The look of surfaces

Models the parts of builders/MeshBuilder.cpp which `Verif.MeshBuilder` has as parameters: elevations, colours and texture
coordinates of points, for a tile. Numbers are real; the triangle library stays a parameter. -/
namespace Verif.Surface
open Verif.MeshBuilder (Mesh Vec2 Vec3 TriangleIo)
open Verif.Color (Color)

/-- MeshBuilder.hpp:23-57 without the options of the triangle library; no `elevation` stands for the lowest number. -/
structure Options where
  eleNoiseFreq : ℝ
  elevation : Option ℝ
  heightOffset : ℝ
  flipSide : Bool := false
  hasBackSide : Bool := false

/-- MeshBuilder.hpp:59-86; of the region only whether it is empty (mapcss/StyleSheet.hpp:29-31) is used here. -/
structure Look where
  gradient : List (ℝ × Color)
  colorNoiseFreq : ℝ
  textured : Bool
  textureScale : ℝ

/-- MeshBuilder.cpp:108-112: the tile and what its elevation provider gives for latitude and longitude. -/
structure Site where
  tile : QuadKey
  elevation : ℝ → ℝ → ℝ

/-- NoiseUtils.cpp:6, 76-113 -/
noncomputable def noise (x y frequency : ℝ) : Outcome ℝ := Noise.perlin2D (Real.sqrt 2) x y frequency

/-- Color.hpp:31-33 and the conversion to `int`. -/
def toInt (c : Color) : Int := (Color.pack c).toInt32.toInt

/-- GradientUtils.hpp:37-41, MeshBuilder.cpp:85-87, 210-211, 241-242 -/
noncomputable def colorAt (look : Look) (x y : ℝ) : Outcome Int :=
  (noise x y look.colorNoiseFreq).bind fun n => (Color.evaluate look.gradient ((n + 1) / 2)).bind fun c => .ok (toInt c)

/-- MeshBuilder.cpp:24-44 -/
noncomputable def mapUv (look : Look) (b : Bbox ℝ) (x y : ℝ) : Vec2 ℝ :=
  if look.textured then ⟨(x - b.lo.lon) / b.width * look.textureScale, (y - b.lo.lat) / b.height * look.textureScale⟩ else ⟨0, 0⟩

/-- MeshBuilder.cpp:71-78; `marker` is what the triangle library says about the point, if it says anything. -/
noncomputable def elevationAt (site : Site) (o : Options) (marker : Option Int) (x y : ℝ) : Outcome ℝ :=
  let ele := o.heightOffset + o.elevation.getD (site.elevation y x)
  match marker with
  | some i => if i ≠ 1 then (noise x y o.eleNoiseFreq).bind fun n => .ok (ele + n) else .ok ele
  | none => .ok ele

/-- MeshBuilder.cpp:66-93, one point -/
noncomputable def fillPoint (site : Site) (o : Options) (look : Look) (m : Mesh ℝ) (marker : Option Int) (p : Vec2 ℝ) : Outcome (Mesh ℝ) :=
  (elevationAt site o marker p.x p.y).bind fun ele =>
  (colorAt look p.x p.y).bind fun color =>
  let uv := mapUv look (Mercator.tileBox site.tile) p.x p.y
  .ok { m with
    vertices := m.vertices ++ [p.x, p.y, ele]
    colors := m.colors ++ [color]
    uvs := m.uvs ++ [uv.x, uv.y] }

/-- MeshBuilder.cpp:66-93; `markers` is `pointmarkerlist`, `none` if it is null. -/
noncomputable def fillPoints (site : Site) (o : Options) (look : Look) (markers : Option (Nat → Int)) (m : Mesh ℝ) (i : Nat) : List (Vec2 ℝ) → Outcome (Mesh ℝ)
  | [] => .ok m
  | p :: ps => (fillPoint site o look m (markers.map fun f => f i) p).bind fun m => fillPoints site o look markers m (i + 1) ps

/-- MeshBuilder.cpp:54-105 -/
noncomputable def fillMesh (site : Site) (o : Options) (look : Look) (markers : Option (Nat → Int)) (m : Mesh ℝ) (io : TriangleIo ℝ) : Outcome (Mesh ℝ) :=
  let triStartIndex := MeshBuilder.nextIndex m
  (fillPoints site o look markers m 0 io.points).bind fun m =>
  .ok { m with triangles := m.triangles ++ io.triangles.flatMap (MeshBuilder.corners triStartIndex o.flipSide) }

/-- MeshBuilder.cpp:208-230 -/
noncomputable def addPlane (site : Site) (o : Options) (look : Look) (m : Mesh ℝ) (p1 p2 : Vec3 ℝ) : Outcome (Mesh ℝ) :=
  (colorAt look p1.x p1.y).bind fun color =>
  let size := (Mercator.tileBox site.tile).width / look.textureScale
  let scaleX := Real.sqrt ((p2.x - p1.x) * (p2.x - p1.x) + (p2.z - p1.z) * (p2.z - p1.z)) / size
  let scaleY := Geodesy.getOffset ⟨p1.y, p1.x⟩ o.heightOffset / size
  .ok (MeshBuilder.addPlane m p1 p2 o.heightOffset color scaleX scaleY)

/-- MeshBuilder.cpp:192-206 -/
noncomputable def addPlane2 (site : Site) (o : Options) (look : Look) (m : Mesh ℝ) (p1 p2 : Vec2 ℝ) : Outcome (Mesh ℝ) :=
  (noise p1.x p1.y o.eleNoiseFreq).bind fun n1 =>
  (noise p2.x p2.y o.eleNoiseFreq).bind fun n2 =>
  addPlane site o look m ⟨p1.x, o.elevation.getD (site.elevation p1.y p1.x) + n1, p1.y⟩ ⟨p2.x, o.elevation.getD (site.elevation p2.y p2.x) + n2, p2.y⟩

/-- MeshBuilder.cpp:232-255 -/
noncomputable def addTriangle (o : Options) (look : Look) (m : Mesh ℝ) (v0 v1 v2 : Vec3 ℝ) (uv0 uv1 uv2 : Vec2 ℝ) : Outcome (Mesh ℝ) :=
  (colorAt look v0.x v0.z).bind fun color => .ok (MeshBuilder.addTriangle m v0 v1 v2 uv0 uv1 uv2 o.hasBackSide color)

end Verif.Surface
