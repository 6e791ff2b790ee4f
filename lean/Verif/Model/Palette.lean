import Verif.Model.Atlas
import Verif.Model.BuildingSheet
import Verif.Model.Gradient
import Verif.Model.Surface
import Verif.Model.TerrainSheet

/-! # Looks from the texts of a stylesheet

Models builders/MeshContext.hpp:50-69 and builders/terrain/RegionTypes.hpp:49-62: which gradient and which texture is found for the texts of a style, and how they color
the surfaces which builders/MeshBuilder.cpp adds. These are the parameters `Paint` of `Verif.BuildingSheet` and `Brush` of `Verif.TerrainSheet`.

Simplifications: as there, finding a look does not fail: `paintOf` and `brushOf` give a look without color for texts where `create` has an exception or undefined behaviour. -/
namespace Verif.Palette
open Verif.Style (Str)
open Verif.MeshBuilder (Vec2 Vec3 Texture)
open Verif.TerrainSheet (orElse)

/-- What a style provider has besides styles: how numbers are read (for gradients) and the atlases by index. The tile is that of the mesh builder. -/
structure Palette where
  cast : List Char → Option ℝ
  textures : Assoc Nat Atlas.TextureAtlas
  tile : QuadKey

/-- StyleProvider.cpp:271-274: the palette of a stylesheet with these texts of atlases. -/
def palette (cast : List Char → Option ℝ) (outside : Nat × Nat × Nat × Nat) (texts : List (List Char)) (tile : QuadKey) : Outcome Palette :=
  (TerrainSheet.readAll (Atlas.parse outside) texts).bind fun atlases => .ok ⟨cast, Atlas.provide outside atlases, tile⟩

/-- `static_cast<std::uint16_t>` of a double: without the fraction, undefined if it does not fit. -/
noncomputable def toUInt16 (x : ℝ) : Outcome Nat :=
  let i := if 0 ≤ x then ⌊x⌋ else ⌈x⌉
  if 0 ≤ i ∧ i < 2 ^ 16 then .ok i.toNat else .ub "double to uint16_t"

/-- MeshBuilder.cpp:85-91, 210-217, 241-242 with PyramidalRoofBuilder.hpp:20-22: colors and texture coordinates of a mesh builder for a tile. A color which cannot be computed
is zero. -/
noncomputable def lookOf (tile : QuadKey) (l : Surface.Look) (texture : Texture) : Building.Look ℝ where
  pointColor q := orElse (Surface.colorAt l q.x q.y) 0
  pointUv q := Surface.mapUv l (Mercator.tileBox tile) q.x q.y
  planeColor v := orElse (Surface.colorAt l v.x v.y) 0
  planeScale p1 p2 height :=
    let size := (Mercator.tileBox tile).width / l.textureScale
    (Real.sqrt ((p2.x - p1.x) * (p2.x - p1.x) + (p2.z - p1.z) * (p2.z - p1.z)) / size, Geodesy.getOffset ⟨p1.y, p1.x⟩ height / size)
  triangleColor v := orElse (Surface.colorAt l v.x v.z) 0
  scaled value := Geodesy.getScaled (Mercator.tileBox tile) l.textureScale value
  texture := texture

/-- MeshBuilder.cpp:274-280: the identifier of the atlas and the region as they are written. -/
def textureOf (id : Nat) (r : Atlas.TextureRegion) : Texture := ⟨id, r.atlasWidth, r.atlasHeight, r.x, r.y, r.width, r.height⟩

/-- MeshContext.hpp:58-66, RegionTypes.hpp:49-62: the look for the text of a gradient, the frequency of color noise, the number and the type of a texture, its scale and a seed. -/
noncomputable def create (p : Palette) (gradient : Str) (noise index : ℝ) (type : Str) (scale : ℝ) (seed : Nat) : Outcome (Building.Look ℝ) :=
  (toUInt16 index).bind fun i =>
  (Gradient.loadGradient p.cast gradient).bind fun colors =>
  (Atlas.getTexture p.textures i type).bind fun group =>
  (Atlas.random group seed).bind fun region =>
  .ok (lookOf p.tile ⟨colors, noise, !region.isEmpty, scale⟩ (textureOf i region))

/-- A look without color. -/
def blank : Building.Look ℝ := ⟨fun _ => 0, fun _ => ⟨0, 0⟩, fun _ => 0, fun _ _ _ => (0, 0), fun _ => 0, fun _ => 0, ⟨0, 0, 0, 0, 0, 0, 0⟩⟩

/-- MeshContext.hpp:33, 50-69: buildings have no color noise. -/
noncomputable def paintOf (p : Palette) : BuildingSheet.Paint := fun gradient index type scale seed => orElse (create p gradient 0 index type scale seed.toNat) blank

/-- RegionTypes.hpp:49-62: the first texture of the group is taken. -/
noncomputable def brushOf (p : Palette) (noise : ℝ → Nat → Vec2 ℝ → ℝ) (triangulate : ℝ → Polygon.Poly ℝ → MeshBuilder.TriangleIo ℝ) : TerrainSheet.Brush :=
  ⟨fun gradient freq index type scale => orElse (create p gradient freq index type scale 0) blank, noise, triangulate⟩

end Verif.Palette
