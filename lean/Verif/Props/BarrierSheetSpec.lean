import Verif.Model.BarrierSheet
import Verif.Props.BarrierSpec
import Verif.Props.PaletteSpec

/-! # Specification of barriers from a stylesheet (C114) -/
namespace Verif.BarrierSheetSpec
open Verif.Clipper (El)
open Verif.Style (Declaration Str)
open Verif.StyleSpec Verif.ShownSpec Verif.BarrierSpec
open Verif.StyleEval (Arith)
open Verif.BuildingSheetSpec (Amount Word)
open Verif.TerrainSheetSpec (Degrees)

/-- The keys which say what a barrier is like. -/
def keys : List Str := ["type".toList, "color".toList, "texture-index".toList, "texture-type".toList, "texture-scale".toList, "height".toList, "radius".toList,
  "step".toList, "width".toList, "length".toList, "gap".toList]

/-- The look which is declared. -/
def LookTold (ar : Arith ℝ) (senv : Style.Env ℝ) (paint : BuildingSheet.Paint) (ds : List Declaration) (tags : List Tag) (look : UInt64 → Building.Look ℝ) : Prop :=
  ∃ gradient index type scale, Word ar senv tags (lastValue ds "color".toList) gradient ∧ Amount ar senv tags (lastValue ds "texture-index".toList) index ∧
    Word ar senv tags (lastValue ds "texture-type".toList) type ∧ Amount ar senv tags (lastValue ds "texture-scale".toList) scale ∧ look = paint gradient index type scale

/-- The declarations describe pillars: a height, the distance between them along a way, and a radius. They are half as wide again in longitude as in latitude. -/
def Pillars (ar : Arith ℝ) (senv : Style.Env ℝ) (box : Bbox ℝ) (ds : List Declaration) (tags : List Tag) (s : Barrier.Style ℝ) : Prop :=
  s.pillar = true ∧ Amount ar senv tags (lastValue ds "height".toList) s.height ∧ Amount ar senv tags (lastValue ds "step".toList) s.step ∧
    ∃ r, Degrees ar senv tags box (lastValue ds "radius".toList) r ∧ s.radiusX = 3 / 2 * r ∧ s.radiusZ = r

/-- The declarations describe a wall: its height and width, and the lengths of its pieces and of the gaps between them. -/
def Wall (ar : Arith ℝ) (senv : Style.Env ℝ) (box : Bbox ℝ) (ds : List Declaration) (tags : List Tag) (s : Barrier.Style ℝ) : Prop :=
  s.pillar = false ∧ Amount ar senv tags (lastValue ds "height".toList) s.height ∧ Degrees ar senv tags box (lastValue ds "width".toList) s.width ∧
    Amount ar senv tags (lastValue ds "length".toList) s.length ∧ Amount ar senv tags (lastValue ds "gap".toList) s.gap

/-- The declarations describe this barrier: pillars if the declared type is `pillar`, and a wall otherwise. -/
def Told (ar : Arith ℝ) (senv : Style.Env ℝ) (paint : BuildingSheet.Paint) (box : Bbox ℝ) (ds : List Declaration) (tags : List Tag) (s : Barrier.Style ℝ) : Prop :=
  LookTold ar senv paint ds tags s.look ∧ ∃ type, Word ar senv tags (lastValue ds "type".toList) type ∧
    (type = "pillar".toList ∧ Pillars ar senv box ds tags s ∨ type ≠ "pillar".toList ∧ Wall ar senv box ds tags s)

/-- All that is declared can be understood. -/
def Clear (ar : Arith ℝ) (senv : Style.Env ℝ) (paint : BuildingSheet.Paint) (box : Bbox ℝ) (ds : List Declaration) (tags : List Tag) : Prop :=
  ∃ s, Told ar senv paint box ds tags s

/-- Barriers of these styles in a tile: distances are those on the globe (C69), and the corners of a pillar are those of a regular heptagon. -/
noncomputable def inTile (elevation : Geo ℝ → ℝ) (epsilon : ℝ) (q : QuadKey) (style : El → Barrier.Style ℝ) : Barrier.Env ℝ :=
  ⟨⟨Geodesy.distance, elevation, Real.sqrt, epsilon, (Mercator.tileBox q).center⟩, style,
    fun j => ⟨Real.cos (2 * Real.pi * j / 7), 0, - Real.sin (2 * Real.pi * j / 7)⟩⟩

/-- A barrier which can be built: pillars are at least a centimetre apart. Walls have pieces of some length, gaps which are not negative, both together are a centimetre
or longer, and the pieces have a direction. -/
def Sensible (env : Barrier.Env ℝ) (job : El × UInt64 × List (Geo ℝ)) : Prop :=
  let style := env.style job.1
  (style.pillar = true → 1 / 100 ≤ style.step) ∧
  (style.pillar = false → job.2.2 = [] ∨ 0 < style.length ∧ 0 ≤ style.gap ∧ 1 / 100 ≤ style.length + style.gap ∧
    ∀ p ∈ AlongSpec.parts job.2.2, ∀ row, Pieces env.world ⟨style.width, style.height, 0, style.length, style.gap⟩ p row → ∀ piece ∈ row,
      env.world.epsilon < Real.sqrt ((piece.2.lon - piece.1.lon) ^ 2 + (piece.2.lat - piece.1.lat) ^ 2))

/-- The mesh has the color and the texture which are declared, and nothing else is in it. -/
def Colored (ar : Arith ℝ) (senv : Style.Env ℝ) (xs : List Atlas.Text) (seed : UInt64) (ds : List Declaration) (tags : List Tag) (m : MeshBuilder.Mesh ℝ) : Prop :=
  ∃ faces color texture, Paints m faces [] ∧ PaletteSpec.Uniform color texture faces ∧ PaletteSpec.Dress ar senv xs seed.toNat ds tags [] color texture

end Verif.BarrierSheetSpec
