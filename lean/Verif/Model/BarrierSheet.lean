import Verif.Model.Barrier
import Verif.Model.BuildingSheet
import Verif.Model.Geodesy
import Verif.Model.Mercator
import Verif.Model.Quaternion
import Verif.Model.TerrainSheet

/-! # Barriers from a stylesheet

Models how builders/misc/BarrierBuilder.cpp asks the style of an element, so that `Barrier.Env.style` is no parameter, and takes the functions of the other parameters
which are part of the code. Keys are those of mapcss/StyleConsts.cpp.

Simplifications: what is asked of a style is read once for an element which is visited, although the code asks it for each member of a relation again (with the same
answer), does not ask it of relations without members, and does not ask the distance of pillars for single coordinates. A style whose values cannot be read is
replaced by one of nothing, although an exception goes up then; theorems are about styles which can be read. -/
namespace Verif.BarrierSheet
open Verif.Clipper (El)
open Verif.Style (Str)
open Verif.StyleEval (Arith getString)
open Verif.StyleValue (value valueRelative valueBox)
open Verif.BuildingSheet (Paint readLook)
open Verif.TerrainSheet (orElse)

/-- BarrierBuilder.cpp:96-97, 119, utils/GeometryUtils.hpp:90-96: the radius is read twice, and the second one is not used. -/
noncomputable def readPillar (ar : Arith ℝ) (senv : Style.Env ℝ) (box : Bbox ℝ) (tags : List Tag) (st : Style.Style) (look : UInt64 → Building.Look ℝ) :
    Outcome (Barrier.Style ℝ) :=
  (valueBox ar senv tags st "radius".toList box).bind fun radius =>
  (valueRelative ar senv tags st "radius".toList box.height).bind fun _ =>
  (value ar senv tags st "height".toList).bind fun height =>
  (value ar senv tags st "step".toList).bind fun step =>
  .ok ⟨true, 0, height, 0, 0, step, 1.5 * radius, radius, look⟩

/-- BarrierBuilder.cpp:78-85 -/
noncomputable def readWall (ar : Arith ℝ) (senv : Style.Env ℝ) (box : Bbox ℝ) (tags : List Tag) (st : Style.Style) (look : UInt64 → Building.Look ℝ) :
    Outcome (Barrier.Style ℝ) :=
  (valueBox ar senv tags st "width".toList box).bind fun width =>
  (value ar senv tags st "height".toList).bind fun height =>
  (value ar senv tags st "length".toList).bind fun length =>
  (value ar senv tags st "gap".toList).bind fun gap =>
  .ok ⟨false, width, height, length, gap, 0, 0, 0, look⟩

/-- BarrierBuilder.cpp:44-52, 64-69 with MeshContext.hpp:36-69 -/
noncomputable def readElement (ar : Arith ℝ) (senv : Style.Env ℝ) (paint : Paint) (box : Bbox ℝ) (fc : Style.FilterCollection) (lod : ℤ) (e : El) :
    Outcome (Barrier.Style ℝ) :=
  let st := Style.forElement senv fc e lod.toNat
  (readLook ar senv paint e.tags st []).bind fun look =>
  (getString ar senv e.tags st "type".toList).bind fun type =>
  if type = "pillar".toList then readPillar ar senv box e.tags st look else readWall ar senv box e.tags st look

/-- The styles of the elements at this level of detail. -/
noncomputable def styleOf (ar : Arith ℝ) (senv : Style.Env ℝ) (paint : Paint) (box : Bbox ℝ) (fc : Style.FilterCollection) (lod : ℤ) (e : El) : Barrier.Style ℝ :=
  orElse (readElement ar senv paint box fc lod e) ⟨false, 0, 0, 0, 0, 0, 0, 0, paint [] 0 [] 0⟩

/-- CylinderGenerator.hpp:63-68 for seven segments and the default vectors of lines 114-115: the vector to the right, rotated around the one which goes up. -/
noncomputable def rotated (j : Nat) : MeshBuilder.Vec3 ℝ :=
  let angle := (j : ℝ) * (2 * Real.pi / 7)
  let v := (Quaternion.fromAngleAxis (Real.sin (angle / 2)) (Real.cos (angle / 2)) ⟨0, 1, 0⟩).apply ⟨1, 0, 0⟩
  ⟨v.x, v.y, v.z⟩

/-- The builder context of a tile (QuadKeyBuilder.cpp:114-116, BuilderContext.hpp): its box, GeoUtils.hpp:117-132 and the square root. `elevation` is `getElevation` for the tile. -/
noncomputable def envOf (ar : Arith ℝ) (senv : Style.Env ℝ) (paint : Paint) (elevation : Geo ℝ → ℝ) (epsilon : ℝ) (fc : Style.FilterCollection) (q : QuadKey) : Barrier.Env ℝ where
  world := ⟨Geodesy.distance, elevation, Real.sqrt, epsilon, (Mercator.tileBox q).center⟩
  style := styleOf ar senv paint (Mercator.tileBox q) fc q.lod
  rotated := rotated

/-- QuadKeyBuilder.cpp:62-64: the calls which the builder gets for a tile, and the meshes which the callback gets then. -/
noncomputable def deliver (ar : Arith ℝ) (senv : Style.Env ℝ) (paint : Paint) (elevation : Geo ℝ → ℝ) (epsilon : ℝ) (fc : Style.FilterCollection) (q : QuadKey) (calls : List El) :
    Outcome (List (Along.Delivered ℝ)) :=
  (Barrier.visitAll (envOf ar senv paint elevation epsilon fc q) {} calls).bind fun s => .ok s.delivered

end Verif.BarrierSheet
