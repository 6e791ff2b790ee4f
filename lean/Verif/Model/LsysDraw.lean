import Verif.Model.Along
import Verif.Model.Lsys
import Verif.Model.Roofs
import Verif.Model.Strings

/-! # Drawing L-systems

Models builders/generators/LSystemGenerator.cpp: the appearances, and the turtle which adds cylinders, cones and spheres to a mesh. The commands of the
turtle themselves are those of `Verif.Model.Lsys`. -/
namespace Verif.LsysDraw
open Verif.MeshBuilder Verif.Lsys
open Verif.Building (Look)
open Verif.Roofs (Library addFacet generated)

variable {K : Type}

/-- What is used of the style provider and the conversions of texts: LSystemGenerator.cpp:33, 39 (`lexicalCast`, CoreUtils.hpp:44-47), 35
(`getGradient`) and 38 (`getTexture` and `random`). Each of them may throw. -/
structure Provider (K : Type) where
  toIndex : List Char → Outcome Nat
  toScale : List Char → Outcome K
  appearance : (color : List Char) → (textureIndex : Nat) → (textureType : List Char) → (scale : K) → Outcome (Look K)

/-- `std::vector::at` -/
def at' {α : Type} (l : List α) (i : Nat) : Outcome α :=
  match l[i]? with
  | some a => .ok a
  | none => .throw "out_of_range"

/-- LSystemGenerator.cpp:32-40: the appearances from number `i` on; `n` are left. -/
def appearancesFrom (provider : Provider K) (colors indices types scales : List (List Char)) (i : Nat) : Nat → Outcome (List (Look K))
  | 0 => .ok []
  | n + 1 =>
    (at' indices i).bind fun index =>
    (provider.toIndex index).bind fun textureIndex =>
    (at' colors i).bind fun color =>
    (at' types i).bind fun type =>
    (at' scales i).bind fun scaleText =>
    (provider.toScale scaleText).bind fun scale =>
    (provider.appearance color textureIndex type scale).bind fun look =>
    (appearancesFrom provider colors indices types scales (i + 1) n).bind fun rest =>
    .ok (look :: rest)

/-- The four texts of LSystemGenerator.cpp:25-28 -/
structure Texts where
  colors : List Char
  indices : List Char
  types : List Char
  scales : List Char

/-- LSystemGenerator.cpp:23-43. Simplification: the arguments in lines 34-39 are evaluated from left to right; the order only decides which
exception is seen first. -/
def createAppearances (provider : Provider K) (texts : Texts) : Outcome (List (Look K)) :=
  let colors := Strings.splitBy ',' texts.colors
  appearancesFrom provider colors (Strings.splitBy ',' texts.indices) (Strings.splitBy ',' texts.types) (Strings.splitBy ',' texts.scales) 0 colors.length

/-- LSystemGenerator.cpp:46-49: the remainder by zero is undefined. -/
def getAppearanceByIndex (index : Nat) (appearances : List (Look K)) : Outcome (Look K) :=
  if appearances.length = 0 then .ub "division by zero" else at' appearances (index % appearances.length)

variable [Field K] [LinearOrder K]

/-- GeoUtils.hpp:16-19, 33-40 with `deg2Rad` of MathUtils.hpp:25-27 -/
def worldToGeo (lib : Library K) (zero : Geo K) (x y : K) : Geo K :=
  let latitudeCircumference := 40075160 * lib.cos (lib.pi * zero.lat / 180)
  ⟨zero.lat + y * 360 / 40008000, zero.lon + x * 360 / latitudeCircumference⟩

/-- The members of the turtle which do not change: LSystemGenerator.cpp:154, 164-165. -/
structure Setup (K : Type) where
  appearances : List (Look K)
  position : Geo K
  minHeight : K

/-- LSystemGenerator.cpp:143-146 -/
def translate (lib : Library K) (s : Setup K) (v : Vec3 K) : Vec3 K :=
  let coordinate := worldToGeo lib s.position v.x v.z
  ⟨coordinate.lon, v.y + s.minHeight, coordinate.lat⟩

/-- The vectors of the turtle (math/Vector3.hpp) are those of the mesh. -/
def vec (v : Quaternion.Vec3 K) : Vec3 K := ⟨v.x, v.y, v.z⟩

/-- LSystemGenerator.cpp:148-150 -/
def getSize (st : State K) : Vec3 K := ⟨st.width, st.length, st.width⟩

/-- CylinderGenerator.hpp:63, 66 with seven segments (LSystemGenerator.cpp:68-70): `right` turned around the direction -/
def turned (lib : Library K) (st : State K) (j : Nat) : Vec3 K :=
  let half := (j : K) * (2 * lib.pi / 7) * (1 / 2)
  vec ((Quaternion.fromAngleAxis (lib.sin half) (lib.cos half) st.direction).apply st.right)

/-- The members of the cylinder generator: LSystemGenerator.cpp:110-113, 122-125, CylinderGenerator.hpp:26-38, 61-62. The maximal height of a segment
is zero, so there is one. -/
def cylinderOf (lib : Library K) (st : State K) (size2 : Vec3 K) : Solids.Cylinder K :=
  ⟨vec st.position, vec st.direction, turned lib st, getSize st, size2, 7, 1, (getSize st).y / 1⟩

/-- LSystemGenerator.cpp:99-102, 110-114, 122-126: the triangles of a body. -/
def bodyOf (lib : Library K) (epsilon : K) (s : Setup K) (shape : Shape) (st : State K) : Outcome (List (Vec3 K × Vec3 K × Vec3 K)) :=
  match shape with
  | .sphere =>
    let unit := Solids.normalized lib.sqrt epsilon
    Solids.sphere (Solids.middleOf unit) (Solids.placeAt (translate lib s) (vec st.position) (getSize st))
      (Solids.createVertexList unit ((1 + lib.sqrt 5) / 2)) false 1
  | .cylinder => .ok ((cylinderOf lib st (getSize st)).generate epsilon (translate lib s))
  | .cone => .ok ((cylinderOf lib st ⟨0, 0, 0⟩).generate epsilon (translate lib s))

/-- LSystemGenerator.cpp:98-131 without `jumpForward`: adds the body and writes the texture. The appearance of cylinders and cones is the one of
`cylinderContext_` (61, 134-135), that of spheres the one of `icoSphereContext_` (62, 136-137). -/
def addBody (lib : Library K) (epsilon : K) (s : Setup K) (shape : Shape) (style : Nat) (st : State K) (m : Mesh K) : Outcome (Mesh K) :=
  (getAppearanceByIndex (if shape = .sphere then style + 1 else style) s.appearances).bind fun look =>
  (bodyOf lib epsilon s shape st).bind fun ts =>
  writeTexture ((ts.map generated).foldl (addFacet look) m) look.texture

/-- LSystemGenerator.cpp:98-131: adds the body and jumps forward. -/
def addShape (lib : Library K) (epsilon : K) (set : Settings K) (s : Setup K) (shape : Shape) (t : Turtle K) (m : Mesh K) : Outcome (Turtle K × Mesh K) :=
  (addBody lib epsilon s shape t.style t.state m).bind fun m => .ok (draw set shape t, m)

/-- `Rule::apply` (lsys/Rules.hpp:13-78) with the turtle of LSystemGenerator.cpp:84-95, 168-173 -/
def apply (lib : Library K) (epsilon : K) (set : Settings K) (s : Setup K) (t : Turtle K) (m : Mesh K) : Rule → Outcome (Turtle K × Mesh K)
  | .op .moveForward => addShape lib epsilon set s .cylinder t m
  | .op o => (step set t o).bind fun t => .ok (t, m)
  | .word w =>
    if w = ['c', 'o', 'n', 'e'] then addShape lib epsilon set s .cone t m
    else if w = ['s', 'p', 'h', 'e', 'r', 'e'] then addShape lib epsilon set s .sphere t m
    else if w = ['c', 'y', 'l', 'i', 'n', 'd', 'e', 'r'] then addShape lib epsilon set s .cylinder t m
    else .throw "out_of_range"

/-- lsys/Turtle.cpp:53-55 -/
def runRules (lib : Library K) (epsilon : K) (set : Settings K) (s : Setup K) (t : Turtle K) (m : Mesh K) : List Rule → Outcome (Turtle K × Mesh K)
  | [] => .ok (t, m)
  | r :: rs => (apply lib epsilon set s t m r).bind fun p => runRules lib epsilon set s p.1 p.2 rs

/-- lsys/Turtle3d.cpp:78-87, MathUtils.hpp:25-27: the angle of the L-system as the sine and cosine of its half. -/
def settings (lib : Library K) (angle scale : K) (appearances : Nat) : Settings K :=
  let half := lib.pi * angle / 180 * (1 / 2)
  ⟨lib.sin half, lib.cos half, scale, appearances⟩

/-- LSystemGenerator.cpp:189-197 with the constructor in lines 54-82 and lsys/Turtle.cpp:35-56: the mesh after drawing. -/
def generate {W G : Type} (lib : Library K) (epsilon : K) (provider : Provider K) (lt : Rule → Rule → Bool) (pick : G → List W → Nat × G) (texts : Texts)
    (size angle scale : K) (l : LSystem W) (g : G) (position : Geo K) (elevation : K) (m : Mesh K) : Outcome (Mesh K) :=
  (createAppearances provider texts).bind fun appearances =>
  (getAppearanceByIndex 0 appearances).bind fun _ =>
  (getAppearanceByIndex 1 appearances).bind fun _ =>
  (expand lt pick l g).bind fun rules =>
  (runRules lib epsilon (settings lib angle scale appearances.length) ⟨appearances, position, elevation⟩ (initial size) m rules).bind fun p => .ok p.2

/-- TreeBuilder.cpp:24-29, 36-44 and the same lines of LampBuilder.cpp:23-31, 36-46: trees and lamps are drawn by an L-system into an empty mesh. -/
def plant {W G : Type} (lib : Library K) (epsilon : K) (provider : Provider K) (lt : Rule → Rule → Bool) (pick : G → List W → Nat × G) (texts : Texts)
    (size angle scale : K) (l : LSystem W) (g : G) (step width : K) : Along.PlantStyle K :=
  ⟨step, width, fun position elevation => generate lib epsilon provider lt pick texts size angle scale l g position elevation {}⟩

end Verif.LsysDraw
