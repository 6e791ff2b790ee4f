import Verif.Model.PlantSheet
import Verif.Props.AlongSpec
import Verif.Props.BarrierSheetSpec
import Verif.Props.LsysDrawSpec
import Verif.Props.LsysTextSpec

/-! # Specification of trees and lamps from a stylesheet (C115) -/
namespace Verif.PlantSheetSpec
open Verif.Clipper (El)
open Verif.Style (Declaration Str)
open Verif.StyleSpec Verif.ShownSpec Verif.AlongSpec
open Verif.StyleEval (Arith)
open Verif.BuildingSheetSpec (Amount Word)
open Verif.TerrainSheetSpec (Degrees)
open Verif.PaletteSpec (Legible Hue Plainly)
open Verif.Lsys (Rule Op Shape State)
open Verif.LsysSpec (RewritesN Balanced Frame)
open Verif.LsysText (System)
open Verif.Quaternion (Vec3)

/-! ## The bodies which an L-system stands for -/

/-- `v`, turned towards `w` by an angle. -/
noncomputable def toward (angle : ℝ) (v w : Vec3 ℝ) : Vec3 ℝ :=
  ⟨Real.cos angle * v.x + Real.sin angle * w.x, Real.cos angle * v.y + Real.sin angle * w.y, Real.cos angle * v.z + Real.sin angle * w.z⟩

/-- The opposite vector. -/
def opposite (v : Vec3 ℝ) : Vec3 ℝ := ⟨-v.x, -v.y, -v.z⟩

/-- What the commands which turn do with direction and right, as long as these are perpendicular unit vectors. -/
inductive Turns (angle : ℝ) : Op → Vec3 ℝ × Vec3 ℝ → Vec3 ℝ × Vec3 ℝ → Prop
  | right (d r) : Turns angle .turnRight (d, r) (toward angle d r, toward (-angle) r d)
  | left (d r) : Turns angle .turnLeft (d, r) (toward (-angle) d r, toward angle r d)
  | around (d r) : Turns angle .turnAround (d, r) (opposite d, opposite r)
  | up (d r) : Turns angle .pitchUp (d, r) (toward angle d r, r)
  | down (d r) : Turns angle .pitchDown (d, r) (toward (-angle) d r, r)
  | rollRight (d r) : Turns angle .rollRight (d, r) (d, toward (-angle) r d)
  | rollLeft (d r) : Turns angle .rollLeft (d, r) (d, toward angle r d)

/-- The commands which turn. -/
def turning : List Op := [.turnRight, .turnLeft, .turnAround, .pitchUp, .pitchDown, .rollRight, .rollLeft]

/-- The commands which draw a body. -/
def bodies : List (Rule × Shape) := [(.op .moveForward, .cylinder), (.word "cylinder".toList, .cylinder), (.word "cone".toList, .cone), (.word "sphere".toList, .sphere)]

/-- The place at the end of the next body. -/
def ahead (s : State ℝ) : Vec3 ℝ := ⟨s.position.x + s.length * s.direction.x, s.position.y + s.length * s.direction.y, s.position.z + s.length * s.direction.z⟩

/-- The bodies which are drawn by commands, in order: the shape, where and in which direction and size, and the number of the appearance out of `n`. `k` is the number in use
for cylinders and cones; the one for spheres is the next. If direction and right are no perpendicular unit vectors any more (after `^`, `&`, `\` or `/`), nothing is said about the
result of turns. -/
inductive Draws (angle scale : ℝ) (n : Nat) : State ℝ → List (State ℝ) → Nat → List Rule → List (Shape × State ℝ × Nat) → Prop
  | done (s saved k) : Draws angle scale n s saved k [] []
  | body (s saved k rs ds r shape) : (r, shape) ∈ bodies → Draws angle scale n { s with position := ahead s } saved k rs ds →
      Draws angle scale n s saved k (r :: rs) ((shape, s, (if shape = .sphere then k + 1 else k) % n) :: ds)
  | jump (s saved k rs ds) : Draws angle scale n { s with position := ahead s } saved k rs ds → Draws angle scale n s saved k (.op .jumpForward :: rs) ds
  | turn (s saved k rs ds o d r) : o ∈ turning → (Frame s.direction s.right → Turns angle o (s.direction, s.right) (d, r)) →
      Draws angle scale n { s with direction := d, right := r } saved k rs ds → Draws angle scale n s saved k (.op o :: rs) ds
  | wider (s saved k rs ds) : Draws angle scale n { s with width := s.width * scale } saved k rs ds → Draws angle scale n s saved k (.op .increment :: rs) ds
  | thinner (s saved k rs ds) : Draws angle scale n { s with width := s.width / scale } saved k rs ds → Draws angle scale n s saved k (.op .decrement :: rs) ds
  | longer (s saved k rs ds) : Draws angle scale n { s with length := s.length * scale } saved k rs ds → Draws angle scale n s saved k (.op .scaleUp :: rs) ds
  | shorter (s saved k rs ds) : Draws angle scale n { s with length := s.length / scale } saved k rs ds → Draws angle scale n s saved k (.op .scaleDown :: rs) ds
  | switch (s saved k rs ds) : Draws angle scale n { s with texture := s.texture + 1 } saved (s.texture + 1) rs ds →
      Draws angle scale n s saved k (.op .switchStyle :: rs) ds
  | save (s saved k rs ds) : Draws angle scale n s (s :: saved) k rs ds → Draws angle scale n s saved k (.op .save :: rs) ds
  | restore (s t saved k rs ds) : Draws angle scale n s saved k rs ds → Draws angle scale n t (s :: saved) k (.op .restore :: rs) ds

/-- Drawing begins on the ground and goes up, with length and width of this size. -/
def start (size : ℝ) : State ℝ := ⟨size, size, 0, ⟨0, 0, 0⟩, ⟨0, 1, 0⟩, ⟨1, 0, 0⟩⟩

/-- An L-system which can be drawn: the scale is not zero, brackets match and are not replaced, and no unknown words are left in the end. -/
structure Growable (s : System) : Prop where
  scale : s.scale ≠ 0
  start : Balanced s.start
  sides : ∀ p ∈ s.grammar, Balanced p.2.2 ∧ p.1 ≠ .op .save ∧ p.1 ≠ .op .restore
  words : ∀ rs, RewritesN s.grammar s.generations.toNat s.start rs → ∀ w, Rule.word w ∈ rs → w = "cone".toList ∨ w = "sphere".toList ∨ w = "cylinder".toList

/-! ## What is declared -/

/-- The keys which say what a tree or a lamp is like. -/
def keys : List Str := ["lsys".toList, "lsys-size".toList, "lsys-colors".toList, "lsys-texture-indices".toList, "lsys-texture-types".toList, "lsys-texture-scales".toList,
  "tree-step".toList, "lamp-step".toList, "width".toList]

/-- One entry of the lists of appearances: a color, the number of an atlas and how it is written, the type of a texture and the text of its scale. -/
structure Entry where
  color : Str
  index : Nat
  indexText : Str
  type : Str
  scale : Str

/-- An entry which can be read: no commas, a color which is legible, and a number of 16 bits (without 65535, which is never found). -/
structure Entry.Good {G : Type} (n : PlantSheet.Nursery G) (e : Entry) : Prop where
  commas : ',' ∉ e.color ∧ ',' ∉ e.indexText ∧ ',' ∉ e.type ∧ ',' ∉ e.scale
  color : Legible 50 e.color
  index : n.toIndex e.indexText = .ok e.index ∧ e.index < 65535
  scale : ∃ v, n.toScale e.scale = .ok v

/-- What is declared about a tree or a lamp. -/
structure Plant where
  system : System
  size : ℝ
  entries : List Entry

/-- The declarations name this list, perhaps with more parts at its end. -/
def Listed (ar : Arith ℝ) (senv : Style.Env ℝ) (ds : List Declaration) (tags : List Tag) (key : Str) (es : List Str) : Prop :=
  ∃ more, (∀ x ∈ more, ',' ∉ x) ∧ Word ar senv tags (lastValue ds key) (StringsSpec.join ',' (es ++ more))

/-- The declarations describe this plant. -/
structure Told {G : Type} (ar : Arith ℝ) (senv : Style.Env ℝ) (n : PlantSheet.Nursery G) (ds : List Declaration) (tags : List Tag) (p : Plant) : Prop where
  system : ∃ name, Word ar senv tags (lastValue ds "lsys".toList) name ∧ n.systems.find name = some p.system
  size : Amount ar senv tags (lastValue ds "lsys-size".toList) p.size
  some : p.entries ≠ []
  good : ∀ e ∈ p.entries, e.Good n
  colors : Word ar senv tags (lastValue ds "lsys-colors".toList) (StringsSpec.join ',' (p.entries.map (·.color)))
  indices : Listed ar senv ds tags "lsys-texture-indices".toList (p.entries.map (·.indexText))
  types : Listed ar senv ds tags "lsys-texture-types".toList (p.entries.map (·.type))
  scales : Listed ar senv ds tags "lsys-texture-scales".toList (p.entries.map (·.scale))

/-- The declarations say how far objects are apart along a way and, for lamps, how far from it they are. -/
def Spaced (ar : Arith ℝ) (senv : Style.Env ℝ) (box : Bbox ℝ) (ds : List Declaration) (tags : List Tag) (kind : Along.Kind) (style : Along.PlantStyle ℝ) : Prop :=
  match kind with
  | .tree => Amount ar senv tags (lastValue ds "tree-step".toList) style.step
  | .lamp => Amount ar senv tags (lastValue ds "lamp-step".toList) style.step ∧ Degrees ar senv tags box (lastValue ds "width".toList) style.width

/-- The name of the builder in stylesheets. -/
def builderName : Along.Kind → Str
  | .tree => "tree".toList
  | .lamp => "lamp".toList

/-- A file with this name without directories and extension has the text of this L-system. -/
def Described (file : List Char → Option (List Char)) (name : Str) (s : System) : Prop :=
  ∃ f w u, name = Strings.getFileNameWithoutExtension '\\' '/' '.' f ∧ file f = some (w ++ u) ∧ LsysTextSpec.Prints s w ∧ LsysTextSpec.Stops u

/-- The element is a way. -/
def IsWay (e : El) : Prop := ∃ id tags cs, e = .way id tags cs

/-- All that is declared for a node or way can be understood and drawn. -/
def Clear {G : Type} (ar : Arith ℝ) (senv : Style.Env ℝ) (n : PlantSheet.Nursery G) (box : Bbox ℝ) (ds : List Declaration) (kind : Along.Kind) (e : El) (p : Plant) : Prop :=
  Told ar senv n ds e.tags p ∧ Growable p.system ∧ (IsWay e → ∃ style, Spaced ar senv box ds e.tags kind style)

/-! ## What is shown -/

/-- A look of the color which an entry names, with the first texture of its type. -/
def LooksLike (xs : List Atlas.Text) (e : Entry) (look : Building.Look ℝ) : Prop :=
  ∃ c n, Hue e.color c ∧ SurfaceSpec.Packed c n ∧ Plainly look n ∧ PaletteSpec.Textured xs e.index e.type 0 look.texture

/-- The mesh shows the plant at this place: its L-system is rewritten, and the bodies which the commands draw are on the ground in the colors and textures of the entries. -/
def Stands (xs : List Atlas.Text) (tiny : ℝ) (p : Plant) (place : Geo ℝ) (elevation : ℝ) (m : MeshBuilder.Mesh ℝ) : Prop :=
  ∃ rs ds looks, RewritesN p.system.grammar p.system.generations.toNat p.system.start rs ∧
    Draws (Real.pi * p.system.angle / 180) p.system.scale p.entries.length (start p.size) [] 0 rs ds ∧
    List.Forall₂ (LooksLike xs) p.entries looks ∧ LsysDrawSpec.Pictures PlantSheet.library tiny looks place elevation ds m []

/-- What has to be delivered for a node or way: for a node the plant at its place; for a way one mesh with copies of one plant at all spots. A lamp mesh without content is not
delivered. -/
def Grown (xs : List Atlas.Text) (tiny : ℝ) (w : Along.World ℝ) (kind : Along.Kind) (p : Plant) (style : Along.PlantStyle ℝ) (e : El) (out : List (Along.Delivered ℝ)) : Prop :=
  match e with
  | .node id _ c => ∃ m, Stands xs tiny p c (w.elevation c) m ∧ out = [⟨if kind = .tree then "tree:" else "lamp:", id, m⟩]
  | .way id _ cs => ∃ (single m : MeshBuilder.Mesh ℝ) (faces : List (Triangle ℝ × MeshBuilder.Texture)) (rows : List (List (Geo ℝ))),
      Stands xs tiny p w.center 0 single ∧ Paints single faces [] ∧
      List.Forall₂ (Row w kind style) (parts cs) rows ∧
      Paints m (rows.flatten.flatMap fun spot => faces.map (standTextured w.elevation w.center spot)) [] ∧
      if kind = .tree then out = [⟨"trees:", id, m⟩]
      else if rows.flatten = [] ∨ single.vertices = [] then out = [] else out = [⟨"lamps:", id, m⟩]
  | _ => out = []

/-- Ways have coordinates, and copies are at least a centimetre apart. If lamps stand beside the way, its parts have a direction. -/
def Sensible (w : Along.World ℝ) (kind : Along.Kind) (style : Along.PlantStyle ℝ) (e : El) : Prop :=
  match e with
  | .way _ _ cs => cs ≠ [] ∧ 1 / 100 ≤ style.step ∧
      (kind = .lamp → 0 < style.width → ∀ p ∈ parts cs, style.step ≤ w.distance p.1 p.2 →
        w.epsilon < Real.sqrt ((p.2.lon - p.1.lon) ^ 2 + (p.2.lat - p.1.lat) ^ 2))
  | _ => True

end Verif.PlantSheetSpec
