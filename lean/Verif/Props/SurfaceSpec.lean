import Verif.Model.Surface
import Verif.Props.ShownSpec
import Verif.Props.ColorSpec

/-! # Specification of the look of surfaces (C99) -/
namespace Verif.SurfaceSpec
open Verif.MeshBuilder (Vec2 Vec3)
open Verif.ShownSpec Verif.ColorSpec
open Verif.Color (Color)
open Verif.Surface (Options Look Site)

/-- The four bytes of a color, read as a signed number. -/
def Packed (c : Color) (n : Int) : Prop := -2 ^ 31 ≤ n ∧ n < 2 ^ 31 ∧ ∃ k : Int, n = (packed c : Int) + k * 2 ^ 32

/-- The first color of the gradient, or one between two neighbours; nothing if it has no colors. -/
def OfGradient (l : List (ℝ × Color)) (n : Int) : Prop :=
  ∃ c, Packed c n ∧ ((l = [] ∧ c = ⟨0, 0, 0, 0⟩) ∨ (∃ p, l[0]? = some p ∧ c = p.2) ∨
    ∃ i A B, l[i]? = some A ∧ l[i + 1]? = some B ∧ Between 1 A.2 B.2 c)

/-- The gradient has a stop at 1 or later, or at most one color. -/
def Complete (l : List (ℝ × Color)) : Prop := ∀ last, l.getLast? = some last → 1 < l.length → 1 ≤ last.1

/-- The height of the ground: fixed, or the one of the elevation provider. -/
def Ground (site : Site) (o : Options) (x y h : ℝ) : Prop :=
  (∀ e, o.elevation = some e → h = e) ∧ (o.elevation = none → h = site.elevation y x)

/-- How a point of a surface is drawn. `border` says that it is on the border of the surface. -/
structure Looks (site : Site) (o : Options) (look : Look) (border : Prop) (p : Vec2 ℝ) (c : Corner ℝ) : Prop where
  east : c.position.x = p.x
  north : c.position.z = p.y
  height : ∃ h, Ground site o p.x p.y h ∧ |c.position.y - (h + o.heightOffset)| ≤ 1 ∧ (border → c.position.y = h + o.heightOffset)
  color : OfGradient look.gradient c.color
  plain : look.textured = false → c.uv = ⟨0, 0⟩
  u : look.textured = true → c.uv.x * ((Mercator.tileBox site.tile).hi.lon - (Mercator.tileBox site.tile).lo.lon) =
    (p.x - (Mercator.tileBox site.tile).lo.lon) * look.textureScale
  v : look.textured = true → c.uv.y * ((Mercator.tileBox site.tile).hi.lat - (Mercator.tileBox site.tile).lo.lat) =
    (p.y - (Mercator.tileBox site.tile).lo.lat) * look.textureScale

/-- The triangle library says nothing about borders, or that this point is on one. -/
def OnBorder (markers : Option (Nat → Int)) (i : Nat) : Prop := ∀ f, markers = some f → f i = 1

end Verif.SurfaceSpec
