import Verif.Model.Color

/-! Specification of colors and gradients (C32, C33, C47). -/
namespace Verif.ColorSpec
open Verif.Color

/-- The four channels as whole numbers. -/
def channels (c : Color) : List Int := [c.r.toNat, c.g.toNat, c.b.toNat, c.a.toNat]

/-- `x` limited to 0..255. -/
def Clamped (x y : Int) : Prop := (0 ≤ x ∧ x ≤ 255 → y = x) ∧ (x < 0 → y = 0) ∧ (255 < x → y = 255)

/-- The 32 bits of a color: red in the highest byte. -/
def packed (c : Color) : Nat := c.r.toNat * 2 ^ 24 + c.g.toNat * 2 ^ 16 + c.b.toNat * 2 ^ 8 + c.a.toNat

/-- A color has each of its channels between those of two others, or `slack` below. -/
def Between (slack : Int) (a b c : Color) : Prop :=
  ∀ x ∈ ((channels a).zip (channels b)).zip (channels c), min x.1.1 x.1.2 - slack ≤ x.2 ∧ x.2 ≤ max x.1.1 x.1.2

/-- Times strictly increase. -/
def Increasing {K : Type} [LT K] (l : List (K × Color)) : Prop := l.Pairwise (fun a b => a.1 < b.1)

/-- The digit of a hexadecimal number, in either case. -/
def Digit (c : Char) (n : Nat) : Prop :=
  ['0', '1', '2', '3', '4', '5', '6', '7', '8', '9', 'a', 'b', 'c', 'd', 'e', 'f'][n]? = some c ∨
  ['0', '1', '2', '3', '4', '5', '6', '7', '8', '9', 'A', 'B', 'C', 'D', 'E', 'F'][n]? = some c

/-- Two digits spell a byte. -/
def Byte (h l : Char) (n : UInt8) : Prop := Digit h (n.toNat / 16) ∧ Digit l (n.toNat % 16)

end Verif.ColorSpec
