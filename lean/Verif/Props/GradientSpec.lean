import Verif.Props.ColorSpec

/-! # How gradients are written and what they mean, stated without the regular expression -/
namespace Verif.GradientSpec
open Verif.Color Verif.ColorSpec

/-- A text which names a color: three bytes in hexadecimal digits of either case behind `#`, or a name of the table. -/
inductive Names : List Char → Color → Prop
  | hex (r1 r2 g1 g2 b1 b2 : Char) (r g b : UInt8) (hr : Byte r1 r2 r) (hg : Byte g1 g2 g) (hb : Byte b1 b2 b) :
      Names ['#', r1, r2, g1, g2, b1, b2] ⟨r, g, b, 255⟩
  | name (s : List Char) (c : Color) (h : (String.ofList s, c) ∈ colorMap) : Names s c

/-- A color of a gradient and where it is, in percent, as a number of one to three digits. -/
structure Stop where
  text : List Char
  color : Color
  percent : Option (List Nat)

/-- The text names the color, the percentage has one to three digits. -/
def Stop.Good (s : Stop) : Prop := Names s.text s.color ∧ ∀ ds, s.percent = some ds → 1 ≤ ds.length ∧ ds.length ≤ 3 ∧ ∀ d ∈ ds, d < 10

/-- The ten digits. -/
def digit (d : Nat) : Char := ['0', '1', '2', '3', '4', '5', '6', '7', '8', '9'].getD d '0'

/-- A stop is written as its color and, behind a blank, its percentage. -/
def Stop.write (s : Stop) : List Char :=
  s.text ++ match s.percent with
    | none => []
    | some ds => ' ' :: ds.map digit ++ ['%']

/-- Stops with commas and `blanks` blanks between them. -/
def writeStops (blanks : Nat) : List Stop → List Char
  | [] => []
  | [s] => s.write
  | s :: l => s.write ++ ',' :: List.replicate blanks ' ' ++ writeStops blanks l

/-- `gradient(...)` -/
def write (blanks : Nat) (l : List Stop) : List Char :=
  ['g', 'r', 'a', 'd', 'i', 'e', 'n', 't', '('] ++ writeStops blanks l ++ [')']

/-- The number which digits denote. -/
def number (ds : List Nat) : Nat := ds.foldl (fun n d => 10 * n + d) 0

section
variable {K : Type} [Field K]

/-- Where a stop is, from 0 to 1: the percentage if there is one; otherwise the first one is at 0 and the others are at 1. -/
def Stop.time (s : Stop) (first : Bool) : K :=
  match s.percent with
  | some ds => (number ds : K) / 100
  | none => if first then 0 else 1

/-- The gradient which stops denote. -/
def meaning : List Stop → List (K × Color)
  | [] => []
  | s :: l => (s.time true, s.color) :: l.map fun s => (s.time false, s.color)

/-- A conversion of texts to numbers reads digits as everybody does. -/
def Reads (cast : List Char → Option K) : Prop :=
  ∀ ds : List Nat, ds ≠ [] → (∀ d ∈ ds, d < 10) → cast (ds.map digit) = some (number ds : K)

end

end Verif.GradientSpec
