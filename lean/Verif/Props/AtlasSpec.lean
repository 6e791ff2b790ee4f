import Verif.Model.Atlas
import Verif.Props.LsysTextSpec

/-! # Specification of texture atlases (C92)

How an atlas is written. Only the records which are written are taken from the model. -/
namespace Verif.AtlasSpec
open Verif.Atlas (Region Text TextureRegion)
open Verif.LsysTextSpec (PrintsInt)

/-- Blanks and line ends. -/
def Blank (c : Char) : Prop := c ∈ [' ', '\t', '\n', Char.ofNat 11, Char.ofNat 12, '\r']

def Gap (g : List Char) : Prop := ∀ c ∈ g, Blank c

/-- Names are made of characters of ASCII without comma; they may have blanks, but do not begin with one. -/
def Name (n : List Char) : Prop := n ≠ [] ∧ (∀ c ∈ n, c.toNat < 128 ∧ c ≠ ',') ∧ ∀ c ∈ n.head?, ¬ Blank c

def Number (n : Int) (w : List Char) : Prop := ∃ g v, Gap g ∧ PrintsInt n v ∧ w = g ++ v

def Comma (w : List Char) : Prop := ∃ g, Gap g ∧ w = g ++ [',']

/-- `name,x,y,width,height` -/
inductive PrintsRegion : Region → List Char → Prop
  | mk (r : Region) (g x c y c' w c'' h) (hg : Gap g) (hn : Name r.groupName) (hx : Number r.x x) (hc : Comma c) (hy : Number r.y y) (hc' : Comma c')
    (hw : Number r.width w) (hc'' : Comma c'') (hh : Number r.height h) :
    PrintsRegion r (g ++ (r.groupName ++ (',' :: (x ++ (c ++ (y ++ (c' ++ (w ++ (c'' ++ h)))))))))

/-- Does not go on with a digit. -/
def Apart (v : List Char) : Prop := ∀ c ∈ v.head?, ¬ (48 ≤ c.toNat ∧ c.toNat ≤ 57)

/-- At least one region. -/
inductive PrintsRegions : List Region → List Char → Prop
  | one (r w) (hr : PrintsRegion r w) : PrintsRegions [r] w
  | more (r w rs v) (hr : PrintsRegion r w) (ha : Apart v) (h : PrintsRegions rs v) : PrintsRegions (r :: rs) (w ++ v)

/-- `id,width,height` and the regions -/
inductive PrintsAtlas : Text → List Char → Prop
  | mk (x : Text) (a c b c' d v) (ha : Number x.id a) (hc : Comma c) (hb : Number x.width b) (hc' : Comma c') (hd : Number x.height d) (hv : Apart v)
    (hr : PrintsRegions x.regions v) : PrintsAtlas x (a ++ (c ++ (b ++ (c' ++ (d ++ v)))))

/-- The regions end here: no further region follows, and the last number is complete. -/
def Stops (u : List Char) : Prop := Apart u ∧ ¬ ∃ r w v, PrintsRegion r w ∧ Apart v ∧ u = w ++ v

/-- Fits into 16 bits. -/
def Fits (r : Region) : Prop := ∀ n ∈ [r.x, r.y, r.width, r.height], 0 ≤ n ∧ n < 2 ^ 16

/-- The regions of this name, in the order of the text. -/
def named (key : List Char) (rs : List Region) : List Region := rs.filter fun r => r.groupName = key

/-- This texture is this region of the atlas, whose size is taken modulo 2^16. -/
def Shows (x : Text) (r : Region) (t : TextureRegion) : Prop :=
  (t.atlasWidth : Int) = x.width % 2 ^ 16 ∧ (t.atlasHeight : Int) = x.height % 2 ^ 16 ∧
    (t.x : Int) = r.x ∧ (t.y : Int) = r.y ∧ (t.width : Int) = r.width ∧ (t.height : Int) = r.height

/-- No texture. -/
def Nothing (t : TextureRegion) : Prop := t.atlasWidth = 0 ∧ t.atlasHeight = 0

/-- The texture with this seed of the group of this name: the regions of the group in turn, or nothing if the group is not known. -/
def Chosen (x : Text) (key : List Char) (seed : Nat) (t : TextureRegion) : Prop :=
  (named key x.regions = [] ∧ Nothing t) ∨ ∃ r, (named key x.regions)[seed % (named key x.regions).length]? = some r ∧ Shows x r t

end Verif.AtlasSpec
