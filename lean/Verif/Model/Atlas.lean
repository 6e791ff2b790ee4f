import Verif.Model.LsysText

/-! # Texture atlases

Models mapcss/TextureAtlasParser.cpp, the textures of mapcss/StyleSheet.hpp and of mapcss/StyleProvider.cpp. Characters are code points. -/
namespace Verif.Atlas
open Verif.MapCss (Res Parser isSpace many1)
open Verif.LsysText (integer)

/-- TextureAtlasParser.cpp:84: `qi::space` before a token -/
def skip (t : List Char) : List Char := t.dropWhile isSpace

def comma : Parser Unit := fun t =>
  match skip t with
  | [] => .fail
  | c :: r => if c = ',' then .ok () r else .fail

/-- `qi::int_` -/
def int : Parser Int := fun t =>
  match integer (skip t) with
  | some (n, r) => .ok n r
  | none => .fail

/-- `ascii::char_ - ','` -/
def isName (c : Char) : Bool := c.toNat < 128 && c != ','

/-- TextureAtlasParser.cpp:56: all characters up to the comma; nothing is skipped inside of `lexeme`. -/
def name : Parser (List Char) := fun t =>
  match (skip t).takeWhile isName with
  | [] => .fail
  | c :: n => .ok (c :: n) ((skip t).dropWhile isName)

/-- TextureAtlasParser.cpp:19-25 -/
structure Region where
  groupName : List Char
  x : Int
  y : Int
  width : Int
  height : Int
deriving DecidableEq

/-- TextureAtlasParser.cpp:55-60 -/
def region : Parser Region := fun t =>
  (name t).andThen fun n r => (comma r).andThen fun _ r => (int r).andThen fun x r => (comma r).andThen fun _ r => (int r).andThen fun y r =>
  (comma r).andThen fun _ r => (int r).andThen fun w r => (comma r).andThen fun _ r => (int r).andThen fun h r => .ok ⟨n, x, y, w, h⟩ r

/-- TextureAtlasParser.cpp:27-32 -/
structure Text where
  id : Int
  width : Int
  height : Int
  regions : List Region
deriving DecidableEq

/-- TextureAtlasParser.cpp:70-74 -/
def atlas : Parser Text := fun t =>
  (int t).andThen fun id r => (comma r).andThen fun _ r => (int r).andThen fun w r => (comma r).andThen fun _ r => (int r).andThen fun h r =>
  (many1 region r).andThen fun rs r => .ok ⟨id, w, h, rs⟩ r

/-- StyleSheet.hpp:16-34 -/
structure TextureRegion where
  atlasWidth : Nat
  atlasHeight : Nat
  x : Nat
  y : Nat
  width : Nat
  height : Nat
deriving DecidableEq

/-- StyleSheet.hpp:29-31 -/
def TextureRegion.isEmpty (r : TextureRegion) : Bool := r.atlasWidth == 0 || r.atlasHeight == 0

/-- `static_cast<std::uint16_t>` of an `int` -/
def wrap (n : Int) : Nat := (n % 65536).toNat

/-- `static_cast<std::uint16_t>` of a `double` which holds an integer: undefined outside of the range. -/
def convert (n : Int) : Outcome Nat := if 0 ≤ n ∧ n < 65536 then .ok n.toNat else .ub "conversion out of range"

/-- Addition of two `int` -/
def add (a b : Int) : Outcome Int := if -2147483648 ≤ a + b ∧ a + b < 2147483648 then .ok (a + b) else .ub "signed overflow"

/-- StyleSheet.hpp:39-46 with TextureAtlasParser.cpp:89-95. Doubles hold these integers and their differences exactly (Rectangle.hpp:56-62). -/
def toTexture (x : Text) (r : Region) : Outcome TextureRegion :=
  (add r.x r.width).bind fun right => (add r.y r.height).bind fun top =>
  (convert r.x).bind fun a => (convert r.y).bind fun b => (convert (right - r.x)).bind fun w => (convert (top - r.y)).bind fun h =>
  .ok ⟨wrap x.width, wrap x.height, a, b, w, h⟩

abbrev Group := List TextureRegion

/-- StyleSheet.hpp:49-51 -/
def random (g : Group) (seed : Nat) : Outcome TextureRegion :=
  match g[seed % g.length]? with
  | some r => .ok r
  | none => .ub "index out of range"

/-- StyleSheet.hpp:58-92 -/
structure TextureAtlas where
  index : Nat
  textureGroups : Assoc (List Char) Group
  emptyGroup : Group
deriving DecidableEq

/-- TextureAtlasParser.cpp:87-96: `groups[name].add(...)` -/
def addRegions (x : Text) : List Region → Assoc (List Char) Group → Outcome (Assoc (List Char) Group)
  | [], groups => .ok groups
  | r :: rs, groups => (toTexture x r).bind fun t => addRegions x rs (groups.set r.groupName ((groups.find r.groupName).getD [] ++ [t]))

/-- StyleSheet.hpp:61-69. The default rectangle is made of the largest `double` (Rectangle.hpp:19-24), whose conversion to `std::uint16_t` is undefined:
instead of calling each atlas undefined, the four numbers are the parameter `outside`. -/
def create (outside : Nat × Nat × Nat × Nat) (index : Nat) (groups : Assoc (List Char) Group) : TextureAtlas :=
  ⟨index, groups, [⟨0, 0, outside.1, outside.2.1, outside.2.2.1, outside.2.2.2⟩]⟩

/-- TextureAtlasParser.cpp:80-108: the text behind the last region is not looked at. -/
def parse (outside : Nat × Nat × Nat × Nat) (t : List Char) : Outcome TextureAtlas :=
  match atlas t with
  | .ok x _ => (addRegions x x.regions []).bind fun groups => .ok (create outside (wrap x.id) groups)
  | _ => .throw "MapCssException"

/-- StyleSheet.hpp:78-86 -/
def TextureAtlas.get (a : TextureAtlas) (key : List Char) : Group :=
  match a.textureGroups.find key with
  | some g => g
  | none => a.emptyGroup

/-- StyleProvider.cpp:19 -/
def defaultTextureIndex : Nat := 65535

/-- StyleProvider.cpp:271-274 -/
def provide (outside : Nat × Nat × Nat × Nat) (atlases : List TextureAtlas) : Assoc Nat TextureAtlas :=
  atlases.foldl (fun m a => m.emplace a.index a) (Assoc.emplace [] defaultTextureIndex (create outside 0 []))

/-- StyleProvider.cpp:300-306 -/
def getTexture (m : Assoc Nat TextureAtlas) (index : Nat) (key : List Char) : Outcome Group :=
  match m.find index with
  | some a => .ok (a.get key)
  | none =>
    match m.find defaultTextureIndex with
    | some a => .ok (a.get key)
    | none => .ub "end of map"

end Verif.Atlas
