import Verif.Model.Basic
import Verif.Model.Element
import Verif.Model.Api

/-! # Specification of the C API -/
namespace Verif.ApiSpec

variable {D : Type}

/-- An array of pairs. -/
def flat {α : Type} (pairs : List (α × α)) : List α := pairs.flatMap fun (a, b) => [a, b]

/-- Supported levels of detail, as documented for the library. -/
def Supported (lod : Int) : Prop := 1 ≤ lod ∧ lod ≤ 19

/-- The element with these coordinates: a node for one, an area if the last is the first, a way otherwise. -/
inductive Describes (same : D × D → D × D → Bool) (id : UInt64) (tags : List Tag) : List (D × D) → Element (D × D) → Prop
  | node (c) : Describes same id tags [c] (.node id tags c)
  | area (first mid last) (h : same first last = true) : Describes same id tags (first :: mid ++ [last]) (.area id tags (first :: mid ++ [last]))
  | way (first mid last) (h : same first last = false) : Describes same id tags (first :: mid ++ [last]) (.way id tags (first :: mid ++ [last]))

/-- What a call asks the library for, if its arguments are meaningful. -/
inductive Asks (getId : String → UInt32) (same : D × D → D × D → Bool) : Api.Call D → Api.Request D → Prop
  | text (a b c d s e) (hs : Supported s) (he : Supported e) : Asks getId same (.getDataByText a b c d s e) (.search a b c d ⟨s, e⟩)
  | quadKey (x y lod) : Asks getId same (.getDataByQuadKey x y lod) (.build ⟨lod, x, y⟩)
  | addTile (x y lod) : Asks getId same (.addToStoreInQuadKey x y lod) (.addTile ⟨lod, x, y⟩)
  | addBox (a b c d s e) (hs : Supported s) (he : Supported e) : Asks getId same (.addToStoreInBoundingBox a b c d s e) (.addBox a b c d ⟨s, e⟩)
  | addRange (s e) (hs : Supported s) (he : Supported e) : Asks getId same (.addToStoreInRange s e) (.addRange ⟨s, e⟩)
  | addElement (id cs) (tags : List (String × String)) (element s e) (hs : Supported s) (he : Supported e)
      (h : Describes same id (tags.map fun t => ⟨getId t.1, getId t.2⟩) cs element) :
      Asks getId same (.addToStoreElement id (flat cs) (flat tags) s e) (.addElement element ⟨s, e⟩)

/-- A path without repeated separators, which denotes the same file. -/
def collapse : List Char → List Char
  | '/' :: '/' :: rest => collapse ('/' :: rest)
  | c :: rest => c :: collapse rest
  | [] => []

end Verif.ApiSpec
