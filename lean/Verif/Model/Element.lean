/-!
# Map elements: `core/src/entities/*.hpp`
-/
namespace Verif

/-- entities/Element.hpp:16-27 -/
structure Tag where
  key : UInt32
  value : UInt32
deriving DecidableEq, Repr

/-- entities/Node.hpp, Way.hpp, Area.hpp, Relation.hpp. The coordinate type is a parameter: raw bit patterns in the
codecs, numbers in geometry. Members of a relation are shared pointers in the code; here a member is its value. -/
inductive Element (C : Type) where
  | node (id : UInt64) (tags : List Tag) (coord : C)
  | way (id : UInt64) (tags : List Tag) (coords : List C)
  | area (id : UInt64) (tags : List Tag) (coords : List C)
  | relation (id : UInt64) (tags : List Tag) (members : List (Element C))
deriving Repr

mutual
/-- Equality of elements is decidable. -/
def Element.decEq {C : Type} [DecidableEq C] : (a b : Element C) → Decidable (a = b)
  | .node i t c, .node j u d =>
    if h : i = j ∧ t = u ∧ c = d then isTrue (by simp [h]) else isFalse (by simpa using h)
  | .way i t c, .way j u d =>
    if h : i = j ∧ t = u ∧ c = d then isTrue (by simp [h]) else isFalse (by simpa using h)
  | .area i t c, .area j u d =>
    if h : i = j ∧ t = u ∧ c = d then isTrue (by simp [h]) else isFalse (by simpa using h)
  | .relation i t c, .relation j u d =>
    if h : i = j ∧ t = u then
      match Element.decEqList c d with
      | isTrue h2 => isTrue (by simp [h, h2])
      | isFalse h2 => isFalse (by simp [h2])
    else isFalse (by intro hh; injection hh with h1 h2; exact h ⟨h1, h2⟩)
  | .node .., .way .. => isFalse nofun
  | .node .., .area .. => isFalse nofun
  | .node .., .relation .. => isFalse nofun
  | .way .., .node .. => isFalse nofun
  | .way .., .area .. => isFalse nofun
  | .way .., .relation .. => isFalse nofun
  | .area .., .node .. => isFalse nofun
  | .area .., .way .. => isFalse nofun
  | .area .., .relation .. => isFalse nofun
  | .relation .., .node .. => isFalse nofun
  | .relation .., .way .. => isFalse nofun
  | .relation .., .area .. => isFalse nofun

def Element.decEqList {C : Type} [DecidableEq C] : (a b : List (Element C)) → Decidable (a = b)
  | [], [] => isTrue rfl
  | [], _ :: _ => isFalse nofun
  | _ :: _, [] => isFalse nofun
  | x :: xs, y :: ys =>
    match Element.decEq x y, Element.decEqList xs ys with
    | isTrue h1, isTrue h2 => isTrue (by rw [h1, h2])
    | isFalse h1, _ => isFalse (by intro h; injection h with a b; exact h1 a)
    | _, isFalse h2 => isFalse (by intro h; injection h with a b; exact h2 b)
end

instance {C : Type} [DecidableEq C] : DecidableEq (Element C) := Element.decEq

namespace Element
variable {C : Type}

def id : Element C → UInt64
  | node i _ _ => i
  | way i _ _ => i
  | area i _ _ => i
  | relation i _ _ => i

def tags : Element C → List Tag
  | node _ t _ => t
  | way _ t _ => t
  | area _ t _ => t
  | relation _ t _ => t

/-- `element->id = id` -/
def withId (i : UInt64) : Element C → Element C
  | node _ t c => node i t c
  | way _ t c => way i t c
  | area _ t c => area i t c
  | relation _ t m => relation i t m

/-- `element->tags = tags` -/
def withTags (t : List Tag) : Element C → Element C
  | node i _ c => node i t c
  | way i _ c => way i t c
  | area i _ c => area i t c
  | relation i _ m => relation i t m

end Element
end Verif
