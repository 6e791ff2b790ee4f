import Verif.Model.Tiles
import Verif.Model.Bytes
import Verif.Model.Element

/-!
Specification for element stores: a history of calls and, for every tile, the list of elements it holds; and for text
queries: words of a text.
-/
namespace Verif.Props.StoreSpec

/-- What happens to a store. -/
inductive Event (E : Type)
  | saved (q : QuadKey) (e : E)
  | erased (q : QuadKey)

/-- The elements a tile must hold after a history: those saved there since it was last erased, oldest first. The newest
event comes first in the history. -/
def holds {E : Type} (q : QuadKey) : List (Event E) → List E
  | [] => []
  | .saved q' e :: h => if q' = q then holds q h ++ [e] else holds q h
  | .erased q' :: h => if q' = q then [] else holds q h

/-- The characters between words. -/
def IsSep (c : UInt8) : Prop := c ∈ " _:;!@#$%^&*(){}[],.?`\\/\"'".toList.map fun c => c.val.toUInt8

/-- `w` is a word of the text `s`: a non-empty piece without separators, bounded by separators or the ends of the text. -/
def IsWord (s w : Bytes) : Prop :=
  w ≠ [] ∧ (∀ c ∈ w, ¬ IsSep c) ∧ ∃ a b, s = a ++ w ++ b ∧
    (∀ c, a.getLast? = some c → IsSep c) ∧ (∀ c, b.head? = some c → IsSep c)

/-- `w` is a word of a tag of the element. -/
def HasWord {C : Type} (str : UInt32 → Bytes) (e : Element C) (w : Bytes) : Prop :=
  ∃ t ∈ e.tags, IsWord (str t.key) w ∨ IsWord (str t.value) w

/-- A text query (BitmapIndex.hpp:24-30). -/
structure TextQuery where
  not : Bytes
  and : Bytes
  or : Bytes

/-- Its meaning: some or-word (if there are any), every and-word, no not-word. -/
def TextQuery.Matches {C : Type} (q : TextQuery) (str : UInt32 → Bytes) (e : Element C) : Prop :=
  ((∃ w, IsWord q.or w) → ∃ w, IsWord q.or w ∧ HasWord str e w) ∧
  (∀ w, IsWord q.and w → HasWord str e w) ∧ ∀ w, IsWord q.not w → ¬ HasWord str e w

end Verif.Props.StoreSpec
