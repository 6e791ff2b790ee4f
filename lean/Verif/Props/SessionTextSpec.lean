import Verif.Model.SessionText
import Verif.Props.SessionSpec
import Verif.Props.FindTextSpec

/-! # Specification of searches for words and questions for data through the C API (C110) -/
namespace Verif.SessionTextSpec
open Verif.Clipper (El)
open Verif.Session (World State)
open Verif.Api (Exported)
open Verif.SessionSpec (places)
open Verif.SessionText (Query)

variable {A L D K S : Type}

/-- What the callback is told of an element which was found by words: id, the texts of tags, longitude and latitude of its places with the height zero, and no style. -/
def told (w : World A L D S Query) (e : El) : Exported ℝ where
  id := e.id
  tags := e.tags.flatMap fun t => [String.ofList (w.strings.getString t.key), String.ofList (w.strings.getString t.value)]
  vertices := (places e).flatMap fun c => [c.lon, c.lat, 0]
  style := []

/-- A search in a tile answers with this element among others. -/
def Shows [LinearOrder K] (w : World A L D S Query) (st : State K S) (t : QuadKey) (e : El) : Prop :=
  ∃ l, (GeoStore.step w.iface st.stores (.tile t)).2 = .elements l ∧ e ∈ l

open Verif.Props.StoreSpec (IsWord TextQuery)

/-- A word of the texts of the tags. -/
def HasText (bytes : String → Bytes) (tags : List (String × String)) (x : Bytes) : Prop := ∃ t ∈ tags, IsWord (bytes t.1) x ∨ IsWord (bytes t.2) x

/-- The texts of the tags match the query: some or-word (if there are any), every and-word, no not-word. -/
def Match (bytes : String → Bytes) (q : TextQuery) (tags : List (String × String)) : Prop :=
  ((∃ x, IsWord q.or x) → ∃ x, IsWord q.or x ∧ HasText bytes tags x) ∧ (∀ x, IsWord q.and x → HasText bytes tags x) ∧ ∀ x, IsWord q.not x → ¬ HasText bytes tags x

end Verif.SessionTextSpec
