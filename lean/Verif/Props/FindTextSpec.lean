import Verif.Model.FindText
import Verif.Props.ImportSpec
import Verif.Props.StoreSpec

/-! # Specification of text search over all stores (C102) -/
namespace Verif.FindTextSpec
open Verif.Clipper (El)
open Verif.BitmapIndex (Strings)
open Verif.BboxSpec Verif.MercatorSpec Verif.TilesSpec Verif.ElementStoreSpec
open Verif.Props.StoreSpec (IsWord HasWord TextQuery)

/-- The tiles of these levels which own a point of the box, each once. -/
def TilesIn (b : Bbox ℝ) (r : LodRange) (tiles : List QuadKey) : Prop :=
  tiles.Nodup ∧ ∀ t, t ∈ tiles ↔ (r.start ≤ t.lod ∧ t.lod ≤ r.stop) ∧ Valid t ∧ ∃ p, In b p ∧ Owns t p

open Classical in
/-- Of what is shown in these tiles, the elements which match the query and whose box has a point in the box. -/
noncomputable def expected (str : UInt32 → Bytes) (q : TextQuery) (b : Bbox ℝ) (tiles : List QuadKey) (shown : QuadKey → List El) : List El :=
  tiles.flatMap fun t => (shown t).filter fun e => decide (q.Matches str e ∧ MeetsBox e b)

/-- A word of the query and a word of the element have the same number only if they are the same (C02: this is what the string table is for). -/
def Apart (st : Strings) (q : TextQuery) (e : El) : Prop :=
  ∀ w w', (IsWord q.not w ∨ IsWord q.and w ∨ IsWord q.or w) → HasWord st.str e w' → st.id w = st.id w' → w = w'

/-- The query has words to search for, which are all or-words or all and-words. -/
def Simple (q : TextQuery) : Prop := ((∃ w, IsWord q.or w) ∨ ∃ w, IsWord q.and w) ∧ ¬ ((∃ w, IsWord q.or w) ∧ ∃ w, IsWord q.and w)

/-- The box and the levels exist. -/
def Sensible (b : Bbox ℝ) (r : LodRange) : Prop := b.isValid = true ∧ 0 ≤ r.start ∧ r.stop ≤ 19

end Verif.FindTextSpec
