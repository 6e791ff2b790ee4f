import Verif.Model.DiskImport
import Verif.Props.PersistentSpec
import Verif.Props.LoadTileSpec
import Verif.Props.GeoStoreSpec

/-! # Specification of stores on disk (C100)

What is in a store on disk, told from the calls it got since its directory was empty. -/
namespace Verif.DiskImportSpec
open Verif.Clipper (El)
open Verif.DiskImport
open Verif.Props.StoreSpec (Event holds)
open Verif.Props.PersistentSpec
open Verif.PersistentStore (Op)

/-- All coordinates of the element are doubles. -/
def Exact (d : Doubles) (e : El) : Prop := ∀ p ∈ ClipperSpec.points e, d.value (d.bits p.lat) = p.lat ∧ d.value (d.bits p.lon) = p.lon

/-- What happened in a sequence of calls. -/
def events (ops : List ((QuadKey → UInt32) × Op)) : List (Event PersistentStore.El) := ops.foldl (fun h p => record h p.2) []

/-- The element can be written: doubles, all counts below 65536, and no word of it has a number which is `bad`. -/
structure Storable (d : Doubles) (tokens : PersistentStore.El → List UInt32) (bad : UInt32 → Prop) (e : El) : Prop where
  exact : Exact d e
  fits : StreamsSpec.Fits (encode d e)
  words : ∀ u ∈ tokens (encode d e), ¬ bad u

/-- The size of the data file for these elements. -/
def size (d : Doubles) (l : List El) : Nat := bytes (l.map (encode d))

/-- The store was made on an empty directory and used since then, with restarts, but not searched for text; since they were last erased, the tiles `q` got the elements `c q`.
`bad` are the numbers which memory that is not set may hold (C16). -/
def Holds (d : Doubles) (tokens : PersistentStore.El → List UInt32) (bad : UInt32 → Prop) (s : PersistentStore.Store) (c : QuadKey → List El) : Prop :=
  ∃ ops : List ((QuadKey → UInt32) × Op), (∀ p ∈ ops, ∀ q, bad (p.1 q)) ∧ (∀ q e, .save q e ∈ ops.map (·.2) → ∀ u ∈ tokens e, ¬ bad u) ∧ AllPlain [] (ops.map (·.2)) ∧
    s = (PersistentStore.run tokens PersistentStore.init ops).1 ∧ ∀ q, (∀ e ∈ c q, Exact d e) ∧ holds q (events ops) = (c q).map (encode d)

end Verif.DiskImportSpec
