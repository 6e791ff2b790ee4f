import Verif.Model.LoadTile
import Verif.Model.PersistentStore

/-! # Stores on disk behind the index

PersistentElementStore (`Verif.PersistentStore`) as a store of GeoStore for elements whose coordinates are numbers: what is saved are the bytes of doubles, what is found are the
doubles with these bytes. After a restart the stores are registered again with their directories.

Simplification: numbers are real numbers everywhere else, so what a double is is a parameter; for numbers which are doubles the one map undoes the other. -/
namespace Verif.DiskImport
open Verif.Clipper (El)
open Verif.Streams (Coord)

/-- What a `double` is, GeoCoordinate.hpp:11-14 and index/ElementStream.cpp:32-41: the eight bytes which are written for a number, and the number which eight bytes mean. -/
structure Doubles where
  bits : ℝ → UInt64
  value : UInt64 → ℝ

mutual
/-- An element with other coordinates. -/
def mapCoords {C C' : Type} (f : C → C') : Element C → Element C'
  | .node i t c => .node i t (f c)
  | .way i t cs => .way i t (cs.map f)
  | .area i t cs => .area i t (cs.map f)
  | .relation i t ms => .relation i t (mapAll f ms)

def mapAll {C C' : Type} (f : C → C') : List (Element C) → List (Element C')
  | [] => []
  | m :: ms => mapCoords f m :: mapAll f ms
end

/-- The element as it is in the memory which is written. -/
def encode (d : Doubles) (e : El) : PersistentStore.El := mapCoords (fun c => (⟨d.bits c.lat, d.bits c.lon⟩ : Coord)) e

/-- The element which was read. -/
def decode (d : Doubles) (e : PersistentStore.El) : El := mapCoords (fun c => (⟨d.value c.lat, d.value c.lon⟩ : Geo ℝ)) e

/-- index/PersistentElementStore.cpp:251-287 as a store of GeoStore.cpp; searches for text are asked with a filter for what was read. -/
def diskIface (d : Doubles) (tokens : PersistentStore.El → List UInt32) (garbage : QuadKey → UInt32) :
    GeoStore.Iface PersistentStore.Store El (BitmapIndex.Terms × (PersistentStore.El → Bool) × List QuadKey) where
  save s q e := PersistentStore.save tokens (garbage q) s q (encode d e)
  hasData := PersistentStore.hasData
  search s q := (PersistentStore.searchTile s q none).bind fun r => .ok (r.1, r.2.map (decode d))
  text s t := (PersistentStore.searchText garbage t.1 t.2.1 s t.2.2).bind fun r => .ok (r.1, r.2.map (decode d))
  erase s q := .ok (PersistentStore.erase s q)
  eraseRange _ := .throw "domain_error"

/-- The stores which are there; their directories remain when the program ends. -/
def disks {K S : Type} (m : GeoStore.Map K S) : List (K × S) := m.filterMap fun e => e.2.map fun s => (e.1, s)

/-- shared/Configuration.hpp:40-44 after a restart: for every directory a new store is registered. The destructors have closed the files. -/
def registrations {K Q : Type} (l : List (K × PersistentStore.Store)) : List (GeoStore.Op K PersistentStore.Store El Q) :=
  l.map fun x => .register x.1 (PersistentStore.flush x.2)

end Verif.DiskImport
