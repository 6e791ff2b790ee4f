import Verif.Model.Osm
import Mathlib.Algebra.BigOperators.Group.List.Basic

/-! Specification of OSM nodes, ways and tags (C34, C37). -/
namespace Verif.OsmSpec
open Verif.Osm

variable {K : Type} [Field K] [LinearOrder K] [IsStrictOrderedRing K]

/-- Twice the signed area of the polygon with these corners (x is the longitude), positive if counter-clockwise: the shoelace formula
over each corner and its successor. -/
def doubleArea (l : List (Geo K)) : K :=
  (List.zipWith (fun p q => p.lon * q.lat - q.lon * p.lat) l (l.tail ++ l.take 1)).sum

/-- Two points which count as one. -/
def Coincide (eps : K) (a b : Geo K) : Prop := |a.lat - b.lat| < eps ∧ |a.lon - b.lon| < eps

/-- What `std::sort` by key gives. -/
def Sorts (sort : List Tag → List Tag) : Prop := ∀ l, (sort l).Perm l ∧ (sort l).Pairwise (fun a b => a.key ≤ b.key)

/-- The tags of the input, in any order, sorted by key. -/
def TagsOf (getId : String → UInt32) (raw : List RawTag) (tags : List Tag) : Prop :=
  tags.Perm (raw.map fun t => ⟨getId t.key, getId t.value⟩) ∧ tags.Pairwise (fun a b => a.key ≤ b.key)

end Verif.OsmSpec
