import Verif.Model.Tiles

/-! Specification vocabulary for tiles (C09-C11). -/
namespace Verif.TilesSpec

/-- A tile that exists on the map: `0 ≤ lod` and both indices inside `[0, 2^lod)`. -/
def Valid (q : QuadKey) : Prop :=
  0 ≤ q.lod ∧ 0 ≤ q.x ∧ q.x < 2 ^ q.lod.toNat ∧ 0 ≤ q.y ∧ q.y < 2 ^ q.lod.toNat

/-- An extension starts with a dot and contains no path separator. -/
def Extension (e : List Char) : Prop := (∃ t, e = '.' :: t) ∧ '/' ∉ e

/-- The lexicographic order on (lod, x, y), on mathematical integers. -/
def Before (l r : QuadKey) : Prop :=
  l.lod < r.lod ∨ l.lod = r.lod ∧ (l.x < r.x ∨ l.x = r.x ∧ l.y < r.y)

end Verif.TilesSpec
