import Verif.Model.TerrainClip
import Mathlib.Data.List.Basic

/-! # The ways of a tile do not disturb each other (C83) -/
namespace Verif.Props
open Verif.Terrain

namespace TerrainClipProof

theorem of_add (c : Clipper) (k k' : PolyType) (ps : List Path) : (c.add k ps).of k' = c.of k' ++ if k = k' then ps else [] := by
  unfold Clipper.of Clipper.add
  simp only [List.filter_append, List.map_append, List.filter_map, List.map_map]
  by_cases h : k = k'
  · subst h
    rw [if_pos rfl]
    simp [Function.comp_def]
  · rw [if_neg h]
    simp [Function.comp_def, h]

theorem of_remove (c : Clipper) (k : PolyType) : c.removeSubject.of k = if k = .clip then c.of .clip else [] := by
  unfold Clipper.of Clipper.removeSubject
  simp only [List.filter_filter]
  cases k with
  | clip => simp
  | subject =>
    rw [if_neg (by decide)]
    have : (c.paths.filter fun p => decide (p.1 = PolyType.subject) && decide (p.1 = PolyType.clip)) = [] := by
      rw [List.filter_eq_nil_iff]
      intro p _ h
      simp only [Bool.and_eq_true, decide_eq_true_eq] at h
      rw [h.1] at h
      exact absurd h.2 (by decide)
    simp [this]

theorem reused (tile : List Path) (solutions : List (List Path)) : ∀ c : Clipper, c.of .subject = [] → c.of .clip = tile →
    intersections c solutions = solutions.map fun s => (s, tile) := by
  induction solutions with
  | nil => intros; rfl
  | cons s rest ih =>
    intro c h1 h2
    simp only [intersections, List.map_cons, of_add, h1, h2, if_true, List.nil_append]
    rw [if_neg (by decide), List.append_nil, ih _ (by rw [of_remove, if_neg (by decide)]) (by rw [of_remove, if_pos rfl, of_add, if_neg (by decide), h2, List.append_nil])]

end TerrainClipProof

/-- C83: although all ways of a tile share a clipper, each one is cut with the rectangle of the tile only, and with no other way. -/
theorem C83_ways_apart (tileRect : Path) (solutions : List (List Path)) : intersections (tileClipper tileRect) solutions = solutions.map fun s => (s, [tileRect]) :=
  TerrainClipProof.reused _ _ _ rfl rfl

/-- Two ways, the second one of two parts. -/
example (p q r tile : Path) : intersections (tileClipper tile) [[p], [q, r]] = [([p], [tile]), ([q, r], [tile])] := C83_ways_apart tile _

end Verif.Props
