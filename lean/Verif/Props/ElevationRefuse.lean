import Verif.Props.LazyTable
import Verif.Props.Elevation

/-! # Missing and damaged files of heights are reported (C40, C41, C108) -/
namespace Verif.Props
open Verif.Elevation Verif.LazyTable

variable {K : Type} [Field K] [LinearOrder K] [IsStrictOrderedRing K] [FloorRing K]

namespace ElevationRefuseProof

/-- There is no file, or it does not have the size of a cell of 1201 or 3601 rows of two bytes. -/
def Bad (file : Option (List UInt8)) : Prop := ∀ data, file = some data → data.length ≠ 2884802 ∧ data.length ≠ 25934402

theorem readCell_bad {file : Option (List UInt8)} (h : Bad file) : readCell file = .throw "domain_error" := by
  unfold readCell
  split
  · rfl
  · obtain ⟨h1, h2⟩ := h _ rfl
    rw [if_neg (by omega), if_neg (by omega)]

theorem readCell_total (file : Option (List UInt8)) : (∃ c, readCell file = .ok c) ∨ readCell file = .throw "domain_error" := by
  unfold readCell
  split
  · exact .inr rfl
  · split
    · exact .inl ⟨_, rfl⟩
    · split
      · exact .inl ⟨_, rfl⟩
      · exact .inr rfl

theorem loadCells_bad {file : FileName → Option (List UInt8)} {k : Key} (hb : Bad (file (fileName k))) (ks : List Key) (hk : k ∈ ks) : ∀ cells : Assoc Key Cell, cells.find k = none →
    loadCells file ks cells = .throw "domain_error" := by
  induction ks with
  | nil => cases hk
  | cons j ks ih =>
    intro cells hn
    unfold loadCells
    by_cases hj : j = k
    · subst hj
      rw [hn]
      simp only [readCell_bad hb, Outcome.bind]
    · have hk' : k ∈ ks := (List.mem_cons.1 hk).resolve_left fun e => hj e.symm
      cases hf : cells.find j with
      | some c => exact ih hk' cells hn
      | none =>
        rcases readCell_total (file (fileName j)) with ⟨c, hc⟩ | hc
        · simp only [hc, Outcome.bind]
          refine ih hk' _ ?_
          simp only [Assoc.emplace, hf, Assoc.find]
          rw [if_neg hj]
          exact hn
        · simp only [hc, Outcome.bind]

end ElevationRefuseProof
open ElevationRefuseProof

omit [IsStrictOrderedRing K] in
/-- C41: if the file of a cell of the tile is missing or does not have the size of a cell, no height is given, but an exception is thrown. Files of cells which are in memory are not looked at. -/
theorem C41_refused (signed : Bool) (file : FileName → Option (List UInt8)) (cells : Assoc Key Cell) (minLat minLon maxLat maxLon lat lon : K)
    (hn : cells.find (trunc lat, trunc lon) = none) {k : Key} (hk : k ∈ cellKeys minLat minLon maxLat maxLon) (hm : cells.find k = none)
    (hb : ∀ data, file (fileName k) = some data → data.length ≠ 1201 * 1201 * 2 ∧ data.length ≠ 3601 * 3601 * 2) :
    getSrtm signed file cells minLat minLon maxLat maxLon lat lon = .throw "domain_error" := by
  unfold getSrtm
  simp only [hn, loadCells_bad (file := file) (k := k) (fun d hd => by have := hb d hd; omega) _ hk cells hm, Outcome.bind]

/-- C40, C108: a thread which asks for a height in a tile without file gets an exception, another one if the file has no heights, however the other threads are scheduled. -/
theorem C108_refused {Q : Type} [DecidableEq Q] (files : Q → Option (List Int)) (box : Q → (K × K) × (K × K)) (progs : Nat → List Q) (ts : List Nat) (t : Nat) (q : Q)
    (o : Outcome EleData) (ho : (q, o) ∈ ((run false (loadGrid files box) (start [] progs) ts).threads t).done) :
    (files q = none → o = .throw "invalid_argument") ∧ (files q = some [] → o = .throw "domain_error") := by
  obtain ⟨n, hn⟩ := (C108_answers_partial false (loadGrid files box) [] (by intro k v e; cases e) progs ts []).1 t
  rw [hn] at ho
  obtain ⟨q', hq', he⟩ := List.mem_map.1 ho
  simp only [Prod.mk.injEq] at he
  obtain ⟨rfl, rfl⟩ := he
  constructor
  · intro h; simp only [loadGrid, h]
  · intro h; simp only [loadGrid, h, Elevation.load, List.isEmpty_nil, if_true]

/-- The next cell in the east is missing. -/
example : getSrtm true (fun f => if f = ⟨'N', 52, 'E', 14⟩ then none else some (List.replicate (1201 * 1201 * 2) 0)) [] (52 : ℚ) 13 53 14 (105 / 2) (27 / 2) = .throw "domain_error" := by
  refine C41_refused true _ [] 52 13 53 14 (105 / 2) (27 / 2) rfl (k := (52, 14)) ?_ rfl ?_
  · have := ElevationProof.mem_cellKeys (K := ℚ) (minLat := 52) (minLon := 13) (maxLat := 53) (maxLon := 14) (lat := 52) (lon := 14) (by norm_num) (by norm_num) (by norm_num) (by norm_num)
    have h : (trunc (52 : ℚ), trunc (14 : ℚ)) = ((52, 14) : Key) := by decide +kernel
    rwa [h] at this
  · intro data h
    rw [if_pos (by decide)] at h
    cases h

/-- A thread asks for tiles without file and without heights. -/
example : ((run false (loadGrid (fun q : Nat => if q = 0 then none else some []) fun _ => (((0 : ℚ), 0), (1, 1))) (start [] fun _ => [0, 1]) (List.replicate 20 0)).threads 0).done =
    [(0, .throw "invalid_argument"), (1, .throw "domain_error")] := by rfl

end Verif.Props
