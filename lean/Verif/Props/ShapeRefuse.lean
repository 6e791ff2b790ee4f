import Verif.Props.Shape
import Verif.Props.TerrainMesh

/-! # Shapes whose parts decrease are refused (C50); surfaces with unknown extras are refused (C85) -/
namespace Verif.Props

namespace ShapeRefuseProof
open Verif.Shape Verif.ShapeSpec ShapeProof
variable {C : Type}

/-- The loop over vertices behind some parts whose starts are in the table. -/
theorem loop_prefix (o : Object C) (b : Option Nat) (all : List (List C)) (hne : ∀ p ∈ all, p ≠ []) (tail : List C)
    (hstart : ∀ k ≤ all.length, o.partStart[k]? = some (all.take k).flatten.length) (hring : ∀ k < all.length, o.isRing[k]? = some true)
    (before after : List (List C)) (hall : all = before ++ after) (c : Nat) :
    ∃ c', polygonLoop o b before.flatten.length before.length c (before.map fun p => ⟨true, p⟩) (after.flatten ++ tail) =
      polygonLoop o b all.flatten.length all.length c' (all.map fun p => ⟨true, p⟩) tail := by
  induction after generalizing before c with
  | nil => exact ⟨c, by rw [hall]; simp⟩
  | cons p after ih =>
    cases hp : p with
    | nil => exact absurd hp (hne p (by rw [hall]; simp))
    | cons x xs =>
      have hal : all.length = before.length + (after.length + 1) := by rw [hall]; simp
      have hget : readStart o b before.length = .ok before.flatten.length := by
        unfold readStart
        rw [hstart _ (by omega), hall]; simp
      have hlast := hstart all.length (Nat.le_refl _)
      have hlen : all.length < o.partStart.length := by
        by_contra hc
        rw [List.getElem?_eq_none (by omega)] at hlast
        cases hlast
      have hnext : readStart o b (before.length + 1) = .ok (before.flatten.length + 1 + xs.length) := by
        unfold readStart
        rw [hstart _ (by omega), hall, hp]
        simp [List.take_append, List.take_of_length_le]
        omega
      have hs : startPart o b before.flatten.length before.length c (before.map fun p => ⟨true, p⟩) =
          .ok ((before.map fun p => (⟨true, p⟩ : Member C)) ++ [⟨true, []⟩], before.length, before.length + 1) := by
        unfold startPart
        simp only [hget, Outcome.bind]
        rw [if_pos ⟨by omega, by trivial⟩]
        simp only [hring before.length (by omega)]
        rw [if_pos (by simp)]
        have hm := modify_last (before.map fun p => (⟨true, p⟩ : Member C)) ⟨false, []⟩ (fun m => { m with isRing := true })
        rw [List.length_map] at hm
        rw [if_neg (by omega)]
        simp only [hnext]
        rw [if_neg (by omega), hm]
      rw [List.flatten_cons]
      show ∃ c', polygonLoop o b _ _ _ _ (x :: ((xs ++ after.flatten) ++ tail)) = _
      conv in (polygonLoop o b before.flatten.length _ _ _ _) => unfold polygonLoop
      simp only [hs, Outcome.bind]
      rw [if_pos (by simp)]
      have hm := modify_last (before.map fun p => (⟨true, p⟩ : Member C)) ⟨true, []⟩ (fun m => { m with coordinates := m.coordinates ++ [x] })
      rw [List.length_map] at hm
      rw [hm]
      have hi := inner o b xs (after.flatten ++ tail) (before.flatten.length + 1) (before.length + 1) (before.map fun p => ⟨true, p⟩) true [x]
        ⟨_, hnext, fun _ => Nat.le_refl _⟩
      rw [List.length_map] at hi
      simp only [List.nil_append, List.append_assoc]
      rw [hi]
      have := ih (before ++ [p]) (by rw [hall]; simp) before.length
      rw [hp] at this
      simp only [List.flatten_append, List.flatten_cons, List.flatten_nil, List.append_nil, List.length_append, List.length_cons, List.length_nil,
        List.map_append, List.map_cons, List.map_nil] at this
      simp only [List.singleton_append]
      rw [show before.flatten.length + 1 + xs.length = before.flatten.length + (xs.length + 1) by omega]
      exact this

end ShapeRefuseProof

section
open Verif.Shape Verif.ShapeSpec
variable {C : Type}

/-- C50: if behind some parts a part starts whose successor is said to start before it, the shape is refused with an exception, whatever is in the
rest of the table, and nothing behind the table is read. -/
theorem C50_decreasing (parts : List (List C)) (hne : ∀ p ∈ parts, p ≠ []) (x : C) (rest : List C) (next : Nat) (table : List Nat) (rings : List Bool) (r : Bool)
    (hnext : next < parts.flatten.length) (beyond : Option Nat) (tags : List Tag) :
    visitPolygon ⟨parts.flatten ++ x :: rest, starts 0 parts ++ parts.flatten.length :: next :: table, (parts.map fun _ => true) ++ r :: rings⟩ beyond tags =
      .throw "length_error" := by
  set o : Object C := ⟨parts.flatten ++ x :: rest, starts 0 parts ++ parts.flatten.length :: next :: table, (parts.map fun _ => true) ++ r :: rings⟩ with ho
  have hsl : (starts 0 parts).length = parts.length := ShapeProof.starts_length _ _
  have hst : ∀ k ≤ parts.length, o.partStart[k]? = some (parts.take k).flatten.length := by
    intro k hk
    rcases Nat.lt_or_eq_of_le hk with hk | rfl
    · have := ShapeProof.starts_get 0 (parts.take k) parts[k] (parts.drop (k + 1))
      rw [List.getElem_cons_drop, List.take_append_drop, List.length_take, Nat.min_eq_left (by omega)] at this
      rw [ho]
      simp only
      rw [List.getElem?_append_left (by omega), this]
      simp
    · rw [ho]
      simp only
      rw [List.getElem?_append_right (by omega), hsl]
      simp
  have hri : ∀ k < parts.length, o.isRing[k]? = some true := by
    intro k hk
    rw [ho]
    simp only
    rw [List.getElem?_append_left (by simpa using hk)]
    simp [hk]
  obtain ⟨c, h⟩ := ShapeRefuseProof.loop_prefix o beyond parts hne (x :: rest) hst hri [] parts rfl 0
  simp only [List.flatten_nil, List.length_nil, List.map_nil] at h
  have h0 : readStart o beyond parts.length = .ok parts.flatten.length := by
    unfold readStart
    rw [hst _ (Nat.le_refl _)]; simp
  have h1 : readStart o beyond (parts.length + 1) = .ok next := by
    unfold readStart
    rw [ho]
    simp only
    rw [List.getElem?_append_right (by omega), hsl]
    simp
  have h2 : o.isRing[parts.length]? = some r := by
    rw [ho]
    simp
  have h3 : o.partStart.length = parts.length + (table.length + 2) := by rw [ho]; simp [hsl]
  unfold visitPolygon polygonMembers
  rw [show o.vertices = parts.flatten ++ x :: rest from rfl, h, polygonLoop, startPart, h0]
  simp only [Outcome.bind]
  rw [if_pos ⟨by omega, by trivial⟩]
  simp only [h2]
  rw [if_pos (by simp), if_neg (by omega), h1]
  simp only
  rw [if_pos hnext]

/-- Two parts, the third one is said to start in the first one. -/
example : visitPolygon (C := Nat) ⟨[1, 2, 3, 4], [0, 2, 1], [true, true, true]⟩ none [] = .throw "length_error" :=
  C50_decreasing [[1, 2]] (by simp) 3 [4] 1 [] [true] true (by decide) none []

end

section
open Verif.Terrain Verif.TerrainSpec Verif.ShownSpec Verif.MeshSpec TerrainProof ShownProof
open Verif.MeshBuilder (Mesh fillMesh writeTexture)
open Verif.Polygon (Poly)
variable {K : Type} [Field K] [LinearOrder K] [IsStrictOrderedRing K] [FloorRing K]

/-- C85: a surface whose style asks for extras which are not known is refused with an exception, for all polygons and all meshes so far; for the known
names without meshes of their own it is not. -/
theorem C85_unknown_extras (env : Env K) (s : State K) (poly : Poly K) (c : Context K) (hr : InRange c) (n : Nat) (hw : WellFormed s.mesh n)
    (hm : ∃ done rest, Paints s.mesh done rest) :
    (c.extras ∉ ["", "forest", "water"] → addPolygon env s poly c = .throw "out_of_range") ∧
    (c.extras ∈ ["", "water"] → ∃ s', addPolygon env s poly c = .ok s') := by
  have key : ∀ (m : Mesh K) (n : Nat), WellFormed m n → (∃ done rest, Paints m done rest) → ∃ m', writeTexture (fill env c poly m) c.look.texture = .ok m' := by
    intro m n hw hm
    have e : fill env c poly m = fillMesh m (c.triangulate poly) (surfaceAt env c) false := by
      unfold fill
      congr 1
      funext i q
      simp only [surfaceAt, add_comm c.heightOffset]
    obtain ⟨top, h1, h2⟩ := fillMesh_adds hw (c.triangulate poly) (surfaceAt env c) false (hr poly)
    obtain ⟨done, rest, hp⟩ := hm
    obtain ⟨rs, _, _, hm, _⟩ := h1.paints hw hp
    obtain ⟨m', _, h, -⟩ := C44_write _ rs hm c.look.texture
    exact ⟨m', by rw [e]; exact h⟩
  obtain ⟨m1, e1⟩ := key {} 0 empty_wf ⟨[], [], empty_paints⟩
  obtain ⟨m2, e2⟩ := key s.mesh n hw hm
  constructor
  · intro hx
    simp only [List.mem_cons, List.not_mem_nil, or_false, not_or] at hx
    unfold addPolygon
    rw [e1, e2]
    simp only [Outcome.bind, addExtras, if_neg hx.1, if_neg hx.2.1, if_neg hx.2.2]
    split <;> rfl
  · intro hx
    simp only [List.mem_cons, List.not_mem_nil, or_false] at hx
    unfold addPolygon
    rw [e1, e2]
    rcases hx with hx | hx <;> simp only [Outcome.bind, addExtras, hx] <;> split <;> simp

/-- The empty mesh, with which the generator starts, meets the hypotheses. -/
example : (∃ n, WellFormed ({} : State K).mesh n) ∧ ∃ done rest, Paints ({} : State K).mesh done rest := ⟨⟨0, empty_wf⟩, [], [], empty_paints⟩

end
end Verif.Props
