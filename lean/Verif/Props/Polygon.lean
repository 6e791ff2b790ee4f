import Mathlib.Tactic.Ring
import Mathlib.Tactic.Linarith
import Mathlib.Tactic.NormNum
import Mathlib.Algebra.Order.Ring.Abs
import Mathlib.Algebra.Order.Field.Rat
import Verif.Props.PolygonSpec

/-! # C45, C46 and C64: polygons and rectangles -/
namespace Verif.Props
open Verif.Polygon Verif.PolygonSpec

namespace PolygonProof
variable {K : Type} [Field K] [LinearOrder K]

theorem addPoints_eq (offset count : Nat) (i : Nat) (p : Poly K) (vs : List (Vec K)) :
    addPoints offset count i p vs = { p with
      rectangle := p.rectangle.expandAll vs
      points := p.points ++ vs.flatMap (fun v => [v.x, v.y])
      segments := p.segments ++ (List.range' i vs.length).flatMap (fun j => [((offset + j : Nat) : Int), ((offset + (j + 1) % count : Nat) : Int)]) } := by
  induction vs generalizing i p with
  | nil => simp [addPoints, Rect.expandAll]
  | cons v vs ih =>
    unfold addPoints
    rw [ih]
    simp [Rect.expandAll, List.range'_succ]

theorem pairs_get {β γ : Type} (f g : β → γ) (l : List β) (i : Nat) (b : β) (h : l[i]? = some b) :
    (l.flatMap fun b => [f b, g b])[2 * i]? = some (f b) ∧ (l.flatMap fun b => [f b, g b])[2 * i + 1]? = some (g b) := by
  induction l generalizing i with
  | nil => simp at h
  | cons a l ih =>
    cases i with
    | zero => simp at h; subst h; simp
    | succ i =>
      simp only [List.getElem?_cons_succ] at h
      obtain ⟨h1, h2⟩ := ih i h
      have e1 : 2 * (i + 1) = 2 * i + 1 + 1 := by omega
      have e2 : 2 * (i + 1) + 1 = 2 * i + 1 + 1 + 1 := by omega
      rw [List.flatMap_cons, e1]
      exact ⟨h1, h2⟩

theorem pairs_length {β γ : Type} (f g : β → γ) (l : List β) : (l.flatMap fun b => [f b, g b]).length = 2 * l.length := by
  induction l with
  | nil => rfl
  | cons a l ih => rw [List.flatMap_cons, List.length_append, ih]; simp only [List.length_cons, List.length_nil]; omega

theorem stored_mono {p p' : Poly K} (c : List (Vec K)) (r : Nat × Nat) (hseg : ∃ t, p'.segments = p.segments ++ t)
    (hpts : ∃ t, p'.points = p.points ++ t) (hlen : p.segments.length = p.points.length) (h : Stored p c r) : Stored p' c r := by
  obtain ⟨lo, rfl, h2, h3, h4⟩ := h
  obtain ⟨t, ht⟩ := hseg
  obtain ⟨u, hu⟩ := hpts
  have mono : ∀ {γ : Type} (l t : List γ) (i : Nat) (x : γ), l[i]? = some x → (l ++ t)[i]? = some x := by
    intro γ l t i x hx
    rw [List.getElem?_append_left]
    · exact hx
    · by_contra hc
      rw [List.getElem?_eq_none (by omega)] at hx; cases hx
  refine ⟨lo, rfl, ?_, ?_, ?_⟩
  · rw [hu, List.length_append]; omega
  · intro i hi hi2
    obtain ⟨a, b⟩ := h3 i hi hi2
    rw [ht]
    exact ⟨mono _ _ _ _ a, mono _ _ _ _ b⟩
  · intro i v hv
    obtain ⟨a, b⟩ := h4 i v hv
    rw [hu]
    exact ⟨mono _ _ _ _ a, mono _ _ _ _ b⟩

structure Inv (p : Poly K) (outs ins : List (List (Vec K))) : Prop where
  len : p.segments.length = p.points.length
  even : 2 ∣ p.points.length
  outers : List.Forall₂ (Stored p) outs p.outers
  inners : List.Forall₂ (Stored p) ins p.inners
  holes : p.holes.length = 2 * p.inners.length
  unique : ∀ i, 2 * i < p.points.length → ∃ r ∈ p.outers ++ p.inners, (r.1 ≤ 2 * i ∧ 2 * i < r.2) ∧
    ∀ r' ∈ p.outers ++ p.inners, r'.1 ≤ 2 * i → 2 * i < r'.2 → r' = r

theorem near_opened (epsilon : K) (contour : List (Vec K)) (first last : Vec K) (h1 : contour.head? = some first) (h2 : contour.getLast? = some last) :
    contour.take (if first.near epsilon last then contour.length - 1 else contour.length) = opened epsilon contour ∧
    (opened epsilon contour).length = if first.near epsilon last then contour.length - 1 else contour.length := by
  unfold opened
  rw [h1, h2]
  by_cases h : |first.x - last.x| < epsilon ∧ |first.y - last.y| < epsilon
  · have hn : first.near epsilon last = true := by simp [Vec.near, h]
    simp only [hn, if_true, if_pos h]
    exact ⟨List.dropLast_eq_take.symm, by simp⟩
  · have hn : first.near epsilon last = false := by
      simp only [Vec.near, Bool.and_eq_false_iff, decide_eq_false_iff_not]
      by_contra hc; push_neg at hc; exact h hc
    simp only [hn, Bool.false_eq_true, if_false, if_neg h]
    exact ⟨List.take_length, trivial⟩

/-- The new range is stored, and every old one still is. -/
theorem fill_inv {p : Poly K} {outs ins : List (List (Vec K))} (h : Inv p outs ins) (c : List (Vec K)) (q : Poly K) (hq : q.points = p.points)
    (hs : q.segments = p.segments) :
    let p' := addPoints (q.segments.length / 2) c.length 0 q c
    p'.outers = q.outers ∧ p'.inners = q.inners ∧ p'.holes = q.holes ∧
    (∀ d r, Stored p d r → Stored p' d r) ∧ Stored p' c (p.points.length, p.points.length + c.length * 2) ∧
    p'.segments.length = p'.points.length ∧ p'.points.length = p.points.length + 2 * c.length := by
  have hlen := h.len
  obtain ⟨lo, hlo⟩ := h.even
  simp only
  rw [addPoints_eq]
  have hoff : p.segments.length / 2 = lo := by rw [hlen]; omega
  refine ⟨rfl, rfl, rfl, ?_, ?_, ?_, ?_⟩
  · intro d r hd
    exact stored_mono d r ⟨_, by simp only; rw [hs]⟩ ⟨_, by simp only; rw [hq]⟩ hlen hd
  · refine ⟨lo, ?_, ?_, ?_, ?_⟩
    · rw [hlo]; congr 1; omega
    · simp only [List.length_append, pairs_length, hq]; omega
    · intro i hi hi2
      simp only [hs, hoff]
      obtain ⟨j, rfl⟩ : ∃ j, i = lo + j := ⟨i - lo, by omega⟩
      have hj : j < c.length := by omega
      have hr : (List.range' 0 c.length)[j]? = some j := by simp [hj]
      obtain ⟨a, b⟩ := pairs_get (fun j => ((lo + j : Nat) : Int)) (fun j => ((lo + (j + 1) % c.length : Nat) : Int)) _ _ _ hr
      have e1 : 2 * (lo + j) = p.segments.length + 2 * j := by rw [hlen]; omega
      have e2 : 2 * (lo + j) + 1 = p.segments.length + (2 * j + 1) := by rw [hlen]; omega
      rw [e2, e1, List.getElem?_append_right (by omega), List.getElem?_append_right (by omega), Nat.add_sub_cancel_left, Nat.add_sub_cancel_left]
      refine ⟨a, b.trans ?_⟩
      congr 1
      by_cases hj2 : j + 1 = c.length
      · rw [if_pos (by omega), hj2, Nat.mod_self, Nat.add_zero]
      · rw [if_neg (by omega), Nat.mod_eq_of_lt (by omega)]; push_cast; rfl
    · intro i v hv
      simp only [hq]
      obtain ⟨a, b⟩ := pairs_get (fun v : Vec K => v.x) (fun v => v.y) c i v hv
      have e1 : 2 * (lo + i) = p.points.length + 2 * i := by omega
      have e2 : 2 * (lo + i) + 1 = p.points.length + (2 * i + 1) := by omega
      rw [e2, e1, List.getElem?_append_right (by omega), List.getElem?_append_right (by omega), Nat.add_sub_cancel_left, Nat.add_sub_cancel_left]
      exact ⟨a, b⟩
  · simp only [List.length_append, pairs_length, hq, hs, hlen, List.length_range']
  · simp only [List.length_append, pairs_length, hq]

theorem forall2_snd_le {p : Poly K} {cs : List (List (Vec K))} {rs : List (Nat × Nat)} (h : List.Forall₂ (Stored p) cs rs) :
    ∀ r ∈ rs, r.2 ≤ p.points.length := by
  induction h with
  | nil => simp
  | cons h _ ih =>
    intro r hr
    rcases List.mem_cons.1 hr with rfl | hr
    · obtain ⟨lo, h1, h2, -⟩ := h; exact h2
    · exact ih r hr

theorem unique_step {rs rs' : List (Nat × Nat)} {n k : Nat} (h2 : 2 ∣ n) (hle : ∀ r ∈ rs, r.2 ≤ n)
    (hu : ∀ i, 2 * i < n → ∃ r ∈ rs, (r.1 ≤ 2 * i ∧ 2 * i < r.2) ∧ ∀ r' ∈ rs, r'.1 ≤ 2 * i → 2 * i < r'.2 → r' = r)
    (hm : ∀ r, r ∈ rs' ↔ r ∈ rs ∨ r = (n, n + k * 2)) :
    ∀ i, 2 * i < n + 2 * k → ∃ r ∈ rs', (r.1 ≤ 2 * i ∧ 2 * i < r.2) ∧ ∀ r' ∈ rs', r'.1 ≤ 2 * i → 2 * i < r'.2 → r' = r := by
  intro i hi
  by_cases hn : 2 * i < n
  · obtain ⟨r, hr, hc, hun⟩ := hu i hn
    refine ⟨r, (hm r).2 (.inl hr), hc, ?_⟩
    intro r' hr' a b
    rcases (hm r').1 hr' with h | rfl
    · exact hun r' h a b
    · simp only at a; omega
  · refine ⟨(n, n + k * 2), (hm _).2 (.inr rfl), ⟨by simp only; omega, by simp only; omega⟩, ?_⟩
    intro r' hr' a b
    rcases (hm r').1 hr' with h | rfl
    · have := hle r' h; omega
    · rfl

theorem addContour_inv (epsilon huge tiny : K) {p : Poly K} {outs ins : List (List (Vec K))} (h : Inv p outs ins) (contour : List (Vec K))
    (hne : contour ≠ []) (isHole : Bool) :
    ∃ p', addContour epsilon huge tiny p contour isHole = .ok p' ∧
      (isHole = false → Inv p' (outs ++ [opened epsilon contour]) ins) ∧
      (isHole = true → Inv p' outs (ins ++ [opened epsilon contour]) ∨ Inv p' outs ins) := by
  obtain ⟨first, hf⟩ : ∃ first, contour.head? = some first := by cases contour with | nil => exact absurd rfl hne | cons a l => exact ⟨a, rfl⟩
  obtain ⟨last, hl⟩ : ∃ last, contour.getLast? = some last := ⟨contour.getLast hne, List.getLast?_eq_some_getLast hne⟩
  obtain ⟨n1, n2⟩ := near_opened epsilon contour first last hf hl
  unfold addContour
  rw [hf, hl]
  have n3 : contour.take (opened epsilon contour).length = opened epsilon contour := by rw [n2]; exact n1
  simp only [← n2, n3]
  clear n1 n2 n3
  generalize opened epsilon contour = c
  have hle : ∀ r ∈ p.outers ++ p.inners, r.2 ≤ p.points.length := by
    intro r hr
    rcases List.mem_append.1 hr with hr | hr
    · exact forall2_snd_le h.outers r hr
    · exact forall2_snd_le h.inners r hr
  cases isHole with
  | false =>
    simp only [Bool.false_eq_true, if_false]
    refine ⟨_, rfl, fun _ => ?_, fun hc => by cases hc⟩
    obtain ⟨a1, a2, a3, a4, a5, a6, a7⟩ := fill_inv h c { p with outers := p.outers ++ [(p.points.length, p.points.length + c.length * 2)] } rfl rfl
    refine ⟨a6, ?_, ?_, ?_, ?_, ?_⟩
    · rw [a7]; exact Nat.dvd_add h.even ⟨_, rfl⟩
    · rw [a1]; exact List.rel_append (h.outers.imp fun _ _ hx => a4 _ _ hx) (List.Forall₂.cons a5 List.Forall₂.nil)
    · rw [a2]; exact h.inners.imp fun _ _ hx => a4 _ _ hx
    · rw [a3, a2]; exact h.holes
    · rw [a7, a1, a2]
      apply unique_step h.even hle h.unique
      intro r; simp only [List.mem_append, List.mem_singleton]; tauto
  | true =>
    simp only [if_true]
    cases findPointInPolygon huge tiny contour with
    | none => exact ⟨p, rfl, fun hc => by (cases hc), fun _ => .inr h⟩
    | some inside =>
      refine ⟨_, rfl, fun hc => by (cases hc), fun _ => .inl ?_⟩
      obtain ⟨a1, a2, a3, a4, a5, a6, a7⟩ := fill_inv h c
        { p with holes := p.holes ++ [inside.x, inside.y], inners := p.inners ++ [(p.points.length, p.points.length + c.length * 2)] } rfl rfl
      refine ⟨a6, ?_, ?_, ?_, ?_, ?_⟩
      · rw [a7]; exact Nat.dvd_add h.even ⟨_, rfl⟩
      · rw [a1]; exact h.outers.imp fun _ _ hx => a4 _ _ hx
      · rw [a2]; exact List.rel_append (h.inners.imp fun _ _ hx => a4 _ _ hx) (List.Forall₂.cons a5 List.Forall₂.nil)
      · rw [a3, a2]
        simp only [List.length_append, List.length_cons, List.length_nil, h.holes]; omega
      · rw [a7, a1, a2]
        apply unique_step h.even hle h.unique
        intro r; simp only [List.mem_append, List.mem_singleton]; tauto

end PolygonProof

open PolygonProof
variable {K : Type} [Field K] [LinearOrder K]

/-- C45: after adding any non-empty contours and holes, every outer contour is stored in order, without its repeated closing point, as one
closed cycle; the same holds for the holes except for those for which no interior point was found (these are left out), each stored hole
has a marker; and every point belongs to exactly one contour. Partial: contours without points are excluded, see `C45_violated_empty`. -/
theorem C45_closed_partial (epsilon huge tiny : K) (cs : List (List (Vec K) × Bool)) (hne : ∀ c ∈ cs, c.1 ≠ []) :
    ∃ p kept, addAll epsilon huge tiny { rectangle := .empty huge tiny } cs = .ok p ∧
      List.Forall₂ (Stored p) ((cs.filter fun c => !c.2).map fun c => opened epsilon c.1) p.outers ∧
      kept.Sublist ((cs.filter fun c => c.2).map fun c => opened epsilon c.1) ∧ List.Forall₂ (Stored p) kept p.inners ∧
      p.holes.length = 2 * p.inners.length ∧ p.segments.length = p.points.length ∧
      ∀ i, 2 * i < p.points.length → ∃ r ∈ p.outers ++ p.inners, (r.1 ≤ 2 * i ∧ 2 * i < r.2) ∧
        ∀ r' ∈ p.outers ++ p.inners, r'.1 ≤ 2 * i → 2 * i < r'.2 → r' = r := by
  have gen : ∀ (cs : List (List (Vec K) × Bool)) (p : Poly K) (outs ins : List (List (Vec K))), (∀ c ∈ cs, c.1 ≠ []) → Inv p outs ins →
      ∃ p' kept, addAll epsilon huge tiny p cs = .ok p' ∧ kept.Sublist ((cs.filter fun c => c.2).map fun c => opened epsilon c.1) ∧
        Inv p' (outs ++ (cs.filter fun c => !c.2).map fun c => opened epsilon c.1) (ins ++ kept) := by
    intro cs
    induction cs with
    | nil => intro p outs ins _ h; exact ⟨p, [], rfl, List.Sublist.slnil, by simpa using h⟩
    | cons c cs ih =>
      intro p outs ins hne h
      obtain ⟨contour, isHole⟩ := c
      obtain ⟨p1, e1, e2, e3⟩ := addContour_inv epsilon huge tiny h contour (hne (contour, isHole) (by simp)) isHole
      have hne' : ∀ c ∈ cs, c.1 ≠ [] := fun c hc => hne c (by simp [hc])
      have step : ∀ p', addAll epsilon huge tiny p1 cs = .ok p' → addAll epsilon huge tiny p ((contour, isHole) :: cs) = .ok p' := by
        intro p' hp'
        unfold addAll
        rw [e1]; exact hp'
      cases isHole with
      | false =>
        obtain ⟨p', kept, f1, f2, f3⟩ := ih p1 _ _ hne' (e2 rfl)
        refine ⟨p', kept, step p' f1, by simpa using f2, ?_⟩
        simpa using f3
      | true =>
        rcases e3 rfl with e3 | e3
        · obtain ⟨p', kept, f1, f2, f3⟩ := ih p1 _ _ hne' e3
          refine ⟨p', opened epsilon contour :: kept, step p' f1, ?_, ?_⟩
          · simpa using f2
          · simpa using f3
        · obtain ⟨p', kept, f1, f2, f3⟩ := ih p1 _ _ hne' e3
          refine ⟨p', kept, step p' f1, ?_, ?_⟩
          · simpa using List.Sublist.cons _ f2
          · simpa using f3
  obtain ⟨p, kept, h1, h2, h3⟩ := gen cs { rectangle := .empty huge tiny } [] [] hne
    ⟨rfl, ⟨0, rfl⟩, List.Forall₂.nil, List.Forall₂.nil, rfl, by intro i hi; simp at hi⟩
  exact ⟨p, kept, h1, by simpa using h3.outers, h2, by simpa using h3.inners, h3.holes, h3.len, h3.unique⟩

/-- A contour without points is undefined behaviour. -/
theorem C45_violated_empty (epsilon huge tiny : K) (p : Poly K) (isHole : Bool) :
    addContour epsilon huge tiny p [] isHole = .ub "index out of range" := rfl

/-- A closed square with a triangular hole: both are stored, 4 and 3 points. -/
example : ∃ p, addAll (1 / 1000 : ℚ) 1000 (1 / 1000) { rectangle := .empty 1000 (1 / 1000) }
    [([⟨0, 0⟩, ⟨9, 0⟩, ⟨9, 9⟩, ⟨0, 9⟩, ⟨0, 0⟩], false), ([⟨1, 1⟩, ⟨1, 2⟩, ⟨2, 1⟩], true)] = .ok p ∧
    p.outers = [(0, 8)] ∧ p.inners = [(8, 14)] ∧ p.segments = [0, 1, 1, 2, 2, 3, 3, 0, 4, 5, 5, 6, 6, 4] := by
  refine ⟨_, rfl, ?_, ?_, ?_⟩ <;> decide +kernel

/-! ## Rectangles -/

namespace PolygonProof

theorem expandAll_spec (ps : List (Vec K)) (r : Rect K) :
    (∀ v : K, v ≤ (r.expandAll ps).xMin ↔ v ≤ r.xMin ∧ ∀ p ∈ ps, v ≤ p.x) ∧
    (∀ v : K, v ≤ (r.expandAll ps).yMin ↔ v ≤ r.yMin ∧ ∀ p ∈ ps, v ≤ p.y) ∧
    (∀ v : K, (r.expandAll ps).xMax ≤ v ↔ r.xMax ≤ v ∧ ∀ p ∈ ps, p.x ≤ v) ∧
    (∀ v : K, (r.expandAll ps).yMax ≤ v ↔ r.yMax ≤ v ∧ ∀ p ∈ ps, p.y ≤ v) := by
  induction ps generalizing r with
  | nil => simp [Rect.expandAll]
  | cons p ps ih =>
    obtain ⟨h1, h2, h3, h4⟩ := ih (r.expand p)
    have e : r.expandAll (p :: ps) = (r.expand p).expandAll ps := rfl
    rw [e]
    refine ⟨fun v => ?_, fun v => ?_, fun v => ?_, fun v => ?_⟩
    · rw [h1]; simp only [Rect.expand, le_min_iff, List.mem_cons, forall_eq_or_imp, and_assoc]
    · rw [h2]; simp only [Rect.expand, le_min_iff, List.mem_cons, forall_eq_or_imp, and_assoc]
    · rw [h3]; simp only [Rect.expand, max_le_iff, List.mem_cons, forall_eq_or_imp, and_assoc]
    · rw [h4]; simp only [Rect.expand, max_le_iff, List.mem_cons, forall_eq_or_imp, and_assoc]

theorem inside_all (ps : List (Vec K)) (r : Rect K) : ∀ p ∈ ps, Inside (r.expandAll ps) p := by
  obtain ⟨h1, h2, h3, h4⟩ := expandAll_spec ps r
  intro p hp
  exact ⟨((h1 _).1 (le_refl _)).2 p hp, ((h3 _).1 (le_refl _)).2 p hp, ((h2 _).1 (le_refl _)).2 p hp, ((h4 _).1 (le_refl _)).2 p hp⟩

end PolygonProof

/-- C46: for points with a coordinate of at least the smallest positive number in both directions (and none above the greatest number), the
default rectangle grown by them is the smallest one which contains them. Partial: it is not if all x or all y are smaller, see
`C46_violated_negative`. -/
theorem C46_smallest_partial (huge tiny : K) (ps : List (Vec K)) (px py : Vec K) (hpx : px ∈ ps) (hx : tiny ≤ px.x) (hpy : py ∈ ps) (hy : tiny ≤ py.y)
    (hhuge : ∀ p ∈ ps, p.x ≤ huge ∧ p.y ≤ huge) : Smallest ((Rect.empty huge tiny).expandAll ps) ps := by
  obtain ⟨h1, h2, h3, h4⟩ := expandAll_spec ps (Rect.empty huge tiny)
  refine ⟨inside_all ps _, ?_⟩
  intro r' hr'
  have c1 := hr' px hpx
  have c2 := hr' py hpy
  refine ⟨(h1 _).2 ⟨?_, fun p hp => (hr' p hp).1⟩, (h3 _).2 ⟨?_, fun p hp => (hr' p hp).2.1⟩, (h2 _).2 ⟨?_, fun p hp => (hr' p hp).2.2.1⟩,
    (h4 _).2 ⟨?_, fun p hp => (hr' p hp).2.2.2⟩⟩
  · exact le_trans c1.1 (hhuge px hpx).1
  · exact le_trans hx c1.2.1
  · exact le_trans c2.2.2.1 (hhuge py hpy).2
  · exact le_trans hy c2.2.2.2

/-- C46: the rectangle always contains the points. -/
theorem C46_contains (huge tiny : K) (ps : List (Vec K)) : ∀ p ∈ ps, ((Rect.empty huge tiny).expandAll ps).contains p = true := by
  intro p hp
  obtain ⟨a, b, c, d⟩ := inside_all ps (Rect.empty huge tiny) p hp
  simp [Rect.contains, a, b, c, d]

/-- C46 is false west of the zero meridian (and south of the equator): the right border of the rectangle is the smallest positive number,
whatever the points are. -/
theorem C46_violated_negative (huge tiny : K) (htiny : 0 < tiny) (ps : List (Vec K)) (hne : ps ≠ []) (hneg : ∀ p ∈ ps, p.x < 0) :
    ((Rect.empty huge tiny).expandAll ps).xMax = tiny ∧ ¬ Smallest ((Rect.empty huge tiny).expandAll ps) ps := by
  obtain ⟨h1, h2, h3, h4⟩ := expandAll_spec ps (Rect.empty huge tiny)
  have e : ((Rect.empty huge tiny).expandAll ps).xMax = tiny :=
    le_antisymm ((h3 _).2 ⟨le_refl _, fun p hp => (lt_trans (hneg p hp) htiny).le⟩) ((h3 _).1 (le_refl _)).1
  refine ⟨e, fun hs => ?_⟩
  obtain ⟨-, hmin⟩ := hs
  have := (hmin { (Rect.empty huge tiny).expandAll ps with xMax := 0 } (by
    intro p hp
    obtain ⟨a, b, c, d⟩ := inside_all ps (Rect.empty huge tiny) p hp
    exact ⟨a, (hneg p hp).le, c, d⟩)).2.1
  rw [e] at this
  exact absurd this (not_le.2 htiny)

example : Smallest ((Rect.empty (1000 : ℚ) (1 / 1000)).expandAll [⟨-1, 2⟩, ⟨3, 1⟩]) [⟨-1, 2⟩, ⟨3, 1⟩] :=
  C46_smallest_partial _ _ _ ⟨3, 1⟩ ⟨3, 1⟩ (by simp) (by norm_num) (by simp) (by norm_num) (by
    intro p hp
    simp only [List.mem_cons, List.not_mem_nil, or_false] at hp
    rcases hp with rfl | rfl <;> norm_num)

/-- C64: a point of the rectangle is reported to be on the border exactly if its distance to a side, multiplied by the length of that side,
is below the tolerance. In particular every point of the border is reported. -/
theorem C64_border_partial [IsStrictOrderedRing K] (tolerance : K) (r : Rect K) (p : Vec K) (hx : r.xMin ≤ r.xMax) (hy : r.yMin ≤ r.yMax) :
    r.isOnBorder tolerance p = true ↔
      (r.yMax - r.yMin) * |p.x - r.xMin| < tolerance ∨ (r.yMax - r.yMin) * |p.x - r.xMax| < tolerance ∨
      (r.xMax - r.xMin) * |p.y - r.yMin| < tolerance ∨ (r.xMax - r.xMin) * |p.y - r.yMax| < tolerance := by
  have ay : |r.yMax - r.yMin| = r.yMax - r.yMin := abs_of_nonneg (by linarith)
  have ax : |r.xMax - r.xMin| = r.xMax - r.xMin := abs_of_nonneg (by linarith)
  simp only [Rect.isOnBorder, Line.contains, Bool.or_eq_true, decide_eq_true_eq, or_assoc]
  simp only [Line.through]
  have e1 : p.x * (r.yMin - r.yMax) + p.y * (r.xMin - r.xMin) + (r.xMin * r.yMax - r.xMin * r.yMin) = -((r.yMax - r.yMin) * (p.x - r.xMin)) := by ring
  have e2 : p.x * (r.yMin - r.yMax) + p.y * (r.xMax - r.xMax) + (r.xMax * r.yMax - r.xMax * r.yMin) = -((r.yMax - r.yMin) * (p.x - r.xMax)) := by ring
  have e3 : p.x * (r.yMin - r.yMin) + p.y * (r.xMax - r.xMin) + (r.xMin * r.yMin - r.xMax * r.yMin) = (r.xMax - r.xMin) * (p.y - r.yMin) := by ring
  have e4 : p.x * (r.yMax - r.yMax) + p.y * (r.xMax - r.xMin) + (r.xMin * r.yMax - r.xMax * r.yMax) = (r.xMax - r.xMin) * (p.y - r.yMax) := by ring
  rw [e1, e2, e3, e4, abs_neg, abs_neg, abs_mul, abs_mul, abs_mul, abs_mul, ay, ax]

/-- C64: every point on the border is reported. -/
theorem C64_complete [IsStrictOrderedRing K] (tolerance : K) (ht : 0 < tolerance) (r : Rect K) (p : Vec K) (hx : r.xMin ≤ r.xMax)
    (hy : r.yMin ≤ r.yMax) (h : p.x = r.xMin ∨ p.x = r.xMax ∨ p.y = r.yMin ∨ p.y = r.yMax) : r.isOnBorder tolerance p = true := by
  rw [C64_border_partial tolerance r p hx hy]
  rcases h with h | h | h | h
  · left; rw [h]; simpa using ht
  · right; left; rw [h]; simpa using ht
  · right; right; left; rw [h]; simpa using ht
  · right; right; right; rw [h]; simpa using ht

/-- C64 is false in the smallest tiles (level of detail 19): points which are 0.00001 degrees off the border are reported as well. -/
theorem C64_violated_near (x y : ℚ) : let r : Rect ℚ := ⟨x, y, x + 360 / 2 ^ 19, y + 360 / 2 ^ 19⟩
    let p : Vec ℚ := ⟨x + 1 / 100000, y + 180 / 2 ^ 19⟩
    r.isOnBorder (1 / 100000000) p = true ∧ r.xMin < p.x ∧ p.x < r.xMax ∧ r.yMin < p.y ∧ p.y < r.yMax := by
  refine ⟨?_, ?_, ?_, ?_, ?_⟩
  · rw [C64_border_partial _ _ _ (by simp only; linarith) (by simp only; linarith)]
    left
    simp only
    have : x + 1 / 100000 - x = 1 / 100000 := by ring
    rw [this, abs_of_pos (by norm_num)]
    norm_num
  all_goals (simp only; norm_num)

end Verif.Props
