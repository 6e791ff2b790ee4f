import Verif.Model.Gradient
import Verif.Props.GradientSpec
import Verif.Props.Color
import Verif.Props.LazyTable
import Verif.Props.Surface

/-! # C109: texts of gradients -/
namespace Verif.Props
open Verif Verif.Gradient Verif.GradientSpec Verif.Color Verif.ColorSpec

namespace GradientProof

/-! ## Matches -/

/-- The match which is tried first leaves this. -/
def Best (r : Re) (s rest : List Char) : Prop := (rests r s).head? = some rest

theorem best_cls {p : Char → Bool} {c : Char} (s : List Char) (h : p c = true) : Best (.cls p) (c :: s) s := by
  simp [Best, rests, h]

theorem upTo_last (min n : Nat) (h : min ≤ n) : (upTo min n).reverse.head? = some n := by
  rw [List.head?_reverse, upTo, List.range_succ, List.filter_append]
  simp [h]

theorem prefixLength_append (p : Char → Bool) (xs rest : List Char) (max : Option Nat) (hx : ∀ c ∈ xs, p c = true)
    (hr : max = some xs.length ∨ (∀ m, max = some m → xs.length ≤ m) ∧ ∀ c s, rest = c :: s → p c = false) :
    prefixLength p max (xs ++ rest) = xs.length := by
  induction xs generalizing max with
  | nil =>
    cases rest with
    | nil => simp [prefixLength]
    | cons c s =>
      rcases hr with rfl | ⟨_, hr⟩
      · simp [prefixLength]
      · have := hr c s rfl
        match max with
        | none => simp [prefixLength, this]
        | some 0 => simp [prefixLength]
        | some (m + 1) => simp [prefixLength, this]
  | cons x xs ih =>
    have hp : p x = true := hx x (by simp)
    have hx' : ∀ c ∈ xs, p c = true := fun c hc => hx c (by simp [hc])
    match max with
    | none =>
      have := ih none hx' (by rcases hr with h | h; · cases h
                              · exact Or.inr ⟨by simp, h.2⟩)
      simp [prefixLength, hp, this]
    | some 0 =>
      rcases hr with h | h
      · simp at h
      · have := h.1 0 rfl; simp at this
    | some (m + 1) =>
      have := ih (some m) hx' (by
        rcases hr with h | h
        · left; simpa using h
        · right; exact ⟨fun m' e => by have := h.1 _ rfl; simp at e this; omega, h.2⟩)
      simp [prefixLength, hp, this]

theorem best_many {p : Char → Bool} {min : Nat} {max : Option Nat} (xs rest : List Char) (hx : ∀ c ∈ xs, p c = true) (hm : min ≤ xs.length)
    (hr : max = some xs.length ∨ (∀ m, max = some m → xs.length ≤ m) ∧ ∀ c s, rest = c :: s → p c = false) :
    Best (.many p min max false) (xs ++ rest) rest := by
  simp only [Best, rests, prefixLength_append p xs rest max hx hr, Bool.false_eq_true, if_false, List.head?_map, upTo_last min _ hm,
    Option.map_some, List.drop_left]

theorem best_seq {a b : Re} {s s1 s2 : List Char} (ha : Best a s s1) (hb : Best b s1 s2) : Best (.seq a b) s s2 := by
  unfold Best at *
  simp only [rests]
  cases h : rests a s with
  | nil => rw [h] at ha; cases ha
  | cons x l =>
    rw [h] at ha
    obtain rfl : x = s1 := by simpa using ha
    rw [List.flatMap_cons, List.head?_append, hb]
    rfl

theorem best_opt {a : Re} {s rest : List Char} (h : Best a s rest) : Best (.opt a) s rest := by
  unfold Best at *
  simp [rests, List.head?_append, h]

theorem best_opt_none {a : Re} {s : List Char} (h : rests a s = []) : Best (.opt a) s s := by simp [Best, rests, h]

theorem best_left {a b : Re} {s rest : List Char} (h : Best a s rest) : Best (.alt a b) s rest := by
  unfold Best at *
  simp [rests, List.head?_append, h]

theorem best_right {a b : Re} {s rest : List Char} (ha : rests a s = []) (h : Best b s rest) : Best (.alt a b) s rest := by
  unfold Best at *
  simp [rests, ha, h]

theorem none_cls {p : Char → Bool} {s : List Char} (h : ∀ c t, s = c :: t → p c = false) : rests (.cls p) s = [] := by
  cases s with
  | nil => rfl
  | cons c t => simp [rests, h c t rfl]

theorem none_seq {a b : Re} {s : List Char} (h : rests a s = []) : rests (.seq a b) s = [] := by simp [rests, h]

theorem none_many {p : Char → Bool} {min : Nat} {max : Option Nat} {lazy : Bool} {s : List Char} (hm : 0 < min)
    (h : ∀ c t, s = c :: t → p c = false) : rests (.many p min max lazy) s = [] := by
  have h0 : prefixLength p max s = 0 := by
    cases s with
    | nil => simp [prefixLength]
    | cons c t =>
      have := h c t rfl
      match max with
      | none => simp [prefixLength, this]
      | some 0 => simp [prefixLength]
      | some (m + 1) => simp [prefixLength, this]
  have hu : upTo min 0 = [] := by
    rw [upTo, List.filter_eq_nil_iff]
    intro x hx
    simp at hx
    simp; omega
  simp [rests, h0, hu]

theorem chr_cons (a : Char) (b : Re) (c : Char) (t : List Char) : rests (.seq (chr a) b) (c :: t) = if c = a then rests b t else [] := by
  by_cases h : c = a <;> simp [rests, chr, h]

theorem chr_nil (a : Char) (b : Re) : rests (.seq (chr a) b) [] = [] := rfl

/-! ## Classes of characters -/

theorem digit_class : ∀ d < 10, isDigit (digit d) = true ∧ isSpace (digit d) = false ∧ isUnit (digit d) = false ∧ digit d ≠ '(' ∧ digit d ≠ ' ' := by
  decide

theorem hex_class (c : Char) (n : Nat) (h : Digit c n) : isHex c = true ∧ isSpace c = false := by
  have hc : c ∈ ['0', '1', '2', '3', '4', '5', '6', '7', '8', '9', 'a', 'b', 'c', 'd', 'e', 'f', 'A', 'B', 'C', 'D', 'E', 'F'] := by
    rcases h with h | h
    · have := List.mem_of_getElem? h; simp only [List.mem_cons] at this ⊢; tauto
    · have := List.mem_of_getElem? h; simp only [List.mem_cons] at this ⊢; tauto
  have key : ∀ c ∈ ['0', '1', '2', '3', '4', '5', '6', '7', '8', '9', 'a', 'b', 'c', 'd', 'e', 'f', 'A', 'B', 'C', 'D', 'E', 'F'],
    isHex c = true ∧ isSpace c = false := by decide
  exact key c hc

theorem letter_class (c : Char) (h : isLetter c = true) : c ≠ ' ' ∧ c ≠ '(' ∧ c ≠ '#' ∧ c ≠ ',' ∧ c ≠ ')' := by
  refine ⟨?_, ?_, ?_, ?_, ?_⟩ <;> (rintro rfl; revert h; decide)

theorem names_letters : ∀ e ∈ colorMap, e.1.toList ≠ [] ∧ e.1.toList.all isLetter = true := by decide +kernel

theorem name_letters {s : List Char} {c : Color} (h : (String.ofList s, c) ∈ colorMap) : s ≠ [] ∧ ∀ x ∈ s, isLetter x = true := by
  have := names_letters _ h
  simpa [List.all_eq_true] using this

/-- Nothing begins with other characters. -/
theorem none_at {c : Char} {s : List Char} (h1 : isLetter c = false) (h2 : c ≠ '#') : rests gradientRe (c :: s) = [] := by
  have hr : c ≠ 'r' := by rintro rfl; revert h1; decide
  have e1 : rests rgbRe (c :: s) = [] := by rw [rgbRe, chr_cons, if_neg hr]
  have e3 : rests hexRe (c :: s) = [] := by rw [hexRe, chr_cons, if_neg h2]
  have e2 : rests hexAtRe (c :: s) = [] := none_seq e3
  have e4 : rests nameRe (c :: s) = [] := none_seq (none_many (by omega) (by rintro _ _ ⟨⟩; exact h1))
  simp [gradientRe, rests, e1, e2, e3, e4]

/-- What follows a stop: nothing, a comma or a parenthesis. -/
def Follows (rest : List Char) : Prop := rest = [] ∨ ∃ t, rest = ',' :: t ∨ rest = ')' :: t

theorem Follows.cls {rest : List Char} (h : Follows rest) {p : Char → Bool} (h1 : p ',' = false) (h2 : p ')' = false) :
    ∀ c s, rest = c :: s → p c = false := by
  rintro c s rfl
  rcases h with h | h
  · cases h
  · obtain ⟨t, h | h⟩ := h <;> (injection h with h _; subst h; assumption)

/-- The percentage of a stop. -/
def pct : Option (List Nat) → List Char
  | none => []
  | some ds => ' ' :: ds.map digit ++ ['%']

theorem write_eq (s : Stop) : s.write = s.text ++ pct s.percent := by
  unfold Stop.write pct
  cases s.percent <;> rfl

theorem digits_class {ds : List Nat} (h : ∀ d ∈ ds, d < 10) : ∀ c ∈ ds.map digit, isDigit c = true := by
  intro c hc
  obtain ⟨d, hd, rfl⟩ := List.mem_map.1 hc
  exact (digit_class d (h d hd)).1

theorem rgb_none {s : List Char} (hs : ∀ x ∈ s, isLetter x = true) {p : Option (List Nat)}
    (hp : ∀ ds, p = some ds → 1 ≤ ds.length ∧ ds.length ≤ 3 ∧ ∀ d ∈ ds, d < 10) {rest : List Char} (hr : Follows rest) :
    rests rgbRe (s ++ (pct p ++ rest)) = [] := by
  -- what comes behind the letters
  have tail : pct p ++ rest = [] ∨ ∃ c t, pct p ++ rest = c :: t ∧ c ≠ 'r' ∧ c ≠ 'g' ∧ c ≠ 'b' ∧ c ≠ '(' ∧ (c = ' ' → ∃ d u, t = d :: u ∧ d ≠ '(') := by
    cases p with
    | none =>
      rcases hr with hr | hr
      · exact Or.inl hr
      refine Or.inr ?_
      obtain ⟨t, h | h⟩ := hr <;> exact ⟨_, t, h, by decide, by decide, by decide, by decide, fun e => absurd e (by decide)⟩
    | some ds =>
      obtain ⟨h1, _, h3⟩ := hp ds rfl
      cases ds with
      | nil => simp at h1
      | cons d ds =>
        exact Or.inr ⟨' ', _, rfl, by decide, by decide, by decide, by decide, fun _ => ⟨digit d, _, rfl, (digit_class d (h3 d (by simp))).2.2.2.1⟩⟩
  rcases tail with e | ⟨c, t, e, c1, c2, c3, c4, c5⟩
  · rw [e, List.append_nil]
    unfold rgbRe
    match s, hs with
    | [], _ => rfl
    | [x], _ => rw [chr_cons, chr_nil, ite_self]
    | [x, y], _ => rw [chr_cons, chr_cons, chr_nil, ite_self, ite_self]
    | [x, y, z], _ =>
      have : ∀ b, rests (.seq (.opt (chr ' ')) (.seq (chr '(') b)) [] = [] := fun b => rfl
      rw [chr_cons, chr_cons, chr_cons, this, ite_self, ite_self, ite_self]
    | x :: y :: z :: w :: s, hs =>
      have hw := letter_class w (hs w (by simp))
      rw [chr_cons, chr_cons, chr_cons]
      have : ∀ b t, rests (.seq (.opt (chr ' ')) (.seq (chr '(') b)) (w :: t) = [] := by
        intro b t
        have h1 : rests (.opt (chr ' ')) (w :: t) = [w :: t] := by simp [rests, chr, hw.1]
        have h2 : rests (.seq (.opt (chr ' ')) (.seq (chr '(') b)) (w :: t) = ([w :: t] : List (List Char)).flatMap (rests (.seq (chr '(') b)) := by
          rw [← h1]; rfl
        rw [h2]
        simp only [List.flatMap_cons, List.flatMap_nil, chr_cons, if_neg hw.2.1, List.append_nil]
      simp only [this, ite_self]
  rw [e]
  unfold rgbRe
  match s, hs with
  | [], _ => rw [List.nil_append, chr_cons, if_neg c1]
  | [x], _ =>
    rw [List.cons_append, List.nil_append, chr_cons, chr_cons, if_neg c2, ite_self]
  | [x, y], _ =>
    rw [List.cons_append, List.cons_append, List.nil_append, chr_cons, chr_cons, chr_cons, if_neg c3, ite_self, ite_self]
  | [x, y, z], _ =>
    rw [List.cons_append, List.cons_append, List.cons_append, List.nil_append, chr_cons, chr_cons, chr_cons]
    have : ∀ b, rests (.seq (.opt (chr ' ')) (.seq (chr '(') b)) (c :: t) = [] := by
      intro b
      by_cases hc : c = ' '
      · obtain ⟨d, u, rfl, hd⟩ := c5 hc
        have h1 : rests (.opt (chr ' ')) (c :: d :: u) = [d :: u, c :: d :: u] := by simp [rests, chr, hc]
        have h2 : rests (.seq (.opt (chr ' ')) (.seq (chr '(') b)) (c :: d :: u) = ([d :: u, c :: d :: u] : List (List Char)).flatMap (rests (.seq (chr '(') b)) := by
          rw [← h1]; rfl
        rw [h2]
        simp only [List.flatMap_cons, List.flatMap_nil, chr_cons, if_neg hd, if_neg c4, List.append_nil]
      · have h1 : rests (.opt (chr ' ')) (c :: t) = [c :: t] := by simp [rests, chr, hc]
        have h2 : rests (.seq (.opt (chr ' ')) (.seq (chr '(') b)) (c :: t) = ([c :: t] : List (List Char)).flatMap (rests (.seq (chr '(') b)) := by
          rw [← h1]; rfl
        rw [h2]
        simp only [List.flatMap_cons, List.flatMap_nil, chr_cons, if_neg c4, List.append_nil]
    simp only [this, ite_self]
  | x :: y :: z :: w :: s, hs =>
    have hw := letter_class w (hs w (by simp))
    rw [List.cons_append, List.cons_append, List.cons_append, List.cons_append, chr_cons, chr_cons, chr_cons]
    have : ∀ b t, rests (.seq (.opt (chr ' ')) (.seq (chr '(') b)) (w :: t) = [] := by
      intro b t
      have h1 : rests (.opt (chr ' ')) (w :: t) = [w :: t] := by simp [rests, chr, hw.1]
      have h2 : rests (.seq (.opt (chr ' ')) (.seq (chr '(') b)) (w :: t) = ([w :: t] : List (List Char)).flatMap (rests (.seq (chr '(') b)) := by
        rw [← h1]; rfl
      rw [h2]
      simp only [List.flatMap_cons, List.flatMap_nil, chr_cons, if_neg hw.2.1, List.append_nil]
    simp only [this, ite_self]

theorem best_pct {ds : List Nat} (h1 : 1 ≤ ds.length) (h2 : ds.length ≤ 3) (h3 : ∀ d ∈ ds, d < 10) {b : Re} {rest rest' : List Char}
    (hb : Best b ('%' :: rest) rest') :
    Best (.seq (.cls isSpace) (.seq (.many isDigit 1 (some 3) false) b)) (pct (some ds) ++ rest) rest' := by
  have e : pct (some ds) ++ rest = ' ' :: (ds.map digit ++ '%' :: rest) := by simp [pct]
  rw [e]
  refine best_seq (best_cls _ (by decide)) (best_seq (best_many _ _ (digits_class h3) (by simpa using h1) (Or.inr ⟨?_, ?_⟩)) hb)
  · rintro m ⟨⟩; simpa using h2
  · rintro c s ⟨⟩; decide

theorem best_name {s : List Char} (h0 : s ≠ []) (hs : ∀ x ∈ s, isLetter x = true) {p : Option (List Nat)}
    (hp : ∀ ds, p = some ds → 1 ≤ ds.length ∧ ds.length ≤ 3 ∧ ∀ d ∈ ds, d < 10) {rest : List Char} (hr : Follows rest) :
    Best gradientRe (s ++ (pct p ++ rest)) rest := by
  have hlen : 1 ≤ s.length := List.length_pos_iff.2 h0
  obtain ⟨x, s', rfl⟩ := List.exists_cons_of_ne_nil h0
  have hx := letter_class x (hs x (by simp))
  have e3 : rests hexRe (x :: s' ++ (pct p ++ rest)) = [] := by rw [List.cons_append, hexRe, chr_cons, if_neg hx.2.2.1]
  refine best_right (rgb_none hs hp hr) (best_right (none_seq e3) (best_right e3 ?_))
  cases p with
  | none =>
    refine best_seq (best_many (x :: s') (pct none ++ rest) hs hlen (Or.inr ⟨by simp, hr.cls (by decide) (by decide)⟩)) ?_
    exact best_opt_none (none_seq (none_cls (hr.cls (by decide) (by decide))))
  | some ds =>
    obtain ⟨h1, h2, h3⟩ := hp ds rfl
    refine best_seq (best_many (x :: s') (pct (some ds) ++ rest) hs hlen (Or.inr ⟨by simp, ?_⟩)) ?_
    · rintro c t ⟨⟩; decide
    · refine best_opt (best_pct h1 h2 h3 (best_seq (best_many [] ('%' :: rest) (by simp) (by simp) (Or.inr ⟨by simp, ?_⟩)) (best_opt (best_cls _ (by decide)))))
      rintro c t ⟨⟩; decide

theorem best_hex {r1 r2 g1 g2 b1 b2 : Char} (h : ∀ c ∈ [r1, r2, g1, g2, b1, b2], isHex c = true ∧ isSpace c = false) {p : Option (List Nat)}
    (hp : ∀ ds, p = some ds → 1 ≤ ds.length ∧ ds.length ≤ 3 ∧ ∀ d ∈ ds, d < 10) {rest : List Char} (hr : Follows rest) :
    Best gradientRe (['#', r1, r2, g1, g2, b1, b2] ++ (pct p ++ rest)) rest := by
  have e1 : rests rgbRe (['#', r1, r2, g1, g2, b1, b2] ++ (pct p ++ rest)) = [] := by
    rw [List.cons_append, rgbRe, chr_cons, if_neg (by decide)]
  have bh : ∀ t, Best hexRe (['#', r1, r2, g1, g2, b1, b2] ++ t) t := fun t =>
    best_seq (best_cls _ (by decide)) (best_many [r1, r2, g1, g2, b1, b2] t (fun c hc => (h c hc).1) (by simp) (Or.inl rfl))
  refine best_right e1 ?_
  cases p with
  | some ds =>
    obtain ⟨h1, h2, h3⟩ := hp ds rfl
    exact best_left (best_seq (bh _) (best_pct h1 h2 h3 (best_cls _ (by decide))))
  | none =>
    refine best_right ?_ (best_left (bh _))
    have hl : prefixLength isHex (some 6) ([r1, r2, g1, g2, b1, b2] ++ (pct none ++ rest)) = 6 :=
      prefixLength_append isHex [r1, r2, g1, g2, b1, b2] _ (some 6) (fun c hc => (h c hc).1) (Or.inl rfl)
    have hrest : rests hexRe (['#', r1, r2, g1, g2, b1, b2] ++ (pct none ++ rest)) =
        [rest, b2 :: rest, b1 :: b2 :: rest, g2 :: b1 :: b2 :: rest] := by
      rw [hexRe, List.cons_append, chr_cons, if_pos rfl]
      simp only [rests, hl]
      rfl
    unfold hexAtRe
    simp only [List.mem_cons, List.not_mem_nil, or_false, forall_eq_or_imp, forall_eq] at h
    have nc : ∀ b, ∀ t ∈ [rest, b2 :: rest, b1 :: b2 :: rest, g2 :: b1 :: b2 :: rest], rests (.seq (.cls isSpace) b) t = [] := by
      intro b t ht
      apply none_seq
      apply none_cls
      simp only [List.mem_cons, List.not_mem_nil, or_false] at ht
      rcases ht with rfl | rfl | rfl | rfl
      · exact hr.cls (by decide) (by decide)
      all_goals rintro c t ⟨⟩; tauto
    show (rests hexRe _).flatMap _ = []
    rw [hrest, List.flatMap_eq_nil_iff]
    exact nc _

theorem best_stop {s : Stop} (h : s.Good) {rest : List Char} (hr : Follows rest) : Best gradientRe (s.write ++ rest) rest := by
  obtain ⟨text, color, percent⟩ := s
  obtain ⟨hn, hp⟩ := h
  rw [write_eq, List.append_assoc]
  simp only at hn hp ⊢
  cases hn with
  | hex r1 r2 g1 g2 b1 b2 r g b hr' hg hb =>
    refine best_hex ?_ hp hr
    simp only [List.mem_cons, List.not_mem_nil, or_false, forall_eq_or_imp, forall_eq]
    exact ⟨hex_class _ _ hr'.1, hex_class _ _ hr'.2, hex_class _ _ hg.1, hex_class _ _ hg.2, hex_class _ _ hb.1, hex_class _ _ hb.2⟩
  | name _ _ h =>
    obtain ⟨h0, hs⟩ := name_letters h
    exact best_name h0 hs hp hr

/-! ## Searching -/

theorem search_hit {r : Re} {m rest : List Char} (hm : m ≠ []) (h : Best r (m ++ rest) rest) (f : Nat) :
    search r (f + 1) (m ++ rest) = m :: search r f rest := by
  obtain ⟨c, m, rfl⟩ := List.exists_cons_of_ne_nil hm
  unfold Best at h
  rw [List.cons_append] at h ⊢
  conv_lhs => unfold search
  cases hr : rests r (c :: (m ++ rest)) with
  | nil => rw [hr] at h; cases h
  | cons x l =>
    rw [hr] at h
    obtain rfl : x = rest := by simpa using h
    have : (c :: (m ++ x)).length - x.length = (c :: m).length := by simp; omega
    simp only [this]
    rw [← List.cons_append, List.take_left]

theorem search_skip {r : Re} {c : Char} {s : List Char} (h : rests r (c :: s) = []) (f : Nat) : search r (f + 1) (c :: s) = search r f s := by
  conv_lhs => unfold search
  rw [h]

theorem search_blanks (n f : Nat) (t : List Char) : search gradientRe (n + f) (List.replicate n ' ' ++ t) = search gradientRe f t := by
  induction n with
  | zero => simp
  | succ n ih =>
    rw [List.replicate_succ, List.cons_append, show n + 1 + f = n + f + 1 by omega, search_skip (none_at (by decide) (by decide)), ih]

theorem names_ne {t : List Char} {c : Color} (h : Names t c) : t ≠ [] := by
  cases h with
  | hex => simp
  | name _ _ h => exact (name_letters h).1

theorem write_ne {s : Stop} (h : s.Good) : s.write ≠ [] := by
  rw [write_eq]
  intro e
  exact names_ne h.1 (List.append_eq_nil_iff.1 e).1

theorem search_stops (n : Nat) : ∀ (l : List Stop), l ≠ [] → (∀ s ∈ l, s.Good) → ∀ f, (writeStops n l ++ [')']).length ≤ f →
    search gradientRe f (writeStops n l ++ [')']) = l.map Stop.write
  | [], h, _, _, _ => absurd rfl h
  | [s], _, hg, f, hf => by
    have hs := hg s (by simp)
    have hpos : 0 < s.write.length := List.length_pos_iff.2 (write_ne hs)
    obtain ⟨f, rfl⟩ : ∃ f', f = f' + 2 := ⟨f - 2, by simp [writeStops] at hf; omega⟩
    rw [writeStops, search_hit (write_ne hs) (best_stop hs (Or.inr ⟨[], Or.inr rfl⟩)), search_skip (none_at (by decide) (by decide))]
    cases f <;> simp [search]
  | s :: s' :: l, _, hg, f, hf => by
    have hs := hg s (by simp)
    have hpos : 0 < s.write.length := List.length_pos_iff.2 (write_ne hs)
    have e : writeStops n (s :: s' :: l) ++ [')'] = s.write ++ (',' :: (List.replicate n ' ' ++ (writeStops n (s' :: l) ++ [')']))) := by
      simp [writeStops]
    rw [e] at hf ⊢
    simp only [List.length_append, List.length_cons, List.length_replicate] at hf
    obtain ⟨f, rfl⟩ : ∃ f', f = n + f' + 1 + 1 := ⟨f - n - 2, by omega⟩
    rw [search_hit (write_ne hs) (best_stop hs (Or.inr ⟨_, Or.inl rfl⟩)), search_skip (none_at (by decide) (by decide)), search_blanks,
      search_stops n (s' :: l) (by simp) (fun x hx => hg x (List.mem_cons_of_mem _ hx)) f (by simp; omega)]
    rfl

/-! ## Parts -/

theorem getline_none (a : List Char) (h : ' ' ∉ a) : Strings.getline ' ' a = (a, none) := by
  induction a with
  | nil => rfl
  | cons c a ih =>
    have hc : c ≠ ' ' := fun e => h (by simp [e])
    simp [Strings.getline, hc, ih (fun e => h (by simp [e]))]

theorem getline_some (a b : List Char) (h : ' ' ∉ a) : Strings.getline ' ' (a ++ ' ' :: b) = (a, some b) := by
  induction a with
  | nil => simp [Strings.getline]
  | cons c a ih =>
    have hc : c ≠ ' ' := fun e => h (by simp [e])
    simp [Strings.getline, hc, ih (fun e => h (by simp [e]))]

theorem words_one (a : List Char) (h0 : a ≠ []) (h : ' ' ∉ a) : words a = [a] := by
  obtain ⟨c, a', rfl⟩ := List.exists_cons_of_ne_nil h0
  simp only [words, List.length_cons, wordsLoop]
  rw [getline_none _ h]

theorem words_two (a b : List Char) (h0 : a ≠ []) (h : ' ' ∉ a) (hb0 : b ≠ []) (hb : ' ' ∉ b) : words (a ++ ' ' :: b) = [a, b] := by
  obtain ⟨c, a', rfl⟩ := List.exists_cons_of_ne_nil h0
  obtain ⟨d, b', rfl⟩ := List.exists_cons_of_ne_nil hb0
  have e : (c :: a' ++ ' ' :: d :: b').length = (a'.length + b'.length + 1) + 1 + 1 := by simp; omega
  rw [words, e, List.cons_append, wordsLoop, ← List.cons_append, getline_some _ _ h]
  · simp only [wordsLoop]
    rw [getline_none _ hb]
  · simp

theorem names_blank {t : List Char} {c : Color} (h : Names t c) : ' ' ∉ t := by
  cases h with
  | hex r1 r2 g1 g2 b1 b2 r g b hr hg hb =>
    intro e
    simp only [List.mem_cons, List.not_mem_nil, or_false] at e
    have k : ∀ c n, Digit c n → ' ' ≠ c := by
      rintro c n h rfl
      have := (hex_class _ _ h).2
      revert this; decide
    rcases e with e | e | e | e | e | e | e
    · revert e; decide
    exacts [k _ _ hr.1 e, k _ _ hr.2 e, k _ _ hg.1 e, k _ _ hg.2 e, k _ _ hb.1 e, k _ _ hb.2 e]
  | name _ _ h =>
    intro e
    exact (letter_class _ ((name_letters h).2 _ e)).1 rfl

theorem names_parse {t : List Char} {c : Color} (h : Names t c) : parseColor t = .ok c := by
  cases h with
  | hex r1 r2 g1 g2 b1 b2 r g b hr hg hb => exact C47_hex r1 r2 g1 g2 b1 b2 r g b hr hg hb []
  | name _ _ h =>
    refine C47_known_name t c ?_ h
    intro e
    have : '#' ∈ t := List.mem_of_head? e
    exact (letter_class _ ((name_letters h).2 _ this)).2.2.1 rfl

section
variable {K : Type} [Field K]

theorem stop_eq (cast : List Char → Option K) (hc : Reads cast) {s : Stop} (h : s.Good) (first : Bool) :
    stop cast first s.write = .ok (s.time first, s.color) := by
  obtain ⟨text, color, percent⟩ := s
  obtain ⟨hn, hp⟩ := h
  simp only at hn hp
  rw [write_eq]
  cases percent with
  | none =>
    simp only [pct, List.append_nil, stop, words_one _ (names_ne hn) (names_blank hn), names_parse hn, Outcome.bind, times, Stop.time]
  | some ds =>
    obtain ⟨h1, h2, h3⟩ := hp ds rfl
    have hds : ds ≠ [] := List.length_pos_iff.1 h1
    have hb : ' ' ∉ ds.map digit ++ ['%'] := by
      simp only [List.mem_append, List.mem_map, List.mem_singleton]
      rintro (⟨d, hd, e⟩ | e)
      · exact (digit_class d (h3 d hd)).2.2.2.2 e
      · revert e; decide
    simp only [pct, List.cons_append, stop, words_two _ _ (names_ne hn) (names_blank hn) (by simp) hb, names_parse hn, Outcome.bind, times,
      List.dropLast_concat, hc ds hds h3, Stop.time]

theorem stops_eq (cast : List Char → Option K) (hc : Reads cast) : ∀ (l : List Stop), (∀ s ∈ l, s.Good) → ∀ first,
    stops cast first (l.map Stop.write) = .ok (match l with
      | [] => []
      | s :: l => (s.time first, s.color) :: l.map fun s => (s.time false, s.color))
  | [], _, _ => rfl
  | s :: l, h, first => by
    have ih := stops_eq cast hc l (fun x hx => h x (List.mem_cons_of_mem _ hx)) false
    rw [List.map_cons, stops, stop_eq cast hc (h s (by simp)), Outcome.bind, ih]
    cases l <;> rfl

end

end GradientProof

open GradientProof

section
variable {K : Type} [Field K]

/-- C109: `gradient(...)` with any number of colors, each in hexadecimal digits or by its name, with or without a percentage of one to three
digits behind one blank, separated by commas with any number of blanks, denotes these colors at these places. Partial: other ways to write
stops are misread, see `C109_violated_unit`, `C109_violated_fraction`, `C109_violated_rgb`. -/
theorem C109_stops_partial (cast : List Char → Option K) (hc : Reads cast) (blanks : Nat) (l : List Stop) (h0 : l ≠ []) (hl : ∀ s ∈ l, s.Good) :
    parseGradient cast (write blanks l) = .ok (meaning l) ∧ loadGradient cast (write blanks l) = .ok (meaning l) := by
  have hb : body (write blanks l) = '(' :: (writeStops blanks l ++ [')']) := by
    simp [body, write, List.isPrefixOf]
  have hs : search gradientRe (body (write blanks l)).length (body (write blanks l)) = l.map Stop.write := by
    rw [hb, List.length_cons, search_skip (none_at (by decide) (by decide)), search_stops blanks l h0 hl _ (le_refl _)]
  have hp : parseGradient cast (write blanks l) = .ok (meaning l) := by
    rw [parseGradient, hs, stops_eq cast hc l hl, Outcome.bind]
    cases l with
    | nil => exact absurd rfl h0
    | cons s l => rfl
  refine ⟨hp, ?_⟩
  rw [loadGradient, hp, Outcome.bind]
  cases l with
  | nil => exact absurd rfl h0
  | cons s l => rfl

/-- C109: a color on its own, with or without a percentage, is a gradient of one color. Partial: names which begin with `gradient` are cut, see
`C109_violated_prefix`. -/
theorem C109_single_partial (cast : List Char → Option K) (hc : Reads cast) (s : Stop) (hs : s.Good)
    (hp : ¬ ['g', 'r', 'a', 'd', 'i', 'e', 'n', 't'] <+: s.text) : loadGradient cast s.write = .ok [(s.time true, s.color)] := by
  have hn : s.write ≠ [] := write_ne hs
  have hb : body s.write = s.write := by
    rw [body, if_neg]
    rw [List.isPrefixOf_iff_prefix]
    intro h
    rw [write_eq] at h
    -- the prefix would end inside of the text or reach the blank of the percentage
    obtain ⟨t, ht⟩ := h
    by_cases hl : 8 ≤ s.text.length
    · apply hp
      refine ⟨s.text.drop 8, ?_⟩
      have h1 := congrArg (List.take 8) ht
      rw [List.take_append_of_le_length hl] at h1
      have h2 : List.take 8 (['g', 'r', 'a', 'd', 'i', 'e', 'n', 't'] ++ t) = ['g', 'r', 'a', 'd', 'i', 'e', 'n', 't'] := by simp
      rw [h2] at h1
      rw [h1, List.take_append_drop]
    · cases hpc : s.percent with
      | none =>
        rw [hpc] at ht
        have := congrArg List.length ht
        simp [pct] at this
        omega
      | some ds =>
        rw [hpc] at ht
        have hm : (s.text ++ pct (some ds))[s.text.length]? = some ' ' := by
          rw [List.getElem?_append_right (le_refl _)]; simp [pct]
        rw [← ht, List.getElem?_append_left (by simp; omega)] at hm
        have := List.mem_of_getElem? hm
        revert this
        decide
  have hs' : search gradientRe s.write.length s.write = [s.write] := by
    have hpos : 0 < s.write.length := List.length_pos_iff.2 hn
    obtain ⟨f, hf⟩ : ∃ f, s.write.length = f + 1 := ⟨s.write.length - 1, by omega⟩
    rw [hf]
    have := search_hit hn (best_stop hs (rest := []) (Or.inl rfl)) f
    rw [List.append_nil] at this
    rw [this]
    cases f <;> rfl
  have := stops_eq cast hc [s] (by simpa using hs) true
  rw [loadGradient, parseGradient, hb, hs', show [s.write] = [s].map Stop.write from rfl, this]
  rfl

/-- C109: a text in which there is no letter and no `#` is red; the empty text is refused. -/
theorem C109_nothing (cast : List Char → Option K) (text : List Char) (h : ∀ c ∈ text, isLetter c = false ∧ c ≠ '#') :
    loadGradient cast text = if text = [] then .throw "MapCssException" else .ok [(0, ⟨255, 0, 0, 255⟩)] := by
  have hb : body text = text := by
    rw [body, if_neg]
    rw [List.isPrefixOf_iff_prefix]
    rintro ⟨t, rfl⟩
    have := (h 'g' (by simp)).1
    revert this; decide
  have hs : ∀ f, ∀ t : List Char, (∀ c ∈ t, isLetter c = false ∧ c ≠ '#') → search gradientRe f t = [] := by
    intro f
    induction f with
    | zero => intro t _; rfl
    | succ f ih =>
      intro t ht
      cases t with
      | nil => rfl
      | cons c t =>
        rw [search_skip (none_at (ht c (by simp)).1 (ht c (by simp)).2)]
        exact ih t fun x hx => ht x (List.mem_cons_of_mem _ hx)
  have hred : (colorMap.lookup "red").getD {} = ⟨255, 0, 0, 255⟩ := by decide +kernel
  rw [loadGradient, parseGradient, hb, hs _ _ h, hred]
  cases text with
  | nil => rfl
  | cons c t => simp [stops, Outcome.bind]

end

/-- C109 with C33: if the places increase, the color at the place of each stop is the color which is written there. -/
theorem C109_shown {K : Type} [Field K] [LinearOrder K] [IsStrictOrderedRing K] [FloorRing K] (cast : List Char → Option K) (hc : Reads cast)
    (blanks : Nat) (l : List Stop) (h0 : l ≠ []) (hl : ∀ s ∈ l, s.Good) (hi : Increasing (meaning (K := K) l)) (i : Nat) (s : Stop)
    (hs : l[i]? = some s) :
    ∃ g, loadGradient cast (write blanks l) = .ok g ∧ evaluate g (s.time (decide (i = 0)) : K) = .ok s.color := by
  refine ⟨_, (C109_stops_partial cast hc blanks l h0 hl).2, ?_⟩
  have hm : (meaning (K := K) l)[i]? = some (s.time (decide (i = 0)), s.color) := by
    cases l with
    | nil => simp at hs
    | cons a l =>
      cases i with
      | zero => simp at hs; simp [meaning, hs]
      | succ i =>
        simp only [List.getElem?_cons_succ] at hs
        simp [meaning, hs]
  exact C33_at_stop _ hi i _ hm

section
variable {K : Type} [Field K]

/-- C109 is violated for percentages without a sign: the last digit is taken for it, so that 50 is read as 5. -/
theorem C109_violated_unit (cast : List Char → Option K) (hc : Reads cast) :
    loadGradient cast "gradient(red, lime 50, blue)".toList =
      .ok [(0, ⟨255, 0, 0, 255⟩), (5 / 100, ⟨0, 255, 0, 255⟩), (1, ⟨0, 0, 255, 255⟩)] := by
  have hs : search gradientRe (body "gradient(red, lime 50, blue)".toList).length (body "gradient(red, lime 50, blue)".toList) =
    [['r', 'e', 'd'], ['l', 'i', 'm', 'e', ' ', '5', '0'], ['b', 'l', 'u', 'e']] := by decide +kernel
  have h5 : cast ['5'] = some 5 := by simpa [digit, number] using hc [5] (by simp) (by simp)
  have w1 : words ['r', 'e', 'd'] = [['r', 'e', 'd']] := by decide
  have w2 : words ['l', 'i', 'm', 'e', ' ', '5', '0'] = [['l', 'i', 'm', 'e'], ['5', '0']] := by decide
  have w3 : words ['b', 'l', 'u', 'e'] = [['b', 'l', 'u', 'e']] := by decide
  have c1 : parseColor ['r', 'e', 'd'] = .ok ⟨255, 0, 0, 255⟩ := by decide +kernel
  have c2 : parseColor ['l', 'i', 'm', 'e'] = .ok ⟨0, 255, 0, 255⟩ := by decide +kernel
  have c3 : parseColor ['b', 'l', 'u', 'e'] = .ok ⟨0, 0, 255, 255⟩ := by decide +kernel
  rw [loadGradient, parseGradient, hs]
  simp [stops, stop, w1, w2, w3, c1, c2, c3, Outcome.bind, times, h5]

/-- C109 is violated for pixels, which the expression seems to allow: of `px` only the `p` is taken, the `x` is a color of its own, which is not
known and hence grey. -/
theorem C109_violated_px (cast : List Char → Option K) (hc : Reads cast) :
    loadGradient cast "gradient(red, lime 50px, blue)".toList =
      .ok [(0, ⟨255, 0, 0, 255⟩), (50 / 100, ⟨0, 255, 0, 255⟩), (1, ⟨190, 190, 190, 255⟩), (1, ⟨0, 0, 255, 255⟩)] := by
  have hs : search gradientRe (body "gradient(red, lime 50px, blue)".toList).length (body "gradient(red, lime 50px, blue)".toList) =
    [['r', 'e', 'd'], ['l', 'i', 'm', 'e', ' ', '5', '0', 'p'], ['x'], ['b', 'l', 'u', 'e']] := by decide +kernel
  have h5 : cast ['5', '0'] = some 50 := by simpa [digit, number] using hc [5, 0] (by simp) (by simp)
  have w1 : words ['r', 'e', 'd'] = [['r', 'e', 'd']] := by decide
  have w2 : words ['l', 'i', 'm', 'e', ' ', '5', '0', 'p'] = [['l', 'i', 'm', 'e'], ['5', '0', 'p']] := by decide
  have w3 : words ['b', 'l', 'u', 'e'] = [['b', 'l', 'u', 'e']] := by decide
  have w4 : words ['x'] = [['x']] := by decide
  have c1 : parseColor ['r', 'e', 'd'] = .ok ⟨255, 0, 0, 255⟩ := by decide +kernel
  have c2 : parseColor ['l', 'i', 'm', 'e'] = .ok ⟨0, 255, 0, 255⟩ := by decide +kernel
  have c3 : parseColor ['b', 'l', 'u', 'e'] = .ok ⟨0, 0, 255, 255⟩ := by decide +kernel
  have c4 : parseColor ['x'] = .ok ⟨190, 190, 190, 255⟩ := by decide +kernel
  rw [loadGradient, parseGradient, hs]
  simp [stops, stop, w1, w2, w3, w4, c1, c2, c3, c4, Outcome.bind, times, h5]

/-- C109 is violated for percentages with a fraction: behind digits of a color the percentage is lost, and the color is taken for the last one. -/
theorem C109_violated_fraction (cast : List Char → Option K) :
    loadGradient cast "gradient(#ff0000, #00ff00 12.5%, #0000ff)".toList =
      .ok [(0, ⟨255, 0, 0, 255⟩), (1, ⟨0, 255, 0, 255⟩), (1, ⟨0, 0, 255, 255⟩)] := by
  have hs : search gradientRe (body "gradient(#ff0000, #00ff00 12.5%, #0000ff)".toList).length (body "gradient(#ff0000, #00ff00 12.5%, #0000ff)".toList) =
    [['#', 'f', 'f', '0', '0', '0', '0'], ['#', '0', '0', 'f', 'f', '0', '0'], ['#', '0', '0', '0', '0', 'f', 'f']] := by decide +kernel
  have w1 : words ['#', 'f', 'f', '0', '0', '0', '0'] = [['#', 'f', 'f', '0', '0', '0', '0']] := by decide
  have w2 : words ['#', '0', '0', 'f', 'f', '0', '0'] = [['#', '0', '0', 'f', 'f', '0', '0']] := by decide
  have w3 : words ['#', '0', '0', '0', '0', 'f', 'f'] = [['#', '0', '0', '0', '0', 'f', 'f']] := by decide
  have c1 : parseColor ['#', 'f', 'f', '0', '0', '0', '0'] = .ok ⟨255, 0, 0, 255⟩ := by decide +kernel
  have c2 : parseColor ['#', '0', '0', 'f', 'f', '0', '0'] = .ok ⟨0, 255, 0, 255⟩ := by decide +kernel
  have c3 : parseColor ['#', '0', '0', '0', '0', 'f', 'f'] = .ok ⟨0, 0, 255, 255⟩ := by decide +kernel
  rw [loadGradient, parseGradient, hs]
  simp [stops, stop, w1, w2, w3, c1, c2, c3, Outcome.bind, times]

/-- C109 is violated for `rgb(...)`, which the expression finds: the color is grey whatever the numbers are. Three hexadecimal digits, which it
finds too, are an exception. -/
theorem C109_violated_rgb (cast : List Char → Option K) :
    loadGradient cast "gradient(rgb(255,0,0))".toList = .ok [(0, ⟨190, 190, 190, 255⟩)] ∧
    loadGradient cast "gradient(#f00)".toList = .throw "invalid_argument" := by
  have hs : search gradientRe (body "gradient(rgb(255,0,0))".toList).length (body "gradient(rgb(255,0,0))".toList) =
    [['r', 'g', 'b', '(', '2', '5', '5', ',', '0', ',', '0', ')']] := by decide +kernel
  have w1 : words ['r', 'g', 'b', '(', '2', '5', '5', ',', '0', ',', '0', ')'] = [['r', 'g', 'b', '(', '2', '5', '5', ',', '0', ',', '0', ')']] := by decide
  have c1 : parseColor ['r', 'g', 'b', '(', '2', '5', '5', ',', '0', ',', '0', ')'] = .ok ⟨190, 190, 190, 255⟩ := by decide +kernel
  have hs' : search gradientRe (body "gradient(#f00)".toList).length (body "gradient(#f00)".toList) = [['#', 'f', '0', '0']] := by decide +kernel
  have w2 : words ['#', 'f', '0', '0'] = [['#', 'f', '0', '0']] := by decide
  have c2 : parseColor ['#', 'f', '0', '0'] = .throw "invalid_argument" := by decide +kernel
  constructor
  · rw [loadGradient, parseGradient, hs]
    simp [stops, stop, w1, c1, Outcome.bind, times]
  · rw [loadGradient, parseGradient, hs']
    simp [stops, stop, w2, c2, Outcome.bind]

/-- C109 is violated for the names of colors which begin with `gradient`: on its own such a name is cut and gives another color than in
`gradient(...)`. -/
theorem C109_violated_prefix (cast : List Char → Option K) :
    ("gradientactivecaption", (⟨185, 209, 234, 255⟩ : Color)) ∈ colorMap ∧
    loadGradient cast "gradientactivecaption".toList ≠ .ok [(0, ⟨185, 209, 234, 255⟩)] := by
  have hs : search gradientRe (body "gradientactivecaption".toList).length (body "gradientactivecaption".toList) =
    ["activecaption".toList] := by decide +kernel
  have w1 : words "activecaption".toList = ["activecaption".toList] := by decide +kernel
  obtain ⟨c, hc, hne⟩ : ∃ c, parseColor "activecaption".toList = .ok c ∧ c ≠ ⟨185, 209, 234, 255⟩ :=
    ⟨⟨153, 180, 209, 255⟩, by decide +kernel, by decide⟩
  refine ⟨by decide +kernel, ?_⟩
  generalize "activecaption".toList = a at hs w1 hc
  rw [loadGradient, parseGradient, hs]
  simpa [stops, stop, w1, hc, Outcome.bind, times] using hne

end

/-- C109 with C108: threads which share a stylesheet and ask for gradients in any order get (up to a data race) for each well written text the
gradient it denotes. -/
theorem C109_threads_partial {K : Type} [Field K] (cast : List Char → Option K) (hc : Reads cast) (progs : Nat → List (List Char)) (ts : List Nat)
    (t : Nat) (blanks : Nat) (l : List Stop) (h0 : l ≠ []) (hl : ∀ s ∈ l, s.Good) (o : Outcome (List (K × Color)))
    (ho : (write blanks l, o) ∈ ((LazyTable.run true (loadGradient cast) (LazyTable.start [] progs) ts).threads t).done) :
    o = .ok (meaning l) := by
  obtain ⟨n, hn⟩ := (C108_answers_partial true (loadGradient cast) [] (by intro k v e; cases e) progs ts []).1 t
  rw [hn] at ho
  obtain ⟨q, _, he⟩ := List.mem_map.1 ho
  simp only [Prod.mk.injEq] at he
  obtain ⟨rfl, rfl⟩ := he
  exact (C109_stops_partial cast hc blanks l h0 hl).2

/-- C109 with C99: a surface which is drawn with a gradient of a stylesheet has at each point the first color which is written there or one between
two neighbours. Here the last one of several colors has no percentage (or at least 100). -/
theorem C109_surface_partial (cast : List Char → Option ℝ) (hc : Reads cast) (blanks : Nat) (l : List Stop) (h0 : l ≠ []) (hl : ∀ s ∈ l, s.Good)
    (hlast : ∀ s, l.getLast? = some s → ∀ ds, s.percent = some ds → 100 ≤ number ds)
    (site : Surface.Site) (o : Surface.Options) (look : Surface.Look) (markers : Option (Nat → Int)) (io : MeshBuilder.TriangleIo ℝ)
    (hs : ∀ p ∈ io.points, SurfaceProof.Small o look p) (m : MeshBuilder.Mesh ℝ) (n : Nat) (hm : MeshSpec.WellFormed m n) :
    ∃ g m', loadGradient cast (write blanks l) = .ok g ∧ Surface.fillMesh site o { look with gradient := g } markers m io = .ok m' ∧
      ∀ i p, io.points[i]? = some p → ∃ c color, ShownSpec.CornerAt m' (n + i) c ∧ SurfaceSpec.Packed color c.color ∧
        ((∃ s, l[0]? = some s ∧ color = s.color) ∨
          ∃ j A B, l[j]? = some A ∧ l[j + 1]? = some B ∧ Between 1 A.color B.color color) := by
  have hmap : (meaning (K := ℝ) l).map (·.2) = l.map (·.color) := by
    cases l with
    | nil => rfl
    | cons a l => simp [meaning, Function.comp_def]
  have get : ∀ (j : Nat) (A : ℝ × Color), (meaning (K := ℝ) l)[j]? = some A → ∃ s, l[j]? = some s ∧ s.color = A.2 := by
    intro j A hA
    have := congrArg (fun x => x[j]?) hmap
    simp only [List.getElem?_map, hA, Option.map_some] at this
    cases h : l[j]? with
    | none => rw [h] at this; cases this
    | some s => rw [h] at this; simp at this; exact ⟨s, rfl, this.symm⟩
  have hcomplete : SurfaceSpec.Complete (meaning (K := ℝ) l) := by
    intro last hlt hlen
    match l, hlast, hlt, hlen with
    | [], _, hlt, _ => simp [meaning] at hlt
    | [a], _, _, hlen => simp [meaning] at hlen
    | a :: b :: l, hlast, hlt, _ =>
      have hx : (meaning (K := ℝ) (a :: b :: l)).getLast? = ((b :: l).map fun s => ((s.time false : ℝ), s.color)).getLast? := by
        simp [meaning, List.getLast?_cons]
      rw [hx, List.getLast?_map] at hlt
      cases hb : (b :: l).getLast? with
      | none => rw [hb] at hlt; cases hlt
      | some s =>
        rw [hb] at hlt
        have : last = (s.time false, s.color) := by simpa using hlt.symm
        subst this
        have h2 := hlast s (by rw [List.getLast?_cons_cons]; exact hb)
        unfold Stop.time
        cases hp : s.percent with
        | none => simp
        | some ds =>
          have h100 : (100 : ℝ) ≤ (number ds : ℝ) := by exact_mod_cast h2 ds hp
          simp only
          rw [le_div_iff₀ (by norm_num)]
          linarith
  obtain ⟨m', hm', _, _, hpts⟩ := C99_points_partial site o { look with gradient := meaning l } markers hcomplete io hs m n hm
  refine ⟨meaning l, m', (C109_stops_partial cast hc blanks l h0 hl).2, hm', fun i p hp => ?_⟩
  obtain ⟨c, hcor, hlooks⟩ := hpts i p hp
  obtain ⟨color, hpk, h⟩ := hlooks.color
  refine ⟨c, color, hcor, hpk, ?_⟩
  rcases h with ⟨h, _⟩ | ⟨q, hq, rfl⟩ | ⟨j, A, B, hA, hB, hb⟩
  · cases l with
    | nil => exact absurd rfl h0
    | cons a l => simp [meaning] at h
  · obtain ⟨s, h1, h2⟩ := get 0 q hq
    exact Or.inl ⟨s, h1, h2.symm⟩
  · obtain ⟨s, h1, h2⟩ := get j A hA
    obtain ⟨s', h1', h2'⟩ := get (j + 1) B hB
    exact Or.inr ⟨j, s, s', h1, h1', by rw [h2, h2']; exact hb⟩

namespace GradientProof.Sample

/-- A conversion of digits. -/
def cast (s : List Char) : Option ℚ :=
  if s ≠ [] ∧ s.all isDigit then some (number (s.map fun c => c.toNat - 48)) else none

theorem cast_reads : Reads cast := by
  intro ds h0 h
  have hall : (ds.map digit).all isDigit = true := by
    rw [List.all_eq_true]; exact digits_class h
  have hback : (ds.map digit).map (fun c => c.toNat - 48) = ds := by
    rw [List.map_map]
    conv_rhs => rw [← List.map_id ds]
    apply List.map_congr_left
    intro d hd
    have key : ∀ d < 10, (digit d).toNat - 48 = d := by decide
    exact key d (h d hd)
  rw [cast, if_pos ⟨by simpa using h0, hall⟩, hback]

/-- A gradient of the library's stylesheets, and one with names. -/
def sheet : List Stop :=
  [⟨['#', '0', 'f', 'f', 'f', '8', 'f'], ⟨15, 255, 143, 255⟩, none⟩, ⟨['#', '0', 'F', 'f', 'f', '8', 'f'], ⟨15, 255, 143, 255⟩, some [5, 0]⟩,
   ⟨['r', 'e', 'd'], ⟨255, 0, 0, 255⟩, none⟩]

theorem sheet_good : ∀ s ∈ sheet, s.Good := by
  intro s hs
  simp only [sheet, List.mem_cons, List.not_mem_nil, or_false] at hs
  rcases hs with rfl | rfl | rfl
  · exact ⟨.hex _ _ _ _ _ _ 15 255 143 (by unfold Byte Digit; decide) (by unfold Byte Digit; decide) (by unfold Byte Digit; decide), by simp⟩
  · exact ⟨.hex _ _ _ _ _ _ 15 255 143 (by unfold Byte Digit; decide) (by unfold Byte Digit; decide) (by unfold Byte Digit; decide), by
      rintro ds ⟨⟩; decide⟩
  · exact ⟨.name _ _ (by decide +kernel), by simp⟩

end GradientProof.Sample

open GradientProof.Sample in
example : write 1 sheet = "gradient(#0fff8f, #0Fff8f 50%, red)".toList ∧
    loadGradient cast (write 1 sheet) = .ok [(0, ⟨15, 255, 143, 255⟩), (50 / 100, ⟨15, 255, 143, 255⟩), (1, ⟨255, 0, 0, 255⟩)] := by
  refine ⟨by decide +kernel, ?_⟩
  rw [(C109_stops_partial cast cast_reads 1 sheet (by simp [sheet]) sheet_good).2]
  simp [meaning, sheet, Stop.time, number]

open GradientProof.Sample in
example : ∃ g, loadGradient cast (write 1 sheet) = .ok g ∧ evaluate g (1 / 2) = .ok ⟨15, 255, 143, 255⟩ := by
  have h := C109_shown cast cast_reads 1 sheet (by simp [sheet]) sheet_good
    (by simp [Increasing, meaning, sheet, Stop.time, number]; norm_num) 1 _ rfl
  have e : ((⟨['#', '0', 'F', 'f', 'f', '8', 'f'], ⟨15, 255, 143, 255⟩, some [5, 0]⟩ : Stop).time (decide (1 = 0)) : ℚ) = 1 / 2 := by
    simp [Stop.time, number]; norm_num
  rw [e] at h
  exact h

-- two threads, the second one asks for a text which is refused
open GradientProof.Sample in
example : ((LazyTable.run true (loadGradient cast) (LazyTable.start [] fun t => if t = 0 then [write 1 sheet] else if t = 1 then [[], write 1 sheet] else [])
    [0, 0, 0, 0, 0, 1, 1, 1, 1]).threads 1).done = [([], .throw "MapCssException"), (write 1 sheet, .ok (meaning sheet))] := by
  decide +kernel

end Verif.Props
