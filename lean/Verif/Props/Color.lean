import Verif.Props.ColorSpec
import Mathlib.Algebra.Order.Floor.Ring
import Mathlib.Algebra.Order.Round
import Mathlib.Data.Rat.Floor
import Mathlib.Tactic.Linarith
import Mathlib.Tactic.FieldSimp
import Mathlib.Tactic.NormNum
import Mathlib.Tactic.Ring

/-! # C32, C33, C47: colors and gradients -/
namespace Verif.Props
open Verif.Color Verif.ColorSpec

namespace ColorProof

theorem pack_toNat (c : Color) : (pack c).toNat = packed c := by
  have hr := c.r.toNat_lt; have hg := c.g.toNat_lt; have hb := c.b.toNat_lt; have ha := c.a.toNat_lt
  have h1 : (c.r.toNat * 2 ^ 24) % 2 ^ 32 = c.r.toNat * 2 ^ 24 := Nat.mod_eq_of_lt (by omega)
  have h2 : (c.g.toNat * 2 ^ 16) % 2 ^ 32 = c.g.toNat * 2 ^ 16 := Nat.mod_eq_of_lt (by omega)
  have h3 : (c.b.toNat * 2 ^ 8) % 2 ^ 32 = c.b.toNat * 2 ^ 8 := Nat.mod_eq_of_lt (by omega)
  have e1 : (c.r.toNat * 2 ^ 24) ||| (c.g.toNat * 2 ^ 16) = c.r.toNat * 2 ^ 24 + c.g.toNat * 2 ^ 16 := by
    have := Nat.shiftLeft_add_eq_or_of_lt (a := c.r.toNat) (b := c.g.toNat * 2 ^ 16) (i := 24) (by omega)
    rw [Nat.shiftLeft_eq] at this; exact this.symm
  have e2 : (c.r.toNat * 2 ^ 24 + c.g.toNat * 2 ^ 16) ||| (c.b.toNat * 2 ^ 8)
      = c.r.toNat * 2 ^ 24 + c.g.toNat * 2 ^ 16 + c.b.toNat * 2 ^ 8 := by
    have := Nat.shiftLeft_add_eq_or_of_lt (a := c.r.toNat * 2 ^ 8 + c.g.toNat) (b := c.b.toNat * 2 ^ 8) (i := 16) (by omega)
    rw [Nat.shiftLeft_eq, show (c.r.toNat * 2 ^ 8 + c.g.toNat) * 2 ^ 16 = c.r.toNat * 2 ^ 24 + c.g.toNat * 2 ^ 16 by ring] at this
    exact this.symm
  have e3 : (c.r.toNat * 2 ^ 24 + c.g.toNat * 2 ^ 16 + c.b.toNat * 2 ^ 8) ||| c.a.toNat = packed c := by
    have := Nat.shiftLeft_add_eq_or_of_lt (a := c.r.toNat * 2 ^ 16 + c.g.toNat * 2 ^ 8 + c.b.toNat) (b := c.a.toNat) (i := 8) (by omega)
    rw [Nat.shiftLeft_eq, show (c.r.toNat * 2 ^ 16 + c.g.toNat * 2 ^ 8 + c.b.toNat) * 2 ^ 8
      = c.r.toNat * 2 ^ 24 + c.g.toNat * 2 ^ 16 + c.b.toNat * 2 ^ 8 by ring] at this
    exact this.symm
  rw [pack]
  simp only [UInt32.toNat_or, UInt32.toNat_shiftLeft, UInt8.toNat_toUInt32, Nat.shiftLeft_eq]
  norm_num only [show (24 : UInt32).toNat % 32 = 24 from rfl, show (16 : UInt32).toNat % 32 = 16 from rfl,
    show (8 : UInt32).toNat % 32 = 8 from rfl] at *
  rw [h1, h2, h3, e1, e2, e3]

theorem byte_toNat (n : UInt32) (k : UInt32) (m : Nat) (hm : k.toNat % 32 = m) :
    (((n >>> k) &&& 0xff).toUInt8).toNat = n.toNat / 2 ^ m % 256 := by
  have h : (n.toNat >>> m) &&& 255 = n.toNat / 2 ^ m % 256 := by
    rw [Nat.shiftRight_eq_div_pow]; exact Nat.and_two_pow_sub_one_eq_mod _ 8
  simp only [UInt32.toNat_toUInt8, UInt32.toNat_and, UInt32.toNat_shiftRight, hm]
  rw [show (0xff : UInt32).toNat = 255 from rfl, h]
  omega

theorem byte0_toNat (n : UInt32) : ((n &&& 0xff).toUInt8).toNat = n.toNat % 256 := by
  simp only [UInt32.toNat_toUInt8, UInt32.toNat_and]
  rw [show (0xff : UInt32).toNat = 255 from rfl, show n.toNat &&& 255 = n.toNat % 256 from Nat.and_two_pow_sub_one_eq_mod _ 8]
  omega

theorem unpack_toNat (n : UInt32) : (unpack n).r.toNat = n.toNat / 2 ^ 24 % 256 ∧ (unpack n).g.toNat = n.toNat / 2 ^ 16 % 256 ∧
    (unpack n).b.toNat = n.toNat / 2 ^ 8 % 256 ∧ (unpack n).a.toNat = n.toNat % 256 :=
  ⟨byte_toNat n 24 24 rfl, byte_toNat n 16 16 rfl, byte_toNat n 8 8 rfl, byte0_toNat n⟩

theorem color_ext {c d : Color} (hr : c.r.toNat = d.r.toNat) (hg : c.g.toNat = d.g.toNat) (hb : c.b.toNat = d.b.toNat)
    (ha : c.a.toNat = d.a.toNat) : c = d := by
  cases c; cases d
  simp only [Color.mk.injEq]
  exact ⟨UInt8.toNat_inj.1 hr, UInt8.toNat_inj.1 hg, UInt8.toNat_inj.1 hb, UInt8.toNat_inj.1 ha⟩

theorem channel_toNat (x : Int) : ((channel x).toNat : Int) = max 0 (min x 255) := by
  rw [channel, UInt8.toNat_ofNat']
  omega

end ColorProof

open ColorProof

/-- C32: packing puts the channels into the four bytes, unpacking gives them back, and every 32-bit number is the packing of what it
unpacks to. -/
theorem C32_pack_unpack (c : Color) (n : UInt32) : (pack c).toNat = packed c ∧ unpack (pack c) = c ∧ pack (unpack n) = n := by
  refine ⟨pack_toNat c, ?_, ?_⟩
  · obtain ⟨h1, h2, h3, h4⟩ := unpack_toNat (pack c)
    rw [pack_toNat] at h1 h2 h3 h4
    have hr := c.r.toNat_lt; have hg := c.g.toNat_lt; have hb := c.b.toNat_lt; have ha := c.a.toNat_lt
    unfold packed at h1 h2 h3 h4
    exact color_ext (by omega) (by omega) (by omega) (by omega)
  · apply UInt32.toNat_inj.1
    obtain ⟨h1, h2, h3, h4⟩ := unpack_toNat n
    have hn := n.toNat_lt
    rw [pack_toNat, packed, h1, h2, h3, h4]
    omega

/-- C32: channels outside of 0..255 are clamped, those inside kept. -/
theorem C32_clamped (r g b a : Int) : ∃ r' g' b' a', channels (ofInts r g b a) = [r', g', b', a'] ∧ Clamped r r' ∧ Clamped g g' ∧
    Clamped b b' ∧ Clamped a a' := by
  have h : ∀ x : Int, Clamped x ((channel x).toNat : Int) := by
    intro x; rw [channel_toNat]; refine ⟨?_, ?_, ?_⟩ <;> intros <;> omega
  exact ⟨_, _, _, _, rfl, h r, h g, h b, h a⟩

/-- C32: sums of colors are clamped sums of channels. -/
theorem C32_sum_clamped (c d : Color) : ∃ r g b a, channels (add c d) = [r, g, b, a] ∧
    Clamped (c.r.toNat + d.r.toNat) r ∧ Clamped (c.g.toNat + d.g.toNat) g ∧ Clamped (c.b.toNat + d.b.toNat) b ∧
    Clamped (c.a.toNat + d.a.toNat) a := C32_clamped _ _ _ _

example : unpack (pack ⟨200, 17, 255, 3⟩) = ⟨200, 17, 255, 3⟩ := (C32_pack_unpack _ 0).2.1
example : (pack ⟨200, 17, 255, 3⟩) = 0xc811ff03 := by decide

/-! ## Gradients -/

namespace ColorProof
variable {K : Type} [Field K] [LinearOrder K] [IsStrictOrderedRing K] [FloorRing K]

theorem toInt_ok (x : K) (h0 : 0 ≤ x) (h1 : x ≤ 255) : toInt x = .ok ⌊x⌋ := by
  have a0 : 0 ≤ ⌊x⌋ := Int.floor_nonneg.2 h0
  have a1 : ⌊x⌋ ≤ 255 := by
    have : (⌊x⌋ : K) ≤ 255 := (Int.floor_le x).trans h1
    exact_mod_cast this
  simp only [toInt, if_pos h0]
  rw [if_pos ⟨by omega, by omega⟩]

theorem scaled (n : UInt8) (f : K) (h0 : 0 ≤ f) (h1 : f ≤ 1) : 0 ≤ (n.toNat : K) * f ∧ (n.toNat : K) * f ≤ 255 := by
  have hn : ((n.toNat : ℕ) : K) ≤ 255 := by
    have := n.toNat_lt
    exact_mod_cast (by omega : n.toNat ≤ 255)
  have hn0 : (0 : K) ≤ (n.toNat : K) := Nat.cast_nonneg _
  exact ⟨mul_nonneg hn0 h0, by nlinarith⟩

theorem scale_ok (c : Color) (f : K) (h0 : 0 ≤ f) (h1 : f ≤ 1) :
    scale c f = .ok (ofInts ⌊(c.r.toNat : K) * f⌋ ⌊(c.g.toNat : K) * f⌋ ⌊(c.b.toNat : K) * f⌋ ⌊(c.a.toNat : K) * f⌋) := by
  have h := fun n : UInt8 => toInt_ok _ (scaled n f h0 h1).1 (scaled n f h0 h1).2
  simp only [scale, h, Outcome.bind]

/-- One interpolated channel. -/
theorem channel_between (x y : UInt8) (f : K) (h0 : 0 ≤ f) (h1 : f ≤ 1) :
    let z := (channel ((channel ⌊(x.toNat : K) * (1 - f)⌋).toNat + (channel ⌊(y.toNat : K) * f⌋).toNat)).toNat
    min (x.toNat : Int) y.toNat - 1 ≤ z ∧ (z : Int) ≤ max (x.toNat : Int) y.toNat := by
  intro z
  have hx := scaled x (1 - f) (by linarith) (by linarith)
  have hy := scaled y f h0 h1
  have bound : ∀ u : K, 0 ≤ u → u ≤ 255 → 0 ≤ ⌊u⌋ ∧ ⌊u⌋ ≤ 255 := by
    intro u hu0 hu1
    refine ⟨Int.floor_nonneg.2 hu0, ?_⟩
    have : (⌊u⌋ : K) ≤ 255 := (Int.floor_le u).trans hu1
    exact_mod_cast this
  obtain ⟨p0, p1⟩ := bound _ hx.1 hx.2
  obtain ⟨q0, q1⟩ := bound _ hy.1 hy.2
  have lx := Int.floor_le ((x.toNat : K) * (1 - f)); have lx' := Int.lt_floor_add_one ((x.toNat : K) * (1 - f))
  have ly := Int.floor_le ((y.toNat : K) * f); have ly' := Int.lt_floor_add_one ((y.toNat : K) * f)
  have zx : (z : Int) = max 0 (min (⌊(x.toNat : K) * (1 - f)⌋ + ⌊(y.toNat : K) * f⌋) 255) := by
    simp only [z, channel_toNat]
    omega
  have up : ⌊(x.toNat : K) * (1 - f)⌋ + ⌊(y.toNat : K) * f⌋ ≤ max (x.toNat : Int) y.toNat := by
    have : ((⌊(x.toNat : K) * (1 - f)⌋ + ⌊(y.toNat : K) * f⌋ : Int) : K) ≤ ((max (x.toNat : Int) y.toNat : Int) : K) := by
      push_cast
      have hm1 : (x.toNat : K) ≤ max (x.toNat : K) (y.toNat : K) := le_max_left _ _
      have hm2 : (y.toNat : K) ≤ max (x.toNat : K) (y.toNat : K) := le_max_right _ _
      nlinarith
    exact_mod_cast this
  have lo : min (x.toNat : Int) y.toNat - 2 < ⌊(x.toNat : K) * (1 - f)⌋ + ⌊(y.toNat : K) * f⌋ := by
    have : ((min (x.toNat : Int) y.toNat - 2 : Int) : K) < ((⌊(x.toNat : K) * (1 - f)⌋ + ⌊(y.toNat : K) * f⌋ : Int) : K) := by
      push_cast
      have hm1 : min (x.toNat : K) (y.toNat : K) ≤ (x.toNat : K) := min_le_left _ _
      have hm2 : min (x.toNat : K) (y.toNat : K) ≤ (y.toNat : K) := min_le_right _ _
      nlinarith
    exact_mod_cast this
  have hxl := x.toNat_lt
  have hyl := y.toNat_lt
  rw [zx]
  constructor <;> omega

theorem interpolate_between (a b : Color) (f : K) (h0 : 0 ≤ f) (h1 : f ≤ 1) :
    ∃ c, interpolate a b f = .ok c ∧ Between 1 a b c := by
  refine ⟨_, by rw [interpolate, scale_ok a (1 - f) (by linarith) (by linarith), Outcome.bind, scale_ok b f h0 h1]; rfl, ?_⟩
  intro x hx
  simp only [channels, add, ofInts, List.zip_cons_cons, List.zip_nil_left, List.mem_cons, List.not_mem_nil, or_false] at hx
  rcases hx with rfl | rfl | rfl | rfl
  exacts [channel_between a.r b.r f h0 h1, channel_between a.g b.g f h0 h1, channel_between a.b b.b f h0 h1, channel_between a.a b.a f h0 h1]

theorem ofInts_self (c : Color) : ofInts c.r.toNat c.g.toNat c.b.toNat c.a.toNat = c := by
  have h : ∀ n : UInt8, (channel n.toNat).toNat = n.toNat := by
    intro n
    have := channel_toNat n.toNat
    have := n.toNat_lt
    omega
  exact color_ext (h _) (h _) (h _) (h _)

theorem scale_one (c : Color) : scale c (1 : K) = .ok c := by
  rw [scale_ok c 1 zero_le_one le_rfl]
  simp only [mul_one, Int.floor_natCast, ofInts_self]

theorem scale_zero (c : Color) : scale c (0 : K) = .ok {} := by
  rw [scale_ok c 0 le_rfl zero_le_one]
  simp only [mul_zero, Int.floor_zero]
  rfl

theorem add_zero' (c : Color) : add c {} = c ∧ add {} c = c := by
  constructor
  · have : add c {} = ofInts c.r.toNat c.g.toNat c.b.toNat c.a.toNat := by simp [add]
    rw [this, ofInts_self]
  · have : add {} c = ofInts c.r.toNat c.g.toNat c.b.toNat c.a.toNat := by simp [add]
    rw [this, ofInts_self]

theorem interpolate_zero (a b : Color) : interpolate a b (0 : K) = .ok a := by
  rw [interpolate, sub_zero, scale_one, Outcome.bind, scale_zero, Outcome.bind, (add_zero' a).1]

theorem interpolate_one (a b : Color) : interpolate a b (1 : K) = .ok b := by
  rw [interpolate, sub_self, scale_zero, Outcome.bind, scale_one, Outcome.bind, (add_zero' b).2]

theorem index_spec (time : K) : ∀ l : List (K × Color), l ≠ [] → index time l < l.length ∧
    (∀ j p, j < index time l → l[j]? = some p → p.1 < time) ∧
    (∀ p, index time l + 1 < l.length → l[index time l]? = some p → time ≤ p.1)
  | [], h => absurd rfl h
  | [a], _ => by simp [index]
  | a :: b :: l, _ => by
    obtain ⟨h1, h2, h3⟩ := index_spec time (b :: l) (by simp)
    by_cases ha : a.1 < time
    · have hi : index time (a :: b :: l) = index time (b :: l) + 1 := by rw [index, if_pos ha]
      rw [hi]
      refine ⟨by simp at h1 ⊢; omega, ?_, ?_⟩
      · intro j p hj hp
        cases j with
        | zero => simp at hp; rw [← hp]; exact ha
        | succ j => exact h2 j p (by omega) (by simpa using hp)
      · intro p hl hp
        exact h3 p (by simp at hl ⊢; omega) (by simpa using hp)
    · have hi : index time (a :: b :: l) = 0 := by rw [index, if_neg ha]
      rw [hi]
      refine ⟨by simp, by omega, ?_⟩
      intro p _ hp
      simp at hp; rw [← hp]; exact not_lt.1 ha

theorem evaluate_zero (l : List (K × Color)) (time : K) (p : K × Color) (hp : l[0]? = some p) (hi : index time l = 0) :
    evaluate l time = .ok p.2 := by
  have hne : l.isEmpty = false := by cases l <;> simp_all
  simp only [evaluate, hne, hi]
  simpa [hp] using interpolate_zero (K := K) p.2 p.2

theorem evaluate_succ (l : List (K × Color)) (time : K) (i : Nat) (A B : K × Color) (hA : l[i]? = some A) (hB : l[i + 1]? = some B)
    (hi : index time l = i + 1) (hne : B.1 ≠ A.1) :
    evaluate l time = interpolate A.2 B.2 ((time - A.1) / (B.1 - A.1)) := by
  have he : l.isEmpty = false := by cases l <;> simp_all
  have hs : B.1 - A.1 ≠ 0 := sub_ne_zero.2 hne
  simp only [evaluate, he, hi]
  simp [hA, hB, hs]

end ColorProof

section
variable {K : Type} [Field K] [LinearOrder K] [IsStrictOrderedRing K] [FloorRing K]

/-- C33: up to the time of the last stop, the color is the first one or lies between those of the two stops around the time. Partial:
each channel may be one below both, see `C33_violated_rounding`, and later times are excluded, see `C33_violated_after_last`. -/
theorem C33_between_partial (l : List (K × Color)) (time : K) (last : K × Color) (hl : l.getLast? = some last) (ht : time ≤ last.1) :
    (∃ p, l[0]? = some p ∧ evaluate l time = .ok p.2 ∧ (1 < l.length → time ≤ p.1)) ∨
    ∃ i A B c, l[i]? = some A ∧ l[i + 1]? = some B ∧ A.1 < time ∧ time ≤ B.1 ∧ evaluate l time = .ok c ∧ Between 1 A.2 B.2 c := by
  have hne : l ≠ [] := by rintro rfl; simp at hl
  obtain ⟨h1, h2, h3⟩ := index_spec time l hne
  rcases Nat.eq_zero_or_eq_succ_pred (index time l) with h0 | hs
  · left
    have hp : l[0]? = some l[0] := List.getElem?_eq_getElem (List.length_pos_iff.2 hne)
    exact ⟨_, hp, evaluate_zero l time _ hp h0, fun hlen => h3 _ (by omega) (by rw [h0]; exact hp)⟩
  · right
    obtain ⟨i, hi⟩ : ∃ i, index time l = i + 1 := ⟨_, hs⟩
    rw [hi] at h1 h2 h3
    have hA : l[i]? = some l[i] := List.getElem?_eq_getElem (by omega)
    have hB : l[i + 1]? = some l[i + 1] := List.getElem?_eq_getElem h1
    have hlt := h2 i _ (by omega) hA
    have hle : time ≤ l[i + 1].1 := by
      by_cases hlast : i + 1 + 1 < l.length
      · exact h3 _ hlast hB
      · rw [List.getLast?_eq_getElem?] at hl
        rw [show l.length - 1 = i + 1 by omega, hB] at hl
        simp at hl; rw [hl]; exact ht
    have hne' : l[i + 1].1 ≠ l[i].1 := (lt_of_lt_of_le hlt hle).ne'
    have hpos : 0 < l[i + 1].1 - l[i].1 := by linarith
    obtain ⟨c, hc, hb⟩ := interpolate_between l[i].2 l[i + 1].2 ((time - l[i].1) / (l[i + 1].1 - l[i].1))
      (div_nonneg (by linarith) hpos.le) ((div_le_one hpos).2 (by linarith))
    exact ⟨i, _, _, c, hA, hB, hlt, hle, (evaluate_succ l time i _ _ hA hB hi hne').trans hc, hb⟩

/-- C33: before the first stop the color is the first one. -/
theorem C33_before_first (l : List (K × Color)) (time : K) (p : K × Color) (hp : l[0]? = some p) (ht : time ≤ p.1) :
    evaluate l time = .ok p.2 := by
  refine evaluate_zero l time p hp ?_
  match l, hp with
  | [a], _ => rfl
  | a :: b :: l, hp =>
    simp at hp
    rw [index, if_neg (by rw [hp]; exact not_lt.2 ht)]

/-- C33: at the time of a stop the color is that of the stop. -/
theorem C33_at_stop (l : List (K × Color)) (hs : Increasing l) (i : Nat) (p : K × Color) (hp : l[i]? = some p) :
    evaluate l p.1 = .ok p.2 := by
  have hne : l ≠ [] := by rintro rfl; simp at hp
  obtain ⟨hi, hpe⟩ := List.getElem?_eq_some_iff.1 hp
  have hlt : ∀ j k (hj : j < l.length) (hk : k < l.length), j < k → l[j].1 < l[k].1 := List.pairwise_iff_getElem.1 hs
  obtain ⟨h1, h2, h3⟩ := index_spec p.1 l hne
  have hidx : index p.1 l = i := by
    rcases Nat.lt_trichotomy (index p.1 l) i with h | h | h
    · have := h3 _ (by omega) (List.getElem?_eq_getElem h1)
      have := hlt _ _ h1 hi h
      rw [hpe] at this
      exact absurd this (not_lt.2 (by assumption))
    · exact h
    · exact absurd (h2 i p h hp) (lt_irrefl _)
  cases i with
  | zero => exact evaluate_zero l _ p hp hidx
  | succ i =>
    have hA : l[i]? = some l[i] := List.getElem?_eq_getElem (by omega)
    have := hlt i (i + 1) (by omega) hi (by omega)
    rw [hpe] at this
    rw [evaluate_succ l _ i _ p hA hp hidx this.ne', div_self (by linarith), interpolate_one]

/-- C33 is false to the last unit: between two stops of one color every channel of 255 becomes 254. -/
theorem C33_violated_rounding :
    evaluate [((0 : ℚ), (⟨255, 255, 255, 255⟩ : Color)), (1, ⟨255, 255, 255, 255⟩)] (3 / 10) = .ok ⟨254, 254, 254, 254⟩ := by
  decide +kernel

/-- C33 is false after the last stop: the color goes on changing. -/
theorem C33_violated_after_last :
    evaluate [((0 : ℚ), (⟨0, 0, 0, 255⟩ : Color)), (1 / 2, ⟨100, 0, 0, 255⟩)] 1 = .ok ⟨200, 0, 0, 255⟩ := by
  decide +kernel

/-- C33 is false after two last stops with one time: the factor is infinite. -/
theorem C33_violated_repeated_last (t time : K) (c d : Color) (h : t < time) :
    ∃ w, evaluate [(t, c), (t, d)] time = .ub w := by
  refine ⟨"infinite factor", ?_⟩
  simp [evaluate, index, h]

/-- Far after the last stop the conversion to `int` overflows. -/
theorem C33_violated_far_after_last :
    ∃ w, evaluate [((0 : ℚ), (⟨0, 0, 0, 255⟩ : Color)), (1, ⟨100, 0, 0, 255⟩)] 100000000 = .ub w :=
  ⟨"conversion to int", by decide +kernel⟩

example : evaluate [((0 : ℚ), (⟨0, 0, 0, 255⟩ : Color)), (1 / 2, ⟨100, 0, 0, 255⟩), (1, ⟨0, 200, 0, 255⟩)] (3 / 4) = .ok ⟨50, 100, 0, 254⟩ := by
  decide +kernel
end

/-! ## Parsing -/

namespace ColorProof

theorem hex_digit (c : Char) (n : Nat) (h : Digit c n) : hexToInt c = .ok n := by
  have hn : n < 16 := by
    rcases h with h | h <;> exact (List.getElem?_eq_some_iff.1 h).1
  have : n = 0 ∨ n = 1 ∨ n = 2 ∨ n = 3 ∨ n = 4 ∨ n = 5 ∨ n = 6 ∨ n = 7 ∨ n = 8 ∨ n = 9 ∨ n = 10 ∨ n = 11 ∨ n = 12 ∨ n = 13 ∨ n = 14 ∨ n = 15 := by
    omega
  rcases h with h | h <;> rcases this with rfl | rfl | rfl | rfl | rfl | rfl | rfl | rfl | rfl | rfl | rfl | rfl | rfl | rfl | rfl | rfl <;>
    (simp at h; subst h; rfl)

theorem mem_of_lookup {α β : Type} [BEq α] [LawfulBEq α] (l : List (α × β)) (k : α) (v : β) (h : l.lookup k = some v) : (k, v) ∈ l := by
  induction l with
  | nil => simp at h
  | cons p l ih =>
    obtain ⟨a, b⟩ := p
    by_cases hk : k = a
    · subst hk; simp [List.lookup] at h; simp [h]
    · have hb : (k == a) = false := by simpa using hk
      simp only [List.lookup, hb] at h
      exact List.mem_cons_of_mem _ (ih h)

theorem hex_digit_iff (c : Char) (k : Int) (h : hexToInt c = .ok k) : ∃ n : Nat, k = n ∧ Digit c n := by
  have hm : (c, k) ∈ hexTable := by
    unfold hexToInt at h
    cases hl : hexTable.lookup c with
    | none => rw [hl] at h; simp at h
    | some v => rw [hl] at h; simp at h; rw [← h]; exact mem_of_lookup _ _ _ hl
  have all : ∀ p ∈ hexTable, p.2 = (p.2.toNat : Int) ∧ (['0', '1', '2', '3', '4', '5', '6', '7', '8', '9', 'a', 'b', 'c', 'd', 'e', 'f'][p.2.toNat]? = some p.1 ∨
      ['0', '1', '2', '3', '4', '5', '6', '7', '8', '9', 'A', 'B', 'C', 'D', 'E', 'F'][p.2.toNat]? = some p.1) := by decide
  exact ⟨k.toNat, all _ hm⟩

theorem hex_total (c : Char) : (∃ k, hexToInt c = .ok k) ∨ hexToInt c = .throw "invalid_argument" := by
  unfold hexToInt
  cases hexTable.lookup c with
  | none => exact .inr rfl
  | some v => exact .inl ⟨v, rfl⟩

end ColorProof

/-- C47: `#` and three bytes, each spelled by two digits in either case, give the opaque color of these bytes; whatever follows is ignored. -/
theorem C47_hex (r1 r2 g1 g2 b1 b2 : Char) (r g b : UInt8) (hr : Byte r1 r2 r) (hg : Byte g1 g2 g) (hb : Byte b1 b2 b) (rest : List Char) :
    parseColor ('#' :: r1 :: r2 :: g1 :: g2 :: b1 :: b2 :: rest) = .ok ⟨r, g, b, 255⟩ := by
  have key : ∀ n : UInt8, (channel (((n.toNat % 16 : Nat) : Int) + ((n.toNat / 16 : Nat) : Int) * 16)) = n := by
    intro n
    apply UInt8.toNat_inj.1
    have := channel_toNat (((n.toNat % 16 : Nat) : Int) + ((n.toNat / 16 : Nat) : Int) * 16)
    have := n.toNat_lt
    omega
  simp only [parseColor, fromHex, hexPair, charAt, List.getElem?_cons_zero, List.getElem?_cons_succ, Outcome.bind, if_true, ofInts,
    hex_digit _ _ hr.1, hex_digit _ _ hr.2, hex_digit _ _ hg.1, hex_digit _ _ hg.2, hex_digit _ _ hb.1, hex_digit _ _ hb.2, key]
  rfl

/-- C47: six characters which are not all digits are rejected. -/
theorem C47_not_hex (r1 r2 g1 g2 b1 b2 : Char) (rest : List Char) (h : ∃ c ∈ [r1, r2, g1, g2, b1, b2], ∀ n, ¬ Digit c n) :
    parseColor ('#' :: r1 :: r2 :: g1 :: g2 :: b1 :: b2 :: rest) = .throw "invalid_argument" := by
  have bad : ∀ c, (∀ n, ¬ Digit c n) → hexToInt c = .throw "invalid_argument" := by
    intro c hc
    rcases hex_total c with ⟨k, hk⟩ | h
    · obtain ⟨n, -, hn⟩ := hex_digit_iff c k hk; exact absurd hn (hc n)
    · exact h
  obtain ⟨c, hc, hbad⟩ := h
  have hb := bad c hbad
  simp only [parseColor, fromHex, hexPair, charAt, List.getElem?_cons_zero, List.getElem?_cons_succ, Outcome.bind, if_true]
  rcases hex_total r2 with ⟨k, e1⟩ | e1 <;> simp only [e1]
  rcases hex_total r1 with ⟨k, e2⟩ | e2 <;> simp only [e2]
  rcases hex_total g2 with ⟨k, e3⟩ | e3 <;> simp only [e3]
  rcases hex_total g1 with ⟨k, e4⟩ | e4 <;> simp only [e4]
  rcases hex_total b2 with ⟨k, e5⟩ | e5 <;> simp only [e5]
  rcases hex_total b1 with ⟨k, e6⟩ | e6 <;> simp only [e6]
  simp only [List.mem_cons, List.not_mem_nil, or_false] at hc
  rcases hc with rfl | rfl | rfl | rfl | rfl | rfl <;> simp_all

/-- C47: one, three or five characters after `#` are rejected. Partial: zero, two and four are not, see `C47_violated_short`. -/
theorem C47_short_rejected_partial (s : List Char) (h : s.length = 1 ∨ s.length = 3 ∨ s.length = 5) :
    parseColor ('#' :: s) = .throw "invalid_argument" := by
  have nul : hexToInt '\x00' = .throw "invalid_argument" := rfl
  match s, h with
  | [a], _ => simp [parseColor, fromHex, hexPair, charAt, Outcome.bind, nul]
  | [a, b, c], _ =>
    simp only [parseColor, fromHex, hexPair, charAt, List.getElem?_cons_zero, List.getElem?_cons_succ, Outcome.bind, if_true]
    rcases hex_total b with ⟨k, e1⟩ | e1 <;> simp only [e1]
    rcases hex_total a with ⟨k, e2⟩ | e2 <;> simp only [e2]
    simp [nul]
  | [a, b, c, d, e], _ =>
    simp only [parseColor, fromHex, hexPair, charAt, List.getElem?_cons_zero, List.getElem?_cons_succ, Outcome.bind, if_true]
    rcases hex_total b with ⟨k, e1⟩ | e1 <;> simp only [e1]
    rcases hex_total a with ⟨k, e2⟩ | e2 <;> simp only [e2]
    rcases hex_total d with ⟨k, e3⟩ | e3 <;> simp only [e3]
    rcases hex_total c with ⟨k, e4⟩ | e4 <;> simp only [e4]
    simp [nul]
  | [], h => simp at h
  | [a, b], h => simp at h
  | [a, b, c, d], h => simp at h
  | a :: b :: c :: d :: e :: f :: r, h => simp at h

/-- C47 is false for zero, two and four digits: a character behind the end of the string is read (for operands evaluated from left to right). -/
theorem C47_violated_short : parseColor ['#'] = .ub "string index" ∧ parseColor ['#', '1', '2'] = .ub "string index" ∧
    parseColor ['#', '1', '2', 'a', 'b'] = .ub "string index" := by
  refine ⟨?_, ?_, ?_⟩ <;> decide

/-- C47: a text which is not the name of a color gives grey. -/
theorem C47_unknown_name (s : List Char) (h0 : s.head? ≠ some '#') (h : ∀ c, (String.ofList s, c) ∉ colorMap) :
    parseColor s = .ok ⟨190, 190, 190, 255⟩ := by
  have hl : colorMap.lookup (String.ofList s) = none := by
    rw [List.lookup_eq_none_iff]
    intro p hp
    have : String.ofList s ≠ p.1 := by
      intro he
      exact h p.2 (by rw [he]; exact hp)
    simpa using this
  have hg : (colorMap.lookup "grey").getD {} = ⟨190, 190, 190, 255⟩ := by decide +kernel
  have hf : fromName s = ⟨190, 190, 190, 255⟩ := by rw [fromName, hl]; exact hg
  rw [parseColor]
  cases s with
  | nil => simp [charAt, Outcome.bind, hf]
  | cons c s =>
    have : c ≠ '#' := by simpa using h0
    simp [charAt, Outcome.bind, hf, this]

/-- C47: a name of the table gives the color of its entry; every name has one entry. -/
theorem C47_known_name (s : List Char) (c : Color) (h0 : s.head? ≠ some '#') (h : (String.ofList s, c) ∈ colorMap) :
    parseColor s = .ok c := by
  have hnd : (colorMap.map Prod.fst).Nodup := by decide +kernel
  have key : ∀ l : List (String × Color), (l.map Prod.fst).Nodup → ∀ k c, (k, c) ∈ l → l.lookup k = some c := by
    intro l
    induction l with
    | nil => intro _ k c h; simp at h
    | cons p l ih =>
      intro hn k c hm
      rw [List.map_cons, List.nodup_cons] at hn
      rcases List.mem_cons.1 hm with rfl | hm'
      · simp [List.lookup]
      · have : k ≠ p.1 := by
          rintro rfl
          exact hn.1 (List.mem_map.2 ⟨_, hm', rfl⟩)
        have hb : (k == p.1) = false := by simpa using this
        obtain ⟨p1, p2⟩ := p
        simp only [List.lookup, hb]
        exact ih hn.2 k c hm'
  have hf : fromName s = c := by rw [fromName, key colorMap hnd _ c h]
  rw [parseColor]
  cases s with
  | nil => simp [charAt, Outcome.bind, hf]
  | cons d s =>
    have : d ≠ '#' := by simpa using h0
    simp [charAt, Outcome.bind, hf, this]

example : parseColor ['#', 'f', 'F', '0', '0', '1', 'a'] = .ok ⟨255, 0, 26, 255⟩ :=
  C47_hex _ _ _ _ _ _ 255 0 26 ⟨.inl rfl, .inr rfl⟩ ⟨.inl rfl, .inl rfl⟩ ⟨.inl rfl, .inl rfl⟩ []

end Verif.Props
