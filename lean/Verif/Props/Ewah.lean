import Verif.Proof.EwahSet
import Verif.Props.EwahSpec
import Verif.Model.Streams
import Mathlib.Data.List.Induction

/-!
# C59 Compressed bitmaps

Exact for increasing positions and for `or`, `and` without limit; `xor` is exact for bitmaps below 1048544 positions
(32767 words) and wrong beyond: `addStreamOfNegatedDirtyWords` adds the words after an overflow of the literal counter
without negating them. Reading a bitmap back does not restore `lastRLW`: the positions are kept, but setting a further
position corrupts the bitmap.
-/
namespace Verif.Props
open Verif.Ewah
open Verif.Props.EwahSpec

/-- The largest number of positions the theorem about `xor` covers. -/
abbrev xorLimit : Nat := 32 * maxLit

theorem build_spec (l : List Nat) (h : l.Pairwise (· < ·)) :
    ∃ s ws, build l = some s ∧ Rep s ws ∧ Aligned s ws ∧ (∀ k, bit ws k = true ↔ k ∈ l) ∧
      (∀ i, (∀ k ∈ l, k < i) → s.size ≤ i) := by
  induction l using List.reverseRecOn with
  | nil =>
    refine ⟨empty, [], rfl, rep_empty, aligned_empty, ?_, ?_⟩
    · intro k; rw [bit_ge (by simp)]; simp
    · intro i _; exact Nat.zero_le _
  | append_singleton l i ih =>
    rw [List.pairwise_append] at h
    obtain ⟨s, ws, e1, e2, e3, e4, e5⟩ := ih h.1
    obtain ⟨s', ws', f1, f2, f3, f4, f5⟩ := set_spec (i := i) e2 e3
      (e5 i (fun k hk => h.2.2 k hk i (by simp)))
    refine ⟨s', ws', ?_, f2, f3, ?_, ?_⟩
    · unfold build at *
      rw [List.foldlM_append, e1]
      simp [f1]
    · intro k
      rw [f5]
      simp only [Bool.or_eq_true, e4, decide_eq_true_eq, List.mem_append, List.mem_singleton]
    · intro j hj
      rw [f4]
      exact hj i (by simp)

/-- Enumerating a bitmap built from an increasing list gives this list. -/
theorem C59_enumerates (l : List Nat) (h : l.Pairwise (· < ·)) : ∃ s, build l = some s ∧ bits s = l := by
  obtain ⟨s, ws, e1, e2, _, e4, _⟩ := build_spec l h
  refine ⟨s, e1, ?_⟩
  have hperm : (bits s).Perm l := by
    rw [List.perm_ext_iff_of_nodup]
    · intro k; rw [mem_bits e2, e4]
    · exact (bits_sorted e2).imp (fun h => Nat.ne_of_lt h)
    · exact h.imp (fun h => Nat.ne_of_lt h)
  exact hperm.eq_of_pairwise (fun a b _ _ h1 h2 => absurd h1 (Nat.lt_asymm h2)) (bits_sorted e2) h

/-- A position that is not larger than the last one is refused: the bitmap stays as it is. -/
theorem C59_refuses (l : List Nat) (h : l.Pairwise (· < ·)) (i k : Nat) (hk : k ∈ l) (hi : i ≤ k) :
    ∃ s, build l = some s ∧ set s i = some s := by
  obtain ⟨s, ws, e1, e2, e3, e4, _⟩ := build_spec l h
  refine ⟨s, e1, ?_⟩
  unfold Verif.Ewah.set
  rw [if_pos]
  by_contra hc
  have := e3.2 k (by omega)
  rw [(e4 k).2 hk] at this
  cases this

theorem bit_of_word {wa wb wc : List UInt32} {op : UInt32 → UInt32 → UInt32} {f : Bool → Bool → Bool}
    (h : ∀ k, wc.getD k 0 = op (wa.getD k 0) (wb.getD k 0))
    (hop : ∀ x y i, (op x y).toNat.testBit i = f (x.toNat.testBit i) (y.toNat.testBit i)) (k : Nat) :
    bit wc k = f (bit wa k) (bit wb k) := by
  unfold bit
  rw [h, hop]

theorem eval_spec (e : Expr) (h : e.Increasing) (hx : e.NoXor ∨ e.Below xorLimit) :
    ∃ s ws, e.eval = some s ∧ Rep s ws ∧ (∀ k, bit ws k = true ↔ e.Mem k) ∧
      (e.Below xorLimit → ws.length ≤ maxLit) := by
  induction e with
  | list l =>
    obtain ⟨s, ws, e1, e2, e3, e4, e5⟩ := build_spec l h
    refine ⟨s, ws, e1, e2, e4, ?_⟩
    intro hb
    have h1 := e3.1
    have h2 := e5 xorLimit hb
    unfold xorLimit at h2
    omega
  | or a b iha ihb =>
    obtain ⟨sa, wa, a1, a2, a3, a4⟩ := iha h.1 (hx.imp (·.1) (·.1))
    obtain ⟨sb, wb, b1, b2, b3, b4⟩ := ihb h.2 (hx.imp (·.2) (·.2))
    obtain ⟨c, wc, c1, c2, c3, _, c5⟩ := logicalOr_spec a2 b2
    refine ⟨c, wc, by simp [Expr.eval, a1, b1, c1], c2, ?_, ?_⟩
    · intro k
      rw [bit_of_word (f := (· || ·)) c3 (fun x y i => by rw [UInt32.toNat_or, Nat.testBit_or])]
      rw [Bool.or_eq_true, a3, b3]; rfl
    · intro hb
      have := a4 hb.1; have := b4 hb.2
      omega
  | and a b iha ihb =>
    obtain ⟨sa, wa, a1, a2, a3, a4⟩ := iha h.1 (hx.imp (·.1) (·.1))
    obtain ⟨sb, wb, b1, b2, b3, b4⟩ := ihb h.2 (hx.imp (·.2) (·.2))
    obtain ⟨c, wc, c1, c2, c3, _, c5⟩ := logicalAnd_spec a2 b2
    refine ⟨c, wc, by simp [Expr.eval, a1, b1, c1], c2, ?_, ?_⟩
    · intro k
      rw [bit_of_word (f := (· && ·)) c3 (fun x y i => by rw [UInt32.toNat_and, Nat.testBit_and])]
      rw [Bool.and_eq_true, a3, b3]; rfl
    · intro hb
      have := a4 hb.1; have := b4 hb.2
      omega
  | xor a b iha ihb =>
    have hb : (a.Below xorLimit) ∧ (b.Below xorLimit) := hx.resolve_left (fun h => h)
    obtain ⟨sa, wa, a1, a2, a3, a4⟩ := iha h.1 (.inr hb.1)
    obtain ⟨sb, wb, b1, b2, b3, b4⟩ := ihb h.2 (.inr hb.2)
    have la := a4 hb.1
    have lb := b4 hb.2
    obtain ⟨c, wc, c1, c2, c3, _, c5⟩ := logicalXor_spec a2 b2 (by omega)
    refine ⟨c, wc, by simp [Expr.eval, a1, b1, c1], c2, ?_, fun _ => by omega⟩
    intro k
    rw [bit_of_word (f := (· ^^ ·)) c3 (fun x y i => by rw [UInt32.toNat_xor, Nat.testBit_xor])]
    show _ ↔ ¬ (a.Mem k ↔ b.Mem k)
    rw [← a3, ← b3]
    cases bit wa k <;> cases bit wb k <;> simp

/-- `or` and `and` act pointwise on bitmaps of any size; the result is enumerated in increasing order. -/
theorem C59_or_and_pointwise (e : Expr) (h : e.Increasing) (hx : e.NoXor) :
    ∃ s, e.eval = some s ∧ (bits s).Pairwise (· < ·) ∧ ∀ k, k ∈ bits s ↔ e.Mem k := by
  obtain ⟨s, ws, e1, e2, e3, _⟩ := eval_spec e h (.inl hx)
  exact ⟨s, e1, bits_sorted e2, fun k => by rw [mem_bits e2, e3]⟩

/-- All three operations act pointwise while every position is below 1048544. Missing: larger bitmaps with `xor`
(`C59_violated_xor`). -/
theorem C59_pointwise_partial (e : Expr) (h : e.Increasing) (hb : e.Below 1048544) :
    ∃ s, e.eval = some s ∧ (bits s).Pairwise (· < ·) ∧ ∀ k, k ∈ bits s ↔ e.Mem k := by
  obtain ⟨s, ws, e1, e2, e3, _⟩ := eval_spec e h (.inr hb)
  exact ⟨s, e1, bits_sorted e2, fun k => by rw [mem_bits e2, e3]⟩

example : (Expr.xor (.or (.list [1, 5, 100]) (.list [2, 5000])) (.list [5, 2000])).eval.map bits =
    some [1, 2, 100, 2000, 5000] := by decide +kernel

/-! ## `xor` of large bitmaps -/

/-- The bitmap with the bits `0 .. 32 * n - 1`. -/
def ones (n : Nat) : Ewah := ⟨[marker (decide (0 < n)) n 0], 32 * n, 0⟩

/-- A further partial word with its lowest `j + 1` bits. -/
def onesPart (n j : Nat) : Ewah := ⟨[marker (decide (0 < n)) n 1, UInt32.ofNat (2 ^ (j + 1) - 1)], 32 * n + (j + 1), 0⟩

theorem set_fresh {s : Ewah} {i : Nat} (h1 : s.size ≤ i) (h2 : s.last < s.buffer.length)
    (h3 : (i + 32) / 32 - (s.size + 31) / 32 = 1) :
    Verif.Ewah.set s i = some (addLiteral { s with size := i + 1 } (bitWord i)) := by
  unfold Verif.Ewah.set
  rw [if_neg (by omega), if_neg (by omega)]
  simp only
  rw [h3, if_pos (by omega), if_neg (by omega)]

theorem set_same {s : Ewah} {i : Nat} (h1 : s.size ≤ i) (h2 : s.last + 1 < s.buffer.length)
    (h3 : (i + 32) / 32 - (s.size + 31) / 32 = 0) (h4 : numLit s.mark ≠ 0) :
    Verif.Ewah.set s i = (if s.buffer.getLastD 0 ||| bitWord i = 0xFFFFFFFF then
        some (addEmpty (Ewah.setMark { s with size := i + 1, buffer := s.buffer.dropLast }
          (setLit (s.buffer.dropLast.getD s.last 0) (numLit (s.buffer.dropLast.getD s.last 0) - 1))) true)
      else some { s with size := i + 1, buffer := s.buffer.dropLast ++ [s.buffer.getLastD 0 ||| bitWord i] }) := by
  unfold Verif.Ewah.set
  rw [if_neg (by omega), if_neg (by omega)]
  simp only
  rw [h3, if_neg (by omega), if_neg (by exact h4), if_neg (by omega : ¬ s.buffer.length ≤ s.last + 1)]
  rfl

theorem ones_first {n : Nat} (h : n < maxRun) : Verif.Ewah.set (ones n) (32 * n) = some (onesPart n 0) := by
  have hm : (ones n).mark = marker (decide (0 < n)) n 0 := rfl
  have h1 : numLit (marker (decide (0 < n)) n 0) = 0 := numLit_marker (by omega) (by simp [maxLit])
  rw [set_fresh (by simp [ones]) (by simp [ones]) (by simp only [ones]; omega)]
  simp only [ones, Verif.Ewah.addLiteral, Ewah.mark, List.getD_cons_zero, h1, maxLit]
  have hl : setLit (marker (decide (0 < n)) n 0) 1 = marker (decide (0 < n)) n 1 := by
    unfold setLit
    rw [runBit_marker (by omega) (by simp [maxLit]), runLen_marker (by omega) (by simp [maxLit])]
  have hb : bitWord (32 * n) = 1 := by
    unfold bitWord
    rw [show 32 * n % 32 = 0 by omega]; rfl
  simp [Ewah.setMark, Ewah.push, onesPart, hl, hb]

theorem or_bitWord {j : Nat} (h : j + 1 < 32) :
    UInt32.ofNat (2 ^ (j + 1) - 1) ||| UInt32.ofNat (2 ^ (j + 1)) = UInt32.ofNat (2 ^ (j + 2) - 1) := by
  have : ∀ j, j + 1 < 32 →
      UInt32.ofNat (2 ^ (j + 1) - 1) ||| UInt32.ofNat (2 ^ (j + 1)) = UInt32.ofNat (2 ^ (j + 2) - 1) := by
    intro j hj
    have : ∀ j < 31, UInt32.ofNat (2 ^ (j + 1) - 1) ||| UInt32.ofNat (2 ^ (j + 1)) = UInt32.ofNat (2 ^ (j + 2) - 1) := by
      decide
    exact this j (by omega)
  exact this j h

theorem ones_next {n j : Nat} (h : n < maxRun) (hj : j + 1 < 31) :
    Verif.Ewah.set (onesPart n j) (32 * n + (j + 1)) = some (onesPart n (j + 1)) := by
  have h1 : numLit (marker (decide (0 < n)) n 1) = 1 := numLit_marker (by omega) (by simp [maxLit])
  rw [set_same (by simp [onesPart]) (by simp [onesPart]) (by simp only [onesPart]; omega)
    (by simp [onesPart, Ewah.mark, h1])]
  have hw : UInt32.ofNat (2 ^ (j + 1) - 1) ||| bitWord (32 * n + (j + 1)) = UInt32.ofNat (2 ^ (j + 2) - 1) := by
    unfold bitWord
    rw [show (32 * n + (j + 1)) % 32 = j + 1 by omega]
    exact or_bitWord (by omega)
  have hne : UInt32.ofNat (2 ^ (j + 2) - 1) ≠ 0xFFFFFFFF := by
    have : ∀ j < 30, UInt32.ofNat (2 ^ (j + 2) - 1) ≠ 0xFFFFFFFF := by decide
    exact this j (by omega)
  simp [onesPart, hw, hne, Nat.add_assoc]

theorem ones_last {n : Nat} (h : n < maxRun) :
    Verif.Ewah.set (onesPart n 30) (32 * n + 31) = some (ones (n + 1)) := by
  have h1 : numLit (marker (decide (0 < n)) n 1) = 1 := numLit_marker (by omega) (by simp [maxLit])
  rw [set_same (by simp [onesPart]) (by simp [onesPart]) (by simp only [onesPart]; omega)
    (by simp [onesPart, Ewah.mark, h1])]
  have hw : 2147483647 ||| bitWord (32 * n + 31) = 0xFFFFFFFF := by
    unfold bitWord
    rw [show (32 * n + 31) % 32 = 31 by omega]
    decide
  have hm : setLit (marker (decide (0 < n)) n 1) 0 = marker (decide (0 < n)) n 0 := by
    unfold setLit
    rw [runBit_marker (by omega) (by simp [maxLit]), runLen_marker (by omega) (by simp [maxLit])]
  have h2 : numLit (marker (decide (0 < n)) n 0) = 0 := numLit_marker (by omega) (by simp [maxLit])
  have h3 : runLen (marker (decide (0 < n)) n 0) = n := runLen_marker (by omega) (by simp [maxLit])
  have h4 : runBit (marker (decide (0 < n)) n 0) = decide (0 < n) := runBit_marker (by omega) (by simp [maxLit])
  have h5 : setBit (marker (decide (0 < n)) n 0) true = marker true n 0 := by unfold setBit; rw [h2, h3]
  have h6 : runBit (marker true n 0) = true := runBit_marker (by omega) (by simp [maxLit])
  have h7 : ∀ b, setLen (marker b n 0) (n + 1) = marker b (n + 1) 0 := by
    intro b; unfold setLen
    rw [runBit_marker (by omega) (by simp [maxLit]), numLit_marker (by omega) (by simp [maxLit])]
  simp [onesPart, h1, hw, Ewah.setMark, hm, Verif.Ewah.addEmpty, Ewah.mark, h2, h3, h5]
  by_cases hn : n = 0
  · subst hn
    have hw' : 2147483647 ||| bitWord 31 = 0xFFFFFFFF := by decide
    simp [h6, h7, hw', ones, maxRun]
  · have : 0 < n := by omega
    simp [hn, hw, h6, this, h7, h, ones, Nat.mul_add]

/-- Setting the positions `0 .. 32 * n - 1` one after the other. -/
theorem build_ones (n : Nat) (h : n ≤ maxRun) : build (List.range (32 * n)) = some (ones n) := by
  induction n with
  | zero => rfl
  | succ n ih =>
    have hn : n < maxRun := by omega
    have hpart : ∀ j, j < 31 → build (List.range (32 * n + (j + 1))) = some (onesPart n j) := by
      intro j hj
      induction j with
      | zero =>
        rw [List.range_succ]
        unfold build at *
        rw [List.foldlM_append, ih (by omega)]
        simp [ones_first hn]
      | succ j ihj =>
        rw [← Nat.add_assoc, List.range_succ]
        unfold build at *
        rw [List.foldlM_append, ihj (by omega)]
        simp [ones_next hn hj]
    rw [show 32 * (n + 1) = (32 * n + (30 + 1)) + 1 by omega, List.range_succ]
    have := hpart 30 (by omega)
    unfold build at *
    rw [List.foldlM_append, this]
    simp [ones_last hn]

/-- The bitmap with the bits `0, 32, 64, .., 32 * (n - 1)`. -/
def sparse (n : Nat) : Ewah := ⟨marker false 0 n :: List.replicate n 1, if n = 0 then 0 else 32 * (n - 1) + 1, 0⟩

theorem build_sparse (n : Nat) (h : n ≤ maxLit) : build ((List.range n).map (32 * ·)) = some (sparse n) := by
  induction n with
  | zero => rfl
  | succ n ih =>
    rw [List.range_succ, List.map_append]
    have hn := ih (by omega)
    unfold build at *
    rw [List.foldlM_append, hn]
    have h1 : numLit (marker false 0 n) = n := numLit_marker (by simp [maxRun]) (by omega)
    have hset : Verif.Ewah.set (sparse n) (32 * n) = some (sparse (n + 1)) := by
      have hd : (32 * n + 32) / 32 - ((sparse n).size + 31) / 32 = 1 := by
        unfold sparse; simp only; split <;> omega
      have hs : (sparse n).size ≤ 32 * n := by unfold sparse; simp only; split <;> omega
      rw [set_fresh hs (by simp [sparse]) hd]
      have hb : bitWord (32 * n) = 1 := by unfold bitWord; rw [show 32 * n % 32 = 0 by omega]; rfl
      have hl : setLit (marker false 0 n) (n + 1) = marker false 0 (n + 1) := by
        unfold setLit
        rw [runBit_marker (by simp [maxRun]) (by omega), runLen_marker (by simp [maxRun]) (by omega)]
      have hlt : ¬ maxLit ≤ n := by omega
      simp [Verif.Ewah.addLiteral, Ewah.mark, sparse, h1, hb, hlt, Ewah.setMark, hl, Ewah.push,
        List.replicate_succ']
    simp [hset]

/-- One more: the literal counter is full, a second block begins. -/
def sparse' : Ewah :=
  ⟨marker false 0 maxLit :: List.replicate maxLit 1 ++ [marker false 0 1, 1], 32 * maxLit + 1, maxLit + 1⟩

theorem build_sparse' : build ((List.range 32768).map (32 * ·)) = some sparse' := by
  rw [show 32768 = maxLit + 1 from rfl, List.range_succ, List.map_append]
  have hn := build_sparse maxLit (by simp)
  unfold build at *
  rw [List.foldlM_append, hn]
  have h1 : numLit (marker false 0 maxLit) = maxLit := numLit_marker (by simp [maxRun]) (by omega)
  have hset : Verif.Ewah.set (sparse maxLit) (32 * maxLit) = some sparse' := by
    have hd : (32 * maxLit + 32) / 32 - ((sparse maxLit).size + 31) / 32 = 1 := by
      unfold sparse maxLit; simp only; split <;> omega
    have hs : (sparse maxLit).size ≤ 32 * maxLit := by unfold sparse maxLit; simp only; split <;> omega
    rw [set_fresh hs (by simp [sparse]) hd]
    have hb : bitWord (32 * maxLit) = 1 := by decide
    simp [Verif.Ewah.addLiteral, Ewah.mark, sparse, h1, hb, Ewah.pushMark, Ewah.push, sparse']
  simp [hset]

theorem addNegDirty_full : addNegDirty Verif.Ewah.empty (List.replicate maxLit 1) =
    ⟨marker false 0 maxLit :: List.replicate maxLit 0xFFFFFFFE, 0, 0⟩ := by
  have h0 : numLit 0 = 0 := by decide
  have h1 : setLit 0 maxLit = marker false 0 maxLit := by decide
  have h2 : (~~~ (1 : UInt32)) = 0xFFFFFFFE := by decide
  unfold addNegDirty
  rw [if_neg (by rw [List.length_replicate]; decide)]
  simp only [Ewah.mark, Verif.Ewah.empty, List.getD_cons_zero, h0, Nat.zero_add, List.length_replicate, Nat.le_refl,
    if_true, Ewah.setMark, Ewah.push, List.set_cons_zero, h1, List.map_replicate, h2, List.singleton_append]

theorem addNegDirty_overflow (r : List UInt32) (hr : r.length = maxLit) :
    addNegDirty ⟨marker false 0 maxLit :: r, 0, 0⟩ [1] =
    ⟨marker false 0 maxLit :: r ++ [marker false 0 1, 1], 0, maxLit + 1⟩ := by
  have h0 : numLit (marker false 0 maxLit) = maxLit := by decide
  have h1 : setLit (marker false 0 maxLit) maxLit = marker false 0 maxLit := by decide
  have h2 : setLit 0 1 = marker false 0 1 := by decide
  have h3 : numLit 0 = 0 := by decide
  unfold addNegDirty
  rw [if_neg (by simp)]
  simp only [Ewah.mark, List.getD_cons_zero, h0]
  rw [if_neg (by simp), Nat.sub_self]
  simp only [Ewah.setMark, h1, List.set_cons_zero, List.take_zero, List.map_nil, Ewah.push, List.append_nil, Ewah.pushMark,
    List.drop_zero, fastAddDirty, addDirty, List.length_cons, List.length_nil, Ewah.mark, hr]
  have hg : (marker false 0 maxLit :: r ++ [0]).getD (maxLit + 1) 0 = 0 := by
    rw [List.getD_append_right _ _ _ _ (by simp [hr])]; simp [hr]
  have hs : (marker false 0 maxLit :: r ++ [0]).set (maxLit + 1) (marker false 0 1) =
      marker false 0 maxLit :: r ++ [marker false 0 1] := by
    rw [List.set_append_right _ _ (by simp [hr])]; simp [hr]
  rw [if_neg (by omega), hg, h3, if_pos (by simp [maxLit]), Nat.zero_add, h2, hs]
  simp

theorem xor_witness {K f : Nat} (hK : K = maxLit) :
    outer xorStep (· ^^^ ·) (f + 3) ⟨false, 0, List.replicate K 1, [marker false 0 1, 1]⟩ ⟨true, K + 1, [], []⟩
      Verif.Ewah.empty = (⟨false, 0, [], []⟩, ⟨true, 0, [], []⟩,
        ⟨marker false 0 K :: List.replicate K 0xFFFFFFFE ++ [marker false 0 1, 1], 0, K + 1⟩) := by
  have hpos : 0 < K := by rw [hK]; decide
  have hfe : ∀ s b, fastAddEmpty s b 0 = s := by intro s b; unfold fastAddEmpty; simp
  have hn1 : Cur.next ⟨false, 0, List.replicate K 1, [marker false 0 1, 1]⟩ = (⟨false, 0, [1], []⟩, true) := by
    have a1 : numLit (marker false 0 1) = 1 := by decide
    have a2 : runLen (marker false 0 1) = 0 := by decide
    have a3 : runBit (marker false 0 1) = false := by decide
    unfold Cur.next; simp [a1, a2, a3]
  have hd : ∀ fuel, Cur.dischargeNeg (fuel + 3) ⟨false, 0, List.replicate K 1, [marker false 0 1, 1]⟩
      Verif.Ewah.empty 0 (K + 1) = (⟨false, 0, [], []⟩,
        ⟨marker false 0 K :: List.replicate K 0xFFFFFFFE ++ [marker false 0 1, 1], 0, K + 1⟩, K + 1) := by
    intro fuel
    rw [Cur.dischargeNeg, if_pos ⟨by omega, by simp [Cur.size, hpos]⟩]
    simp only [List.length_replicate, Nat.zero_add]
    rw [if_neg (by omega), if_neg (by omega), dropFirst_block (by simp [Cur.size]) (by omega), hn1, hfe]
    rw [List.take_of_length_le (by simp), hK, addNegDirty_full, ← hK]
    rw [Cur.dischargeNeg, if_pos ⟨by omega, by simp [Cur.size]⟩]
    simp only [List.length_singleton, Nat.zero_add, Nat.add_zero]
    rw [if_neg (by omega), if_neg (by omega), dropFirst_block (by simp [Cur.size]) (by omega), hfe]
    rw [List.take_of_length_le (by simp), hK, addNegDirty_overflow _ (by simp), ← hK]
    rw [Cur.dischargeNeg, if_neg (by omega)]
    simp [Cur.next]
  have hstep : xorStep ⟨false, 0, List.replicate K 1, [marker false 0 1, 1]⟩ ⟨true, K + 1, [], []⟩ Verif.Ewah.empty =
      (⟨false, 0, [], []⟩, ⟨marker false 0 K :: List.replicate K 0xFFFFFFFE ++ [marker false 0 1, 1], 0, K + 1⟩) := by
    unfold xorStep
    simp only [Bool.not_true, Bool.false_eq_true, if_false]
    rw [show Cur.size ⟨false, 0, List.replicate K 1, [marker false 0 1, 1]⟩ +
      [marker false 0 1, 1].length + 1 = K + 3 by simp [Cur.size], hd]
    simp only [Nat.sub_self, hfe]
  rw [outer, if_pos ⟨by simp [Cur.size, hpos], by simp [Cur.size]⟩]
  rw [inner, if_pos (.inr (by simp)), if_pos (by simp), hstep]
  simp only [Cur.dropRun, Cur.next, List.length_nil, if_true]
  rw [inner, if_neg (by simp)]
  simp only [List.length_nil, Nat.min_self, List.take_nil, List.zipWith_nil_left, List.foldl_nil]
  rw [if_neg (by omega), outer, if_neg (by simp [Cur.size])]
  rfl

theorem logicalXor_witness {K : Nat} (hK : K = maxLit) : logicalXor (ones (K + 1))
    ⟨marker false 0 K :: List.replicate K 1 ++ [marker false 0 1, 1], 32 * K + 1, K + 1⟩ =
    some ⟨marker false 0 K :: List.replicate K 0xFFFFFFFE ++ [marker false 0 1, 1], 32 * (K + 1), K + 1⟩ := by
  have hpos : 0 < K := by rw [hK]; decide
  have h1 : numLit (marker false 0 K) = K := by rw [hK]; decide
  have h2 : runLen (marker false 0 K) = 0 := by rw [hK]; decide
  have h3 : runBit (marker false 0 K) = false := by rw [hK]; decide
  have g1 : numLit (marker true (K + 1) 0) = 0 := by rw [hK]; decide
  have g2 : runLen (marker true (K + 1) 0) = K + 1 := by rw [hK]; decide
  have g3 : runBit (marker true (K + 1) 0) = true := by rw [hK]; decide
  have hi : Cur.start (marker false 0 K :: List.replicate K 1 ++ [marker false 0 1, 1]) =
      ⟨false, 0, List.replicate K 1, [marker false 0 1, 1]⟩ := by
    simp [Cur.start, Cur.next, h1, h2, h3, List.take_append, List.drop_append]
  have hj : Cur.start (ones (K + 1)).buffer = ⟨true, K + 1, [], []⟩ := by
    simp [Cur.start, Cur.next, ones, g1, g2, g3]
  have hfuel : ∃ f, fuelFor (ones (K + 1))
      ⟨marker false 0 K :: List.replicate K 1 ++ [marker false 0 1, 1], 32 * K + 1, K + 1⟩ = f + 3 := by
    refine ⟨fuelFor (ones (K + 1))
      ⟨marker false 0 K :: List.replicate K 1 ++ [marker false 0 1, 1], 32 * K + 1, K + 1⟩ - 3, ?_⟩
    have : (decode (ones (K + 1)).buffer).length = K + 1 := by
      simp [decode, ones, decodeAux, g1, g2]
    have h4 : (decode (marker false 0 K :: List.replicate K 1 ++ [marker false 0 1, 1])).length ≥ K := by
      simp [decode, decodeAux, h1, h2]
    unfold fuelFor
    simp only
    omega
  obtain ⟨f, hf⟩ := hfuel
  unfold logicalXor
  rw [if_neg (by simp [ones]), hf]
  simp only
  rw [hi, hj, xor_witness hK]
  simp only [Cur.size, List.length_nil, Nat.lt_irrefl, gt_iff_lt, if_false, Nat.zero_add, Cur.dischargeAll, if_true, ones,
    Option.some.injEq, Ewah.mk.injEq, and_true, true_and]
  rw [if_pos (by omega)]

/-- Both bitmaps contain position 1048544, but so does their `xor`. -/
theorem C59_violated_xor : ∃ a b c, build (List.range (32 * 32768)) = some a ∧
    build ((List.range 32768).map (32 * ·)) = some b ∧ logicalXor a b = some c ∧ 1048544 ∈ bits c := by
  refine ⟨_, _, _, build_ones 32768 (by simp [maxRun]), build_sparse', logicalXor_witness (K := maxLit) rfl, ?_⟩
  have hrep : Rep ⟨marker false 0 maxLit :: List.replicate maxLit 0xFFFFFFFE ++ [marker false 0 1, 1], 32 * (maxLit + 1),
      maxLit + 1⟩ (List.replicate maxLit 0xFFFFFFFE ++ [1]) := by
    refine ⟨[(marker false 0 maxLit, List.replicate maxLit 0xFFFFFFFE)], marker false 0 1, [1],
      ⟨by simp, by simp, by decide, ?_⟩, .inr (by simp), ?_⟩
    · intro b hb
      simp only [List.mem_singleton] at hb
      subst hb
      have h1 : numLit (marker false 0 maxLit) = maxLit := by decide
      exact ⟨by simp [h1], by simp only [List.length_replicate]; decide⟩
    · have h2 : run (marker false 0 maxLit) = [] := by decide
      have h3 : run (marker false 0 1) = [] := by decide
      simp [h2, h3]
  rw [mem_bits hrep, bit_append, if_neg (by rw [List.length_replicate]; decide), List.length_replicate]
  decide

/-- A bitmap read back from a stream: `lastRLW` keeps the value of a fresh bitmap (ewah.h:1121-1132). -/
def reread (s : Ewah) : Ewah := { s with last := 0 }

/-- Reading back keeps the positions. -/
theorem C59_reread_keeps_positions (s : Ewah) : bits (reread s) = bits s := rfl

/-- After reading back, setting a larger position loses or adds others. -/
theorem C59_violated_set_after_reread : ∃ s s', build [0, 1000] = some s ∧ set (reread s) 1040 = some s' ∧
    ¬ (∀ k, k ∈ bits s' ↔ k ∈ [0, 1000, 1040]) := by
  refine ⟨_, _, rfl, rfl, ?_⟩
  intro h
  have := (h 1000).2 (by simp)
  revert this
  decide +kernel

end Verif.Props
