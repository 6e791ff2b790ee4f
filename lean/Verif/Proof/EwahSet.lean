import Verif.Proof.EwahOps

/-! Lemmas about setting bits and iterating over the set bits. -/
namespace Verif.Ewah

/-- Bit `k` of a sequence of words. -/
def bit (ws : List UInt32) (k : Nat) : Bool := (ws.getD (k / 32) 0).toNat.testBit (k % 32)

/-- The number of words fits the size and the bits beyond the size are clear: the state of a bitmap built by `set`. -/
def Aligned (s : Ewah) (ws : List UInt32) : Prop :=
  ws.length = (s.size + 31) / 32 ∧ ∀ k, s.size ≤ k → bit ws k = false

theorem bit_ge {ws k} (h : 32 * ws.length ≤ k) : bit ws k = false := by
  unfold bit
  rw [List.getD_eq_default _ _ (by omega)]
  simp

theorem bit_append {a b : List UInt32} {k : Nat} :
    bit (a ++ b) k = if k < 32 * a.length then bit a k else bit b (k - 32 * a.length) := by
  unfold bit
  split
  · rename_i h; rw [List.getD_append _ _ _ _ (by omega)]
  · rename_i h
    rw [List.getD_append_right _ _ _ _ (by omega)]
    rw [show (k - 32 * a.length) / 32 = k / 32 - a.length by omega,
      show (k - 32 * a.length) % 32 = k % 32 by omega]

theorem bit_zeros {n k} : bit (List.replicate n 0) k = false := by
  unfold bit
  rw [List.getD_eq_getElem?_getD, List.getElem?_replicate]
  split <;> simp

theorem toNat_bitWord (i : Nat) : (bitWord i).toNat = 2 ^ (i % 32) := by
  unfold bitWord
  rw [UInt32.toNat_ofNat']
  apply Nat.mod_eq_of_lt
  exact Nat.pow_lt_pow_right (by omega) (by omega)

theorem bit_single {w : UInt32} {k : Nat} : bit [w] k = (decide (k < 32) && w.toNat.testBit k) := by
  by_cases h : k < 32
  · unfold bit
    rw [show k / 32 = 0 by omega, show k % 32 = k by omega]
    simp [h]
  · rw [bit_ge (by simp; omega)]; simp [h]

theorem bit_bitWord {i k : Nat} : bit [bitWord i] k = decide (k = i % 32) := by
  rw [bit_single, toNat_bitWord, Nat.testBit_two_pow]
  by_cases h : k = i % 32
  · subst h; simp; omega
  · simp [h]; intro _ h'; exact h h'.symm

theorem bit_or {w v : UInt32} {k : Nat} : bit [w ||| v] k = (bit [w] k || bit [v] k) := by
  simp only [bit_single, UInt32.toNat_or, Nat.testBit_or]
  cases decide (k < 32) <;> simp

theorem aligned_empty : Aligned empty [] := by
  refine ⟨rfl, fun k _ => bit_ge (by simp)⟩

theorem set_spec {s ws i} (h : Rep s ws) (ha : Aligned s ws) (hi : s.size ≤ i) :
    ∃ s' ws', set s i = some s' ∧ Rep s' ws' ∧ Aligned s' ws' ∧ s'.size = i + 1 ∧
      ∀ k, bit ws' k = (bit ws k || decide (k = i)) := by
  obtain ⟨a1, a2⟩ := ha
  -- it is enough to describe the bits
  suffices hs : ∃ s' ws', set s i = some s' ∧ Rep s' ws' ∧ ws'.length = (i + 32) / 32 ∧ s'.size = i + 1 ∧
      ∀ k, bit ws' k = (bit ws k || decide (k = i)) by
    obtain ⟨s', ws', e1, e2, e3, e4, e5⟩ := hs
    refine ⟨s', ws', e1, e2, ⟨by rw [e3, e4], ?_⟩, e4, e5⟩
    intro k hk
    rw [e4] at hk
    rw [e5, a2 k (by omega)]
    simp; omega
  unfold set
  have hlast : ¬ s.buffer.length ≤ s.last := by
    obtain ⟨bs, m, ls, v, _⟩ := h
    rw [v.buf, v.last]; simp
  rw [if_neg (by omega), if_neg hlast]
  simp only
  by_cases hd : (i + 32) / 32 - (s.size + 31) / 32 > 0
  · rw [if_pos hd]
    have h1 : Rep (if (i + 32) / 32 - (s.size + 31) / 32 > 1
        then Verif.Ewah.fastAddEmpty { s with size := i + 1 } false ((i + 32) / 32 - (s.size + 31) / 32 - 1)
        else { s with size := i + 1 }) (ws ++ List.replicate ((i + 32) / 32 - (s.size + 31) / 32 - 1) 0) := by
      split
      · exact (h.of_size (n := i + 1)).fastAddEmpty false _
      · rw [show (i + 32) / 32 - (s.size + 31) / 32 - 1 = 0 by omega]
        simpa using h.of_size (n := i + 1)
    refine ⟨_, _, rfl, h1.to0.addLiteral (bitWord i), ?_, ?_, ?_⟩
    · simp; omega
    · -- the size is not touched by the append operations
      have hl : ∀ (s : Ewah) w, (Verif.Ewah.addLiteral s w).size = s.size := by
        intro s w; unfold Verif.Ewah.addLiteral; split <;> rfl
      have hr : ∀ n (s : Ewah) v k, (Verif.Ewah.addRuns n s v k).size = s.size := by
        intro n; induction n with
        | zero => intros; rfl
        | succ n ih => intro s v k; unfold Verif.Ewah.addRuns; split
                       · rw [ih]; rfl
                       · split <;> rfl
      have hf : ∀ (s : Ewah) v n, (Verif.Ewah.fastAddEmpty s v n).size = s.size := by
        intro s v n; unfold Verif.Ewah.fastAddEmpty; split
        · rfl
        · simp only [hr, Ewah.setMark]
          split
          · rfl
          · split <;> rfl
      rw [hl]; split
      · rw [hf]
      · rfl
    · intro k
      rw [List.append_assoc, bit_append]
      split
      · rename_i hk
        simp; omega
      · rename_i hk
        rw [bit_append, bit_zeros, bit_bitWord, bit_ge (ws := ws) (k := k) (by omega)]
        simp only [List.length_replicate, Bool.false_or]
        split
        · simp; omega
        · simp only [decide_eq_decide]; omega
  · rw [if_neg hd]
    have hne : ws ≠ [] := by intro hc; simp [hc] at a1; omega
    have hidx : i / 32 + 1 = ws.length := by omega
    obtain ⟨bs, m, ls, v, hor, e⟩ := h
    have hmk : Ewah.mark { s with size := i + 1 } = m := v.mark
    have v0 : View { s with size := i + 1 } bs m ls := ⟨v.buf, v.last, v.lit, v.ok⟩
    rw [hmk]
    split
    · rename_i hn
      have hls : ls = [] := List.eq_nil_of_length_eq_zero (by rw [← v.lit]; exact hn)
      subst hls
      have hpos : 0 < runLen m := by
        rcases hor with hb | hb
        · subst hb
          by_contra hc
          apply hne
          rw [e]
          simp [run, show runLen m = 0 by omega]
        · simpa using hb
      rw [if_neg (by omega)]
      have hl := runLen_le m
      have hr : run m = List.replicate (runLen m - 1) (fill (runBit m)) ++ [fill (runBit m)] := by
        unfold run
        rw [← List.replicate_succ', show runLen m - 1 + 1 = runLen m by omega]
      have hwl : ws.length = (words bs).length + (runLen m - 1) + 1 := by
        rw [e, hr]; simp; omega
      have hb0 : runBit m = false := by
        have := a2 i hi
        rw [e, hr, List.append_nil, ← List.append_assoc, bit_append] at this
        rw [if_neg (by simp only [List.length_append, List.length_replicate]; omega)] at this
        rw [bit_single] at this
        cases hm : runBit m
        · rfl
        · exfalso
          rw [hm] at this
          simp only [List.length_append, List.length_replicate] at this
          have hlt : i - 32 * ((words bs).length + (runLen m - 1)) < 32 := by omega
          generalize i - 32 * ((words bs).length + (runLen m - 1)) = q at *
          have : ∀ q < 32, (fill true).toNat.testBit q = true := by decide
          simp_all
      have v1 := v0.setMark (m' := setLen m (runLen m - 1)) (by rw [numLit_setLen (by omega)]; exact v.lit)
      have h1 : Rep0 (Ewah.setMark { s with size := i + 1 } (setLen m (runLen m - 1)))
          (words bs ++ List.replicate (runLen m - 1) 0) :=
        ⟨_, _, _, v1, by rw [run_setLen (by omega), hb0]; simp [fill]⟩
      refine ⟨_, _, rfl, h1.addLiteral (bitWord i), ?_, ?_, ?_⟩
      · simp; omega
      · unfold Verif.Ewah.addLiteral; split <;> rfl
      · intro k
        have e' : ws = (words bs ++ List.replicate (runLen m - 1) 0) ++ [0] := by
          rw [e, hr, hb0]; simp [fill]
        rw [e', bit_append, bit_append (b := [0]), bit_bitWord]
        simp only [List.length_append, List.length_replicate]
        split
        · simp; omega
        · rw [bit_single]
          simp only [UInt32.toNat_zero, Nat.zero_testBit, Bool.and_false, Bool.false_or, decide_eq_decide]
          omega
    · rename_i hn
      have hls : ls ≠ [] := by intro hc; subst hc; exact hn (by simpa using v.lit)
      obtain ⟨ls0, w, rfl⟩ : ∃ ls0 w, ls = ls0 ++ [w] :=
        ⟨ls.dropLast, ls.getLast hls, (List.dropLast_append_getLast hls).symm⟩
      have hbuf : s.buffer = (flat bs ++ m :: ls0) ++ [w] := by rw [v.buf]; simp
      have hw : s.buffer.getLastD 0 = w := by rw [hbuf, List.getLastD_concat]
      have hdl : s.buffer.dropLast = flat bs ++ m :: ls0 := by rw [hbuf, List.dropLast_concat]
      have hwl : ws.length = (words bs ++ run m ++ ls0).length + 1 := by
        rw [e]; simp; omega
      have e' : ws = (words bs ++ run m ++ ls0) ++ [w] := by rw [e]; simp
      have hbits : ∀ k, bit ((words bs ++ run m ++ ls0) ++ [w ||| bitWord i]) k = (bit ws k || decide (k = i)) := by
        intro k
        rw [e', bit_append, bit_append (b := [w]), bit_or, bit_bitWord]
        split
        · simp; omega
        · congr 1
          simp only [decide_eq_decide]
          omega
      rw [hw, hdl]
      split
      · rename_i hall
        -- the word becomes a run
        rw [if_neg (by rw [hbuf, v.last]; simp)]
        have hlit := v.lit
        simp only [List.length_append, List.length_singleton] at hlit
        have hml := numLit_le m
        have hmark : Ewah.mark { s with size := i + 1, buffer := flat bs ++ m :: ls0 } = m := by
          simp [Ewah.mark, v.last]
        rw [hmark]
        have v1 : View (Ewah.setMark { s with size := i + 1, buffer := flat bs ++ m :: ls0 }
            (setLit m (numLit m - 1))) bs (setLit m (numLit m - 1)) ls0 := by
          refine ⟨?_, ?_, ?_, v.ok⟩
          · simp [Ewah.setMark, v.last]
          · simp [Ewah.setMark, v.last]
          · rw [numLit_setLit (by omega)]; omega
        have h1 : Rep0 _ (words bs ++ run m ++ ls0) :=
          ⟨_, _, _, v1, by rw [run_setLit (by omega)]; simp⟩
        refine ⟨_, _, rfl, h1.addEmpty true, ?_, ?_, ?_⟩
        · simp only [List.length_append, List.length_singleton] at hwl ⊢; omega
        · unfold Verif.Ewah.addEmpty
          simp only
          split <;> split <;> rfl
        · intro k
          rw [← hbits k, hall]; rfl
      · have v1 : View { s with size := i + 1, buffer := flat bs ++ m :: ls0 ++ [w ||| bitWord i] } bs m
            (ls0 ++ [w ||| bitWord i]) := by
          refine ⟨by simp, v.last, ?_, v.ok⟩
          rw [v.lit]; simp
        refine ⟨_, (words bs ++ run m ++ ls0) ++ [w ||| bitWord i], rfl,
          ⟨_, _, _, v1, .inr (by simp; omega), by simp⟩, ?_, rfl, hbits⟩
        simp only [List.length_append, List.length_singleton] at hwl ⊢; omega

/-! ## Iteration -/

/-- The positions of the set bits of `ws`, shifted by `pos`. -/
def positions (pos : Nat) (ws : List UInt32) : List Nat :=
  ((List.range (32 * ws.length)).filter (bit ws)).map (pos + ·)

theorem positions_append (pos : Nat) (a b : List UInt32) :
    positions pos (a ++ b) = positions pos a ++ positions (pos + 32 * a.length) b := by
  unfold positions
  rw [List.length_append, Nat.mul_add, List.range_add, List.filter_append, List.map_append]
  congr 1
  · congr 1
    apply List.filter_congr
    intro k hk
    rw [bit_append, if_pos (List.mem_range.1 hk)]
  · rw [List.filter_map, List.map_map]
    have : (bit (a ++ b) ∘ fun x => 32 * a.length + x) = bit b := by
      funext k
      simp only [Function.comp, bit_append]
      rw [if_neg (by omega), Nat.add_sub_cancel_left]
    rw [this]
    apply List.map_congr_left
    intro k _
    simp only [Function.comp]; omega

theorem positions_nil (pos : Nat) : positions pos [] = [] := rfl

theorem positions_single (pos : Nat) (w : UInt32) : positions pos [w] = wordBits pos w := by
  unfold positions wordBits
  congr 1

theorem positions_fill (pos n : Nat) (b : Bool) : positions pos (List.replicate n (fill b)) =
    if b then (List.range (32 * n)).map (pos + ·) else [] := by
  unfold positions
  have hb : ∀ k < 32 * n, bit (List.replicate n (fill b)) k = b := by
    intro k hk
    unfold bit
    rw [List.getD_eq_getElem?_getD, List.getElem?_replicate, if_pos (by omega)]
    have : ∀ q < 32, ∀ b : Bool, (fill b).toNat.testBit q = b := by decide
    exact this _ (by omega) b
  rw [List.length_replicate, List.filter_congr (q := fun _ => b)
    (fun k hk => hb k (List.mem_range.1 hk))]
  cases b <;> simp

theorem positions_lits (pos : Nat) (ls : List UInt32) : positions pos ls =
    (List.range ls.length).flatMap fun k => wordBits (pos + 32 * k) (ls.getD k 0) := by
  induction ls generalizing pos with
  | nil => rfl
  | cons w ls ih =>
    rw [show w :: ls = [w] ++ ls from rfl, positions_append, positions_single, ih]
    simp only [List.singleton_append, List.length_cons, List.length_nil]
    rw [List.range_succ_eq_map, List.flatMap_cons, List.flatMap_map]
    simp only [List.getD_cons_zero, List.getD_cons_succ, Nat.mul_zero, Nat.add_zero]
    congr 1
    apply List.flatMap_congr
    intro k _
    congr 1
    omega

theorem bitsFrom_flat {bs : List Block} (h : ∀ b ∈ bs, numLit b.1 = b.2.length) :
    ∀ n pos, (flat bs).length < n → bitsFrom n pos (flat bs) = positions pos (words bs) := by
  induction bs with
  | nil => intro n pos hn; cases n <;> simp [bitsFrom, positions_nil]
  | cons b bs ih =>
    intro n pos hn
    obtain ⟨m, ls⟩ := b
    have h0 : numLit m = ls.length := h (m, ls) (by simp)
    cases n with
    | zero => simp at hn
    | succ n =>
      simp only [flat_cons, List.cons_append, words_cons, bitsFrom, h0, List.take_left, List.drop_left]
      rw [ih (fun x hx => h x (List.mem_cons_of_mem _ hx)) n _ (by simp at hn; omega)]
      rw [List.append_assoc, positions_append, positions_append, ← positions_lits]
      unfold run
      rw [positions_fill, List.length_replicate]

theorem bits_spec {s ws} (h : Rep s ws) : bits s = (List.range (32 * ws.length)).filter (bit ws) := by
  obtain ⟨bs, m, ls, v, _, e⟩ := h
  have hb : s.buffer = flat (bs ++ [(m, ls)]) := by rw [v.buf]; simp
  unfold bits
  rw [hb, bitsFrom_flat]
  · unfold positions
    rw [e]; simp
  · intro b hb
    rcases List.mem_append.1 hb with hb | hb
    · exact (v.ok b hb).1
    · simp only [List.mem_singleton] at hb; subst hb; exact v.lit
  · omega

theorem mem_bits {s ws k} (h : Rep s ws) : k ∈ bits s ↔ bit ws k = true := by
  rw [bits_spec h, List.mem_filter, List.mem_range]
  refine ⟨fun h => h.2, fun hk => ⟨?_, hk⟩⟩
  by_contra hc
  rw [bit_ge (by omega)] at hk
  cases hk

theorem bits_sorted {s ws} (h : Rep s ws) : (bits s).Pairwise (· < ·) := by
  rw [bits_spec h]
  exact List.Pairwise.filter _ List.pairwise_lt_range

end Verif.Ewah
