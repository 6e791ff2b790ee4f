import Verif.Proof.EwahSet

/-!
Memory safety of `set` on bitmaps which were read back from a file (`lastRLW = 0`) and may therefore be damaged: all indices
stay inside the buffer.
-/
namespace Verif.Ewah

/-- The first marker. -/
def Ewah.first (s : Ewah) : UInt32 := s.buffer.getD 0 0

structure W (s : Ewah) : Prop where
  last : s.last + 1 + numLit s.mark ≤ s.buffer.length
  first : 1 + numLit s.first ≤ s.buffer.length
  order : s.last = 0 ∨ 1 + numLit s.first ≤ s.last
  full : s.last = 0 ∨ 0 < runLen s.first + numLit s.first

/-- The current marker is in use. -/
def Used (s : Ewah) : Prop := 0 < runLen s.mark + numLit s.mark

structure Sane (s : Ewah) : Prop where
  w : W s
  used : Used s ∨ s.size = 0

theorem W.mark_setMark {s : Ewah} (h : W s) (m : UInt32) : (s.setMark m).mark = m := by
  have := h.last
  simp only [Ewah.mark, Ewah.setMark]
  rw [List.getD_eq_getElem?_getD, List.getElem?_set, if_pos rfl, if_pos (by omega)]
  rfl

theorem W.setMarkPush {s : Ewah} (h : W s) (m : UInt32) (ws : List UInt32) (hm : numLit m ≤ numLit s.mark + ws.length) :
    W ((s.setMark m).push ws) ∧ ((s.setMark m).push ws).mark = m := by
  have h1 := h.last
  have hmk : ((s.setMark m).push ws).mark = m := by
    simp only [Ewah.mark, Ewah.push, Ewah.setMark]
    rw [List.getD_append _ _ _ _ (by simp; omega), List.getD_eq_getElem?_getD, List.getElem?_set, if_pos rfl, if_pos (by omega)]
    rfl
  have hf : ((s.setMark m).push ws).first = if s.last = 0 then m else s.first := by
    simp only [Ewah.first, Ewah.push, Ewah.setMark]
    rw [List.getD_append _ _ _ _ (by simp; omega), List.getD_eq_getElem?_getD, List.getElem?_set]
    split
    · rename_i hz; rw [if_pos (by omega)]; rfl
    · rename_i hz; rw [← List.getD_eq_getElem?_getD]
  have hlen : ((s.setMark m).push ws).buffer.length = s.buffer.length + ws.length := by
    simp [Ewah.push, Ewah.setMark]
  have hlast : ((s.setMark m).push ws).last = s.last := rfl
  have h2 := h.first
  have h3 := h.order
  have h4 := h.full
  refine ⟨⟨?_, ?_, ?_, ?_⟩, hmk⟩
  · rw [hmk, hlen, hlast]; omega
  · rw [hf, hlen]; split <;> omega
  · rw [hf, hlast]; split <;> omega
  · rw [hf, hlast]; split <;> omega

theorem push_nil (s : Ewah) : s.push [] = s := by simp [Ewah.push]

theorem W.setMark {s : Ewah} (h : W s) (m : UInt32) (hm : numLit m ≤ numLit s.mark) : W (s.setMark m) := by
  have := (h.setMarkPush m [] (by simpa using hm)).1
  rwa [push_nil] at this

theorem W.pushMarkPush {s : Ewah} (h : W s) (hu : Used s) (m : UInt32) (ws : List UInt32) (hm : numLit m ≤ ws.length) :
    W ((s.pushMark m).push ws) ∧ ((s.pushMark m).push ws).mark = m := by
  have h1 := h.last
  have h2 := h.first
  have h4 := h.full
  have hmk : ((s.pushMark m).push ws).mark = m := by
    simp only [Ewah.mark, Ewah.push, Ewah.pushMark]
    rw [List.getD_append _ _ _ _ (by simp), List.getD_append_right _ _ _ _ (by simp)]
    simp
  have hf : ((s.pushMark m).push ws).first = s.first := by
    simp only [Ewah.first, Ewah.push, Ewah.pushMark]
    rw [List.getD_append _ _ _ _ (by simp), List.getD_append _ _ _ _ (by omega)]
  have hlen : ((s.pushMark m).push ws).buffer.length = s.buffer.length + 1 + ws.length := by
    simp [Ewah.push, Ewah.pushMark]; omega
  have hlast : ((s.pushMark m).push ws).last = s.buffer.length := rfl
  refine ⟨⟨?_, ?_, ?_, ?_⟩, hmk⟩
  · rw [hmk, hlen, hlast]; omega
  · rw [hf, hlen]; omega
  · rw [hf, hlast]; omega
  · right; rw [hf]
    rcases h4 with h4 | h4
    · unfold Used Ewah.mark at hu
      rw [h4] at hu
      exact hu
    · exact h4

theorem W.pushMark {s : Ewah} (h : W s) (hu : Used s) (m : UInt32) (hm : numLit m = 0) :
    W (s.pushMark m) ∧ (s.pushMark m).mark = m := by
  have := h.pushMarkPush hu m [] (by simp [hm])
  rwa [push_nil] at this

theorem W.addLiteral {s : Ewah} (h : W s) (w : UInt32) :
    W (addLiteral s w) ∧ Used (addLiteral s w) ∧ (addLiteral s w).buffer.length ≤ s.buffer.length + 2 := by
  unfold Verif.Ewah.addLiteral
  split
  · rename_i hn
    have hu : Used s := by unfold Used; have : 0 < maxLit := by decide
                           omega
    obtain ⟨a, b⟩ := h.pushMarkPush hu (marker false 0 1) [w] (by rw [numLit_marker (by decide) (by decide)]; simp)
    refine ⟨a, ?_, by simp [Ewah.push, Ewah.pushMark]⟩
    unfold Used; rw [b]; decide
  · rename_i hn
    obtain ⟨a, b⟩ := h.setMarkPush (setLit s.mark (numLit s.mark + 1)) [w] (by rw [numLit_setLit (by omega)]; simp)
    refine ⟨a, ?_, by simp [Ewah.push, Ewah.setMark]⟩
    unfold Used; rw [b, numLit_setLit (by omega)]; omega

theorem W.addEmpty {s : Ewah} (h : W s) (v : Bool) :
    W (addEmpty s v) ∧ Used (addEmpty s v) ∧ (addEmpty s v).buffer.length ≤ s.buffer.length + 1 := by
  unfold Verif.Ewah.addEmpty
  simp only
  generalize hs1 : (if numLit s.mark = 0 ∧ runLen s.mark = 0 then s.setMark (setBit s.mark v) else s) = s1
  have h1 : W s1 ∧ numLit s1.mark = numLit s.mark ∧ runLen s1.mark = runLen s.mark ∧ s1.buffer.length = s.buffer.length ∧
      (numLit s.mark = 0 → runLen s.mark = 0 → runBit s1.mark = v) := by
    rw [← hs1]
    split
    · rw [h.mark_setMark]
      exact ⟨h.setMark _ (by simp), by simp, by simp, by simp [Ewah.setMark], by simp⟩
    · rename_i hc
      exact ⟨h, rfl, rfl, rfl, fun a b => absurd ⟨a, b⟩ hc⟩
  obtain ⟨w1, e1, e2, e3, e4⟩ := h1
  split
  · rename_i hc
    obtain ⟨c1, c2, c3⟩ := hc
    refine ⟨w1.setMark _ (by rw [numLit_setLen (by omega)]; exact Nat.le_refl _), ?_, by simp [Ewah.setMark, e3]⟩
    unfold Used
    rw [w1.mark_setMark, runLen_setLen (by omega)]; omega
  · rename_i hc
    have hu : Used s1 := by
      unfold Used
      by_contra hz
      apply hc
      refine ⟨by omega, e4 (by omega) (by omega), ?_⟩
      have : 0 < maxRun := by decide
      omega
    obtain ⟨a, b⟩ := w1.pushMark hu (marker v 1 0) (numLit_marker (by decide) (by decide))
    refine ⟨a, ?_, by simp [Ewah.pushMark, e3]⟩
    unfold Used; rw [b, runLen_marker (by decide) (by decide)]; omega

theorem W.addRuns (v : Bool) : ∀ (fuel : Nat) {s : Ewah} (n : Nat), W s → Used s →
    W (addRuns fuel s v n) ∧ Used (addRuns fuel s v n) ∧ (addRuns fuel s v n).buffer.length ≤ s.buffer.length + n := by
  intro fuel
  induction fuel with
  | zero => intro s n h hu; exact ⟨h, hu, by simp [Verif.Ewah.addRuns]⟩
  | succ fuel ih =>
    intro s n h hu
    unfold Verif.Ewah.addRuns
    have hp : 0 < maxRun := by decide
    split
    · rename_i hn
      obtain ⟨a, b⟩ := h.pushMark hu (marker v maxRun 0) (numLit_marker (by omega) (by decide))
      obtain ⟨c, d, e⟩ := ih (n - maxRun) a (by unfold Used; rw [b, runLen_marker (by omega) (by decide)]; omega)
      refine ⟨c, d, Nat.le_trans e ?_⟩
      simp [Ewah.pushMark]; omega
    · split
      · obtain ⟨a, b⟩ := h.pushMark hu (marker v n 0) (numLit_marker (by omega) (by decide))
        refine ⟨a, by unfold Used; rw [b, runLen_marker (by omega) (by decide)]; omega, ?_⟩
        simp [Ewah.pushMark]; omega
      · exact ⟨h, hu, by omega⟩

theorem W.fastAddEmpty {s : Ewah} (h : W s) (v : Bool) (n : Nat) :
    W (fastAddEmpty s v n) ∧ (fastAddEmpty s v n).buffer.length ≤ s.buffer.length + n + 1 := by
  unfold Verif.Ewah.fastAddEmpty
  split
  · exact ⟨h, by omega⟩
  · rename_i hn
    simp only
    generalize hs1 : (if runBit s.mark ≠ v ∧ runLen s.mark + numLit s.mark = 0 then s.setMark (setBit s.mark v)
        else if numLit s.mark ≠ 0 ∨ runBit s.mark ≠ v then s.pushMark (marker v 0 0) else s) = s1
    have h1 : W s1 ∧ numLit s1.mark = 0 ∧ s1.buffer.length ≤ s.buffer.length + 1 := by
      rw [← hs1]
      split
      · rename_i hc
        rw [h.mark_setMark]
        exact ⟨h.setMark _ (by simp), by simp; omega, by simp [Ewah.setMark]⟩
      · rename_i hc
        split
        · rename_i hd
          have hu : Used s := by
            unfold Used
            rcases hd with hd | hd
            · omega
            · by_contra hz; exact hc ⟨hd, by omega⟩
          obtain ⟨a, b⟩ := h.pushMark hu (marker v 0 0) (numLit_marker (by decide) (by decide))
          exact ⟨a, by rw [b]; exact numLit_marker (by decide) (by decide), by simp [Ewah.pushMark]⟩
        · rename_i hd
          exact ⟨h, by omega, by omega⟩
    obtain ⟨w1, e1, e2⟩ := h1
    have hr := runLen_le s1.mark
    generalize hcan : (if n < maxRun - runLen s1.mark then n else maxRun - runLen s1.mark) = can
    have hle : runLen s1.mark + can ≤ maxRun := by rw [← hcan]; split <;> omega
    have hp : 0 < maxRun := by decide
    have hpos : 0 < runLen s1.mark + can := by rw [← hcan]; split <;> omega
    have w2 := w1.setMark (setLen s1.mark (runLen s1.mark + can)) (by rw [numLit_setLen hle]; exact Nat.le_refl _)
    obtain ⟨a, b, c⟩ := W.addRuns v n (n - can) w2 (by
      unfold Used; rw [w1.mark_setMark, runLen_setLen hle]; omega)
    refine ⟨a, Nat.le_trans c ?_⟩
    simp only [Ewah.setMark, List.length_set]
    omega

theorem W.of_size {s : Ewah} (h : W s) (n : Nat) : W { s with size := n } := ⟨h.last, h.first, h.order, h.full⟩

/-- `set` on a sane bitmap is defined and keeps it sane. -/
theorem set_sane {s : Ewah} (h : Sane s) (i : Nat) (hb : s.buffer.length ≤ 5 * s.size + 1) :
    ∃ s', set s i = some s' ∧ Sane s' ∧ s'.size = max s.size (i + 1) ∧ s'.buffer.length ≤ 5 * s'.size + 1 ∧ Used s' := by
  by_cases hi : i < s.size
  · refine ⟨s, by simp [Verif.Ewah.set, hi], h, by omega, hb, ?_⟩
    rcases h.used with hu | hu
    · exact hu
    · omega
  have szLit : ∀ (s : Ewah) w, (Verif.Ewah.addLiteral s w).size = s.size := by
    intro s w; unfold Verif.Ewah.addLiteral; split <;> rfl
  have szRuns : ∀ n (s : Ewah) v k, (Verif.Ewah.addRuns n s v k).size = s.size := by
    intro n; induction n with
    | zero => intros; rfl
    | succ n ih => intro s v k; unfold Verif.Ewah.addRuns; split
                   · rw [ih]; rfl
                   · split <;> rfl
  have szFast : ∀ (s : Ewah) v n, (Verif.Ewah.fastAddEmpty s v n).size = s.size := by
    intro s v n; unfold Verif.Ewah.fastAddEmpty; split
    · rfl
    · simp only [szRuns, Ewah.setMark]
      split
      · rfl
      · split <;> rfl
  have szEmpty : ∀ (s : Ewah) v, (Verif.Ewah.addEmpty s v).size = s.size := by
    intro s v; unfold Verif.Ewah.addEmpty; simp only; split <;> split <;> rfl
  have h1 := h.w.last
  unfold Verif.Ewah.set
  rw [if_neg hi, if_neg (by omega)]
  simp only
  have w0 := h.w.of_size (i + 1)
  have hmk : Ewah.mark { s with size := i + 1 } = s.mark := rfl
  split
  · rename_i hd
    generalize hs1 : (if (i + 32) / 32 - (s.size + 31) / 32 > 1
        then Verif.Ewah.fastAddEmpty { s with size := i + 1 } false ((i + 32) / 32 - (s.size + 31) / 32 - 1)
        else { s with size := i + 1 }) = s1
    have hw1 : W s1 ∧ s1.buffer.length ≤ s.buffer.length + ((i + 32) / 32 - (s.size + 31) / 32 - 1) + 1 ∧ s1.size = i + 1 := by
      rw [← hs1]; split
      · obtain ⟨a, b⟩ := w0.fastAddEmpty false ((i + 32) / 32 - (s.size + 31) / 32 - 1)
        exact ⟨a, b, szFast _ _ _⟩
      · exact ⟨w0, by simp; omega, rfl⟩
    obtain ⟨a, b, c⟩ := hw1.1.addLiteral (bitWord i)
    have hsz : (Verif.Ewah.addLiteral s1 (bitWord i)).size = i + 1 := by rw [szLit]; exact hw1.2.2
    refine ⟨_, rfl, ⟨a, .inl b⟩, by rw [hsz]; omega, ?_, b⟩
    rw [hsz]; omega
  · rename_i hd
    have hu : Used s := by
      rcases h.used with hu | hu
      · exact hu
      · omega
    unfold Used at hu
    rw [hmk]
    split
    · rename_i hn
      rw [if_neg (by omega)]
      have hl := runLen_le s.mark
      have w1 := w0.setMark (setLen s.mark (runLen s.mark - 1)) (by rw [numLit_setLen (by omega), hmk]; exact Nat.le_refl _)
      obtain ⟨a, b, c⟩ := w1.addLiteral (bitWord i)
      refine ⟨_, rfl, ⟨a, .inl b⟩, by rw [szLit]; show i + 1 = _; omega, ?_, b⟩
      rw [szLit]
      simp only [Ewah.setMark, List.length_set] at c ⊢
      omega
    · rename_i hn
      have hne : s.buffer ≠ [] := by intro hc; rw [hc] at h1; simp at h1
      obtain ⟨b0, w, hbuf⟩ : ∃ b0 w, s.buffer = b0 ++ [w] := ⟨_, _, (List.dropLast_append_getLast hne).symm⟩
      have hlen : s.buffer.length = b0.length + 1 := by rw [hbuf]; simp
      have hmk0 : ∀ x, (b0 ++ [x]).getD s.last 0 = s.mark := by
        intro x
        unfold Ewah.mark
        rw [hbuf, List.getD_append _ _ _ _ (by omega), List.getD_append _ _ _ _ (by omega)]
      have hf0 : ∀ x, (b0 ++ [x]).getD 0 0 = s.first := by
        intro x
        unfold Ewah.first
        rw [hbuf, List.getD_append _ _ _ _ (by omega), List.getD_append _ _ _ _ (by omega)]
      have hmk1 : b0.getD s.last 0 = s.mark := by
        rw [← hmk0 0, List.getD_append _ _ _ _ (by omega)]
      have hf1 : b0.getD 0 0 = s.first := by
        rw [← hf0 0, List.getD_append _ _ _ _ (by omega)]
      have hml := numLit_le s.mark
      split
      · rw [if_neg (by omega)]
        simp only [hbuf, List.dropLast_concat]
        -- the state after removing the literal word and decrementing the count
        have hm1 : Ewah.mark { s with size := i + 1, buffer := b0 } = s.mark := hmk1
        rw [hm1]
        have hmark : (Ewah.setMark { s with size := i + 1, buffer := b0 } (setLit s.mark (numLit s.mark - 1))).mark =
            setLit s.mark (numLit s.mark - 1) := by
          simp only [Ewah.mark, Ewah.setMark]
          rw [List.getD_eq_getElem?_getD, List.getElem?_set, if_pos rfl, if_pos (by omega)]
          rfl
        have hfirst : (Ewah.setMark { s with size := i + 1, buffer := b0 } (setLit s.mark (numLit s.mark - 1))).first =
            if s.last = 0 then setLit s.mark (numLit s.mark - 1) else s.first := by
          simp only [Ewah.first, Ewah.setMark]
          rw [List.getD_eq_getElem?_getD, List.getElem?_set]
          split
          · rename_i hz; rw [if_pos (by omega)]; rfl
          · rw [← List.getD_eq_getElem?_getD]; exact hf1
        have hnl : numLit (setLit s.mark (numLit s.mark - 1)) = numLit s.mark - 1 := numLit_setLit (by omega)
        have o := h.w.order
        have f := h.w.full
        have w1 : W (Ewah.setMark { s with size := i + 1, buffer := b0 } (setLit s.mark (numLit s.mark - 1))) := by
          refine ⟨?_, ?_, ?_, ?_⟩
          · rw [hmark, hnl]; simp only [Ewah.setMark, List.length_set]; omega
          · rw [hfirst]; simp only [Ewah.setMark, List.length_set]; split <;> omega
          · rw [hfirst]; simp only [Ewah.setMark]; split <;> omega
          · rw [hfirst]; simp only [Ewah.setMark]; split <;> omega
        obtain ⟨a, b, c⟩ := w1.addEmpty true
        refine ⟨_, rfl, ⟨a, .inl b⟩, by rw [szEmpty]; show i + 1 = _; omega, ?_, b⟩
        rw [szEmpty]
        simp only [Ewah.setMark, List.length_set] at c ⊢
        omega
      · simp only [hbuf, List.dropLast_concat]
        generalize hx : (b0 ++ [w]).getLastD 0 ||| bitWord i = x
        have hm1 : Ewah.mark { s with size := i + 1, buffer := b0 ++ [x] } = s.mark := hmk0 x
        have hf2 : Ewah.first { s with size := i + 1, buffer := b0 ++ [x] } = s.first := hf0 x
        have hu' : Used { s with size := i + 1, buffer := b0 ++ [x] } := by unfold Used; rw [hm1]; exact hu
        have o := h.w.order
        have f := h.w.full
        have g := h.w.first
        refine ⟨_, rfl, ⟨⟨?_, ?_, ?_, ?_⟩, .inl hu'⟩, by simp; omega, ?_, hu'⟩
        · rw [hm1]; simp; omega
        · rw [hf2]; simp; omega
        · rw [hf2]; exact o
        · rw [hf2]; exact f
        · simp; omega

theorem sane_empty : Sane empty := ⟨⟨by decide, by decide, .inl rfl, .inl rfl⟩, .inr rfl⟩

/-- Reading back from a file keeps a bitmap sane. -/
theorem Sane.reload {s : Ewah} (h : Sane s) : Sane { s with last := 0 } := by
  have g := h.w.first
  refine ⟨⟨?_, g, .inl rfl, .inl rfl⟩, ?_⟩
  · show 0 + 1 + numLit s.first ≤ _
    simp only; omega
  · rcases h.used with hu | hu
    · left
      show 0 < runLen s.first + numLit s.first
      rcases h.w.full with hf | hf
      · unfold Used Ewah.mark at hu; rw [hf] at hu; exact hu
      · exact hf
    · exact .inr hu

end Verif.Ewah
