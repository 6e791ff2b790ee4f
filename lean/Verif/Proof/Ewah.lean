import Verif.Model.Ewah
import Mathlib.Tactic.ByContra
import Mathlib.Data.List.Basic

/-! Lemmas about the compressed bitmap: the block structure of the buffer and the append operations. -/
namespace Verif.Ewah

theorem toNat_marker {b : Bool} {len lit : Nat} (h1 : len ≤ maxRun) (h2 : lit ≤ maxLit) :
    (marker b len lit).toNat = b.toNat + 2 * len + 131072 * lit := by
  unfold marker maxRun maxLit at *
  rw [UInt32.toNat_ofNat']
  have : b.toNat ≤ 1 := Bool.toNat_le b
  apply Nat.mod_eq_of_lt
  omega

theorem runBit_marker {b : Bool} {len lit : Nat} (h1 : len ≤ maxRun) (h2 : lit ≤ maxLit) :
    runBit (marker b len lit) = b := by
  unfold runBit; rw [toNat_marker h1 h2]
  cases b <;> simp <;> omega

theorem runLen_marker {b : Bool} {len lit : Nat} (h1 : len ≤ maxRun) (h2 : lit ≤ maxLit) :
    runLen (marker b len lit) = len := by
  unfold runLen; rw [toNat_marker h1 h2]
  have : b.toNat ≤ 1 := Bool.toNat_le b
  unfold maxRun maxLit at *
  omega

theorem numLit_marker {b : Bool} {len lit : Nat} (h1 : len ≤ maxRun) (h2 : lit ≤ maxLit) :
    numLit (marker b len lit) = lit := by
  unfold numLit; rw [toNat_marker h1 h2]
  have : b.toNat ≤ 1 := Bool.toNat_le b
  unfold maxRun maxLit at *
  omega

theorem runLen_le (w : UInt32) : runLen w ≤ maxRun := by unfold runLen maxRun; omega
theorem numLit_le (w : UInt32) : numLit w ≤ maxLit := by
  unfold numLit maxLit; have := w.toNat_lt; omega

@[simp] theorem runBit_setBit (w : UInt32) (b : Bool) : runBit (setBit w b) = b :=
  runBit_marker (runLen_le w) (numLit_le w)
@[simp] theorem runLen_setBit (w : UInt32) (b : Bool) : runLen (setBit w b) = runLen w :=
  runLen_marker (runLen_le w) (numLit_le w)
@[simp] theorem numLit_setBit (w : UInt32) (b : Bool) : numLit (setBit w b) = numLit w :=
  numLit_marker (runLen_le w) (numLit_le w)
theorem runBit_setLen {w : UInt32} {l : Nat} (h : l ≤ maxRun) : runBit (setLen w l) = runBit w :=
  runBit_marker h (numLit_le w)
theorem runLen_setLen {w : UInt32} {l : Nat} (h : l ≤ maxRun) : runLen (setLen w l) = l :=
  runLen_marker h (numLit_le w)
theorem numLit_setLen {w : UInt32} {l : Nat} (h : l ≤ maxRun) : numLit (setLen w l) = numLit w :=
  numLit_marker h (numLit_le w)
theorem runBit_setLit {w : UInt32} {l : Nat} (h : l ≤ maxLit) : runBit (setLit w l) = runBit w :=
  runBit_marker (runLen_le w) h
theorem runLen_setLit {w : UInt32} {l : Nat} (h : l ≤ maxLit) : runLen (setLit w l) = runLen w :=
  runLen_marker (runLen_le w) h
theorem numLit_setLit {w : UInt32} {l : Nat} (h : l ≤ maxLit) : numLit (setLit w l) = l :=
  numLit_marker (runLen_le w) h

/-! ## Blocks -/

abbrev Block := UInt32 × List UInt32

def fill (b : Bool) : UInt32 := if b then 0xFFFFFFFF else 0

def run (m : UInt32) : List UInt32 := List.replicate (runLen m) (fill (runBit m))

def flat (bs : List Block) : List UInt32 := bs.flatMap fun b => b.1 :: b.2

def words (bs : List Block) : List UInt32 := bs.flatMap fun b => run b.1 ++ b.2

def BlocksOk (bs : List Block) : Prop :=
  ∀ b ∈ bs, numLit b.1 = b.2.length ∧ 0 < runLen b.1 + b.2.length

@[simp] theorem flat_nil : flat [] = [] := rfl
@[simp] theorem flat_cons (b : Block) (bs : List Block) : flat (b :: bs) = b.1 :: b.2 ++ flat bs := by
  simp [flat]
@[simp] theorem flat_append (a b : List Block) : flat (a ++ b) = flat a ++ flat b := by simp [flat]
@[simp] theorem words_nil : words [] = [] := rfl
@[simp] theorem words_cons (b : Block) (bs : List Block) : words (b :: bs) = run b.1 ++ b.2 ++ words bs := by
  simp [words]
@[simp] theorem words_append (a b : List Block) : words (a ++ b) = words a ++ words b := by simp [words]

theorem BlocksOk.nil : BlocksOk [] := by intro b hb; cases hb
theorem BlocksOk.append {a b : List Block} (ha : BlocksOk a) (hb : BlocksOk b) : BlocksOk (a ++ b) := by
  intro x hx; rcases List.mem_append.1 hx with h | h
  · exact ha x h
  · exact hb x h
theorem BlocksOk.tail {b : Block} {bs : List Block} (h : BlocksOk (b :: bs)) : BlocksOk bs :=
  fun x hx => h x (List.mem_cons_of_mem _ hx)

theorem decodeAux_flat {bs : List Block} (h : ∀ b ∈ bs, numLit b.1 = b.2.length) :
    ∀ n, (flat bs).length < n → decodeAux n (flat bs) = words bs := by
  induction bs with
  | nil => intro n hn; cases n <;> simp [decodeAux]
  | cons b bs ih =>
    intro n hn
    obtain ⟨m, ls⟩ := b
    have h0 : numLit m = ls.length := h (m, ls) (by simp)
    cases n with
    | zero => simp at hn
    | succ n =>
      simp only [flat_cons, List.cons_append, words_cons, decodeAux, h0, List.take_left, List.drop_left]
      rw [ih (fun x hx => h x (List.mem_cons_of_mem _ hx)) n (by simp at hn; omega)]
      simp [run, fill]

theorem decode_flat {bs : List Block} (h : ∀ b ∈ bs, numLit b.1 = b.2.length) : decode (flat bs) = words bs :=
  decodeAux_flat h _ (by omega)

/-- The state of a bitmap under construction: complete blocks, the last marker and its literal words. -/
structure View (s : Ewah) (bs : List Block) (m : UInt32) (ls : List UInt32) : Prop where
  buf : s.buffer = flat bs ++ m :: ls
  last : s.last = (flat bs).length
  lit : numLit m = ls.length
  ok : BlocksOk bs

def View.ws {s bs m ls} (_ : View s bs m ls) : List UInt32 := words bs ++ (run m ++ ls)

theorem View.mark {s bs m ls} (v : View s bs m ls) : s.mark = m := by
  simp [Ewah.mark, v.buf, v.last]

theorem View.setMarkPush {s bs m ls} (v : View s bs m ls) {m' : UInt32} {ws : List UInt32}
    (h : numLit m' = (ls ++ ws).length) : View ((s.setMark m').push ws) bs m' (ls ++ ws) := by
  refine ⟨?_, ?_, h, v.ok⟩
  · simp [Ewah.setMark, Ewah.push, v.buf, v.last]
  · simp [Ewah.setMark, Ewah.push, v.last]

theorem View.setMark {s bs m ls} (v : View s bs m ls) {m' : UInt32}
    (h : numLit m' = ls.length) : View (s.setMark m') bs m' ls := by
  refine ⟨?_, ?_, h, v.ok⟩
  · simp [Ewah.setMark, v.buf, v.last]
  · simp [Ewah.setMark, v.last]

theorem View.pushMark {s bs m ls} (v : View s bs m ls) (h : 0 < runLen m + ls.length) {m' : UInt32}
    {ws : List UInt32} (h' : numLit m' = ws.length) :
    View ((s.pushMark m').push ws) (bs ++ [(m, ls)]) m' ws := by
  refine ⟨?_, ?_, h', v.ok.append ?_⟩
  · simp [Ewah.pushMark, Ewah.push, v.buf]
  · simp [Ewah.pushMark, Ewah.push, v.buf]
  · intro b hb
    simp only [List.mem_singleton] at hb
    subst hb
    exact ⟨v.lit, h⟩

theorem View.pushMark0 {s bs m ls} (v : View s bs m ls) (h : 0 < runLen m + ls.length) {m' : UInt32}
    (h' : numLit m' = 0) : View (s.pushMark m') (bs ++ [(m, ls)]) m' [] := by
  have := v.pushMark h (m' := m') (ws := []) (by simpa using h')
  simpa [Ewah.push] using this

/-- `s` represents the words `ws`; only a bitmap without words may have an empty last block. -/
def Rep (s : Ewah) (ws : List UInt32) : Prop :=
  ∃ bs m ls, View s bs m ls ∧ (bs = [] ∨ 0 < runLen m + ls.length) ∧ ws = words bs ++ (run m ++ ls)

/-- As `Rep`, but the last block may be empty. -/
def Rep0 (s : Ewah) (ws : List UInt32) : Prop :=
  ∃ bs m ls, View s bs m ls ∧ ws = words bs ++ (run m ++ ls)

theorem rep_empty : Rep empty [] := by
  refine ⟨[], 0, [], ⟨rfl, rfl, by decide, BlocksOk.nil⟩, .inl rfl, ?_⟩
  rfl

theorem Rep.to0 {s ws} (h : Rep s ws) : Rep0 s ws := by
  obtain ⟨bs, m, ls, v, _, e⟩ := h
  exact ⟨bs, m, ls, v, e⟩

theorem Rep.of_size {s ws n} (h : Rep s ws) : Rep { s with size := n } ws := by
  obtain ⟨bs, m, ls, v, h1, e⟩ := h
  exact ⟨bs, m, ls, ⟨v.buf, v.last, v.lit, v.ok⟩, h1, e⟩

theorem Rep0.decode {s ws} (h : Rep0 s ws) : decode s.buffer = ws := by
  obtain ⟨bs, m, ls, v, e⟩ := h
  have : s.buffer = flat (bs ++ [(m, ls)]) := by rw [v.buf]; simp
  rw [this, decode_flat, e]
  · simp
  · intro b hb
    rcases List.mem_append.1 hb with hb | hb
    · exact (v.ok b hb).1
    · simp only [List.mem_singleton] at hb; subst hb; exact v.lit

theorem Rep.decode {s ws} (h : Rep s ws) : decode s.buffer = ws := h.to0.decode

theorem run_setLit {w : UInt32} {l : Nat} (h : l ≤ maxLit) : run (setLit w l) = run w := by
  unfold run; rw [runLen_setLit h, runBit_setLit h]

theorem Rep0.addLiteral {s ws} (h : Rep0 s ws) (w : UInt32) : Rep (addLiteral s w) (ws ++ [w]) := by
  obtain ⟨bs, m, ls, v, e⟩ := h
  unfold Verif.Ewah.addLiteral
  rw [v.mark]
  split
  · rename_i hge
    have v' := v.pushMark (by rw [← v.lit]; unfold maxLit at hge; omega) (m' := marker false 0 1) (ws := [w])
      (by rw [numLit_marker] <;> simp [maxRun, maxLit])
    refine ⟨_, _, _, v', .inr (by simp), ?_⟩
    have : run (marker false 0 1) = [] := by
      unfold run; rw [runLen_marker] <;> simp [maxRun, maxLit]
    simp [e, this]
  · rename_i hlt
    have hl : numLit m + 1 ≤ maxLit := by omega
    have v' := v.setMarkPush (m' := setLit m (numLit m + 1)) (ws := [w])
      (by rw [numLit_setLit hl]; simp [v.lit])
    refine ⟨_, _, _, v', .inr (by simp; omega), ?_⟩
    rw [run_setLit hl]
    simp [e]

theorem run_marker {b : Bool} {n : Nat} (h : n ≤ maxRun) : run (marker b n 0) = List.replicate n (fill b) := by
  unfold run; rw [runLen_marker h (by simp [maxLit]), runBit_marker h (by simp [maxLit])]

theorem run_setLen {w : UInt32} {l : Nat} (h : l ≤ maxRun) :
    run (setLen w l) = List.replicate l (fill (runBit w)) := by
  unfold run; rw [runLen_setLen h, runBit_setLen h]

theorem Rep0.addEmpty {s ws} (h : Rep0 s ws) (b : Bool) : Rep (addEmpty s b) (ws ++ [fill b]) := by
  obtain ⟨bs, m, ls, v, e⟩ := h
  unfold Verif.Ewah.addEmpty
  simp only [v.mark]
  by_cases h0 : numLit m = 0 ∧ runLen m = 0
  · rw [if_pos h0]
    have v1 := v.setMark (m' := setBit m b) (by simp [v.lit])
    have hls : ls = [] := List.eq_nil_of_length_eq_zero (by rw [← v.lit]; exact h0.1)
    rw [v1.mark, if_pos ⟨h0.1, by simp, by rw [h0.2]; simp [maxRun]⟩]
    have hr : runLen m + 1 ≤ maxRun := by rw [h0.2]; simp [maxRun]
    have v2 := v1.setMark (m' := setLen (setBit m b) (runLen m + 1)) (by rw [numLit_setLen hr]; simp [v.lit])
    refine ⟨_, _, _, v2, .inr (by rw [runLen_setLen hr]; omega), ?_⟩
    rw [run_setLen hr, e, hls]
    simp [run, h0.2]
  · rw [if_neg h0, v.mark]
    by_cases h1 : numLit m = 0 ∧ runBit m = b ∧ runLen m < maxRun
    · rw [if_pos h1]
      have hr : runLen m + 1 ≤ maxRun := by omega
      have hls : ls = [] := List.eq_nil_of_length_eq_zero (by rw [← v.lit]; exact h1.1)
      have v2 := v.setMark (m' := setLen m (runLen m + 1)) (by rw [numLit_setLen hr]; simp [v.lit])
      refine ⟨_, _, _, v2, .inr (by rw [runLen_setLen hr]; omega), ?_⟩
      rw [run_setLen hr, e, hls, List.replicate_succ']
      simp [run, h1.2.1]
    · rw [if_neg h1]
      have v2 := v.pushMark0 (by rw [← v.lit]; omega) (m' := marker b 1 0)
        (by rw [numLit_marker] <;> simp [maxRun, maxLit])
      refine ⟨_, _, _, v2, .inr (by rw [runLen_marker] <;> simp [maxRun, maxLit]), ?_⟩
      rw [run_marker (by simp [maxRun]), e]
      simp

theorem Rep.addRuns {b : Bool} : ∀ {fuel : Nat} {s : Ewah} {ws : List UInt32} {n : Nat}, n ≤ fuel →
    (∃ bs m ls, View s bs m ls ∧ 0 < runLen m + ls.length ∧ ws = words bs ++ (run m ++ ls)) →
    Rep (addRuns fuel s b n) (ws ++ List.replicate n (fill b)) := by
  intro fuel
  induction fuel with
  | zero =>
    rintro s ws n hn ⟨bs, m, ls, v, hne, e⟩
    have : n = 0 := by omega
    subst this
    exact ⟨bs, m, ls, by simpa [Verif.Ewah.addRuns] using v, .inr hne, by simpa using e⟩
  | succ fuel ih =>
    rintro s ws n hn ⟨bs, m, ls, v, hne, e⟩
    unfold Verif.Ewah.addRuns
    split
    · rename_i hge
      have v2 := v.pushMark0 hne (m' := marker b maxRun 0) (by rw [numLit_marker] <;> simp [maxLit])
      have h2 : 0 < runLen (marker b maxRun 0) + ([] : List UInt32).length := by
        rw [runLen_marker] <;> simp [maxRun, maxLit]
      have := ih (s := s.pushMark (marker b maxRun 0)) (ws := ws ++ List.replicate maxRun (fill b))
        (n := n - maxRun) (by unfold maxRun at *; omega)
        ⟨_, _, _, v2, h2, by rw [run_marker (by simp), e]; simp⟩
      rw [List.append_assoc, List.replicate_append_replicate] at this
      rwa [show maxRun + (n - maxRun) = n by omega] at this
    · rename_i hlt
      split
      · rename_i hpos
        have hn' : n ≤ maxRun := by omega
        have v2 := v.pushMark0 hne (m' := marker b n 0) (by rw [numLit_marker hn'] <;> simp [maxLit])
        refine ⟨_, _, _, v2, .inr (by rw [runLen_marker hn'] <;> simp [maxLit]; exact hpos), ?_⟩
        rw [run_marker hn', e]
        simp
      · have : n = 0 := by omega
        subst this
        exact ⟨bs, m, ls, v, .inr hne, by simpa using e⟩

theorem Rep.fastAddEmpty {s ws} (h : Rep s ws) (b : Bool) (n : Nat) :
    Rep (fastAddEmpty s b n) (ws ++ List.replicate n (fill b)) := by
  unfold Verif.Ewah.fastAddEmpty
  by_cases hn : n = 0
  · rw [if_pos hn]; subst hn; simpa using h
  rw [if_neg hn]
  obtain ⟨bs, m, ls, v, hne, e⟩ := h
  simp only [v.mark]
  -- the marker the run is added to
  have key : ∃ s1 bs1 m1, View s1 bs1 m1 [] ∧ runBit m1 = b ∧ ws = words bs1 ++ run m1 ∧
      (if runBit m ≠ b ∧ runLen m + numLit m = 0 then s.setMark (setBit m b)
       else if numLit m ≠ 0 ∨ runBit m ≠ b then s.pushMark (marker b 0 0) else s) = s1 := by
    by_cases h1 : runBit m ≠ b ∧ runLen m + numLit m = 0
    · have hls : ls = [] := List.eq_nil_of_length_eq_zero (by rw [← v.lit]; omega)
      subst hls
      refine ⟨_, _, _, v.setMark (m' := setBit m b) (by simp [v.lit]), by simp, ?_, by rw [if_pos h1]⟩
      rw [e]; simp [run, show runLen m = 0 by omega]
    · rw [if_neg h1]
      by_cases h2 : numLit m ≠ 0 ∨ runBit m ≠ b
      · rw [if_pos h2]
        refine ⟨_, _, _, v.pushMark0 ?_ (m' := marker b 0 0) ?_, ?_, ?_, rfl⟩
        · rw [← v.lit]
          rcases h2 with h2 | h2
          · omega
          · by_contra hc
            exact h1 ⟨h2, by omega⟩
        · rw [numLit_marker] <;> simp [maxRun, maxLit]
        · rw [runBit_marker] <;> simp [maxRun, maxLit]
        · rw [run_marker (by simp)]; simp [e]
      · rw [if_neg h2]
        have h3 : numLit m = 0 := by by_contra hc; exact h2 (.inl hc)
        have h4 : runBit m = b := by by_contra hc; exact h2 (.inr hc)
        have hls : ls = [] := List.eq_nil_of_length_eq_zero (by rw [← v.lit]; exact h3)
        subst hls
        exact ⟨_, _, _, v, h4, by simpa using e, rfl⟩
  obtain ⟨s1, bs1, m1, v1, hb, e1, hs⟩ := key
  rw [hs, v1.mark]
  have hr := runLen_le m1
  generalize hcan : (if n < maxRun - runLen m1 then n else maxRun - runLen m1) = can
  have hcan1 : can ≤ maxRun - runLen m1 := by rw [← hcan]; split <;> omega
  have hcan2 : can ≤ n := by rw [← hcan]; split <;> omega
  have hl : runLen m1 + can ≤ maxRun := by omega
  have v2 := v1.setMark (m' := setLen m1 (runLen m1 + can)) (by rw [numLit_setLen hl]; exact v1.lit)
  have hpos : 0 < runLen m1 + can := by
    rw [← hcan]; split
    · omega
    · have : 0 < maxRun := by simp [maxRun]
      omega
  have := Rep.addRuns (b := b) (fuel := n) (n := n - can) (ws := ws ++ List.replicate can (fill b)) (by omega)
    ⟨_, _, _, v2, by rw [runLen_setLen hl]; omega, by
      rw [run_setLen hl, e1, hb, ← List.replicate_append_replicate]; simp [run, hb]⟩
  rw [List.append_assoc, List.replicate_append_replicate] at this
  rwa [show can + (n - can) = n by omega] at this

theorem Rep0.addDirty : ∀ {fuel : Nat} {s : Ewah} {ws : List UInt32} {xs : List UInt32},
    xs.length + (if numLit s.mark = 0 then 0 else 1) < fuel → Rep0 s ws → xs ≠ [] →
    Rep (addDirty fuel s xs) (ws ++ xs) := by
  intro fuel
  induction fuel with
  | zero => intro s ws xs h; omega
  | succ fuel ih =>
    intro s ws xs hf h hxs
    have hpos : 0 < xs.length := List.length_pos_iff.2 hxs
    obtain ⟨bs, m, ls, v, e⟩ := h
    unfold Verif.Ewah.addDirty
    rw [if_neg (by omega)]
    rw [v.mark] at hf ⊢
    simp only
    split
    · rename_i hle
      have v2 := v.setMarkPush (m' := setLit m (numLit m + xs.length)) (ws := xs)
        (by rw [numLit_setLit hle]; simp [v.lit])
      refine ⟨_, _, _, v2, .inr (by simp; omega), ?_⟩
      rw [run_setLit hle, e]; simp
    · rename_i hgt
      have hnl := numLit_le m
      have v2 := v.setMarkPush (m' := setLit m maxLit) (ws := xs.take (maxLit - numLit m)) (by
        rw [numLit_setLit (by simp)]
        simp only [List.length_append, List.length_take]
        rw [← v.lit]; omega)
      have v3 := v2.pushMark0 (by
        simp only [List.length_append, List.length_take]
        rw [← v.lit]; unfold maxLit at *; omega) (m' := 0) (by decide)
      have hd : xs.drop (maxLit - numLit m) ≠ [] := by
        intro hc
        have := congrArg List.length hc
        simp at this; omega
      have := ih (s := ((s.setMark (setLit m maxLit)).push (xs.take (maxLit - numLit m))).pushMark 0)
        (ws := ws ++ xs.take (maxLit - numLit m)) (xs := xs.drop (maxLit - numLit m)) (by
          rw [v3.mark]
          have h0 : numLit 0 = 0 := by decide
          simp only [h0, List.length_drop, if_true]
          split at hf <;> unfold maxLit at * <;> omega)
        ⟨_, _, _, v3, by
          have h0 : run 0 = [] := by decide
          rw [h0, e]; simp [run_setLit]⟩ hd
      rwa [List.append_assoc, List.take_append_drop] at this

theorem Rep.fastAddDirty {s ws} (h : Rep s ws) (xs : List UInt32) : Rep (fastAddDirty s xs) (ws ++ xs) := by
  by_cases hxs : xs = []
  · subst hxs
    simpa [Verif.Ewah.fastAddDirty, Verif.Ewah.addDirty] using h
  · exact Rep0.addDirty (by split <;> omega) h.to0 hxs

theorem Rep.addWord {s ws} (h : Rep s ws) (w : UInt32) : Rep (addWord s w) (ws ++ [w]) := by
  unfold Verif.Ewah.addWord
  split
  · rename_i h0; subst h0; exact h.to0.addEmpty false
  · split
    · rename_i h0; subst h0; exact h.to0.addEmpty true
    · exact h.to0.addLiteral w

theorem Rep.addWords {s ws} (h : Rep s ws) (xs : List UInt32) : Rep (xs.foldl Verif.Ewah.addWord s) (ws ++ xs) := by
  induction xs generalizing s ws with
  | nil => simpa using h
  | cons x xs ih => simpa using ih (h.addWord x)

/-- Negated literals: exact while the literal count does not overflow; the words after the overflow stay as they are. -/
theorem Rep.addNegDirty {s ws} (h : Rep s ws) (xs : List UInt32) :
    Rep (addNegDirty s xs) (ws ++ ((xs.take (maxLit - numLit s.mark)).map (~~~ ·) ++
      xs.drop (maxLit - numLit s.mark))) := by
  unfold Verif.Ewah.addNegDirty
  by_cases hxs : xs = []
  · subst hxs; simpa using h
  have hpos : 0 < xs.length := List.length_pos_iff.2 hxs
  rw [if_neg (by omega)]
  obtain ⟨bs, m, ls, v, _, e⟩ := h
  have hnl := numLit_le m
  rw [v.mark]
  simp only
  split
  · rename_i hle
    have v2 := v.setMarkPush (m' := setLit m (numLit m + xs.length)) (ws := xs.map (~~~ ·))
      (by rw [numLit_setLit hle]; simp [v.lit])
    refine ⟨_, _, _, v2, .inr (by simp; omega), ?_⟩
    rw [run_setLit hle, e, List.take_of_length_le (by omega), List.drop_eq_nil_of_le (by omega)]; simp
  · rename_i hgt
    have v2 := v.setMarkPush (m' := setLit m maxLit) (ws := (xs.take (maxLit - numLit m)).map (~~~ ·)) (by
      rw [numLit_setLit (by simp)]
      simp only [List.length_append, List.length_take, List.length_map]
      rw [← v.lit]; omega)
    have v3 := v2.pushMark0 (by
      simp only [List.length_append, List.length_take, List.length_map]
      rw [← v.lit]; unfold maxLit at *; omega) (m' := 0) (by decide)
    have hd : xs.drop (maxLit - numLit m) ≠ [] := by
      intro hc
      have := congrArg List.length hc
      simp at this; omega
    have := Rep0.addDirty (fuel := (xs.drop (maxLit - numLit m)).length + 2)
      (s := ((s.setMark (setLit m maxLit)).push ((xs.take (maxLit - numLit m)).map (~~~ ·))).pushMark 0)
      (ws := ws ++ (xs.take (maxLit - numLit m)).map (~~~ ·)) (xs := xs.drop (maxLit - numLit m))
      (by split <;> omega)
      ⟨_, _, _, v3, by
        have h0 : run 0 = [] := by decide
        rw [h0, e]; simp [run_setLit]⟩ hd
    rwa [List.append_assoc] at this

end Verif.Ewah
