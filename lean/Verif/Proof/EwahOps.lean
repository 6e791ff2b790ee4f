import Verif.Proof.Ewah
import Mathlib.Data.List.GetD

/-! Lemmas about the cursors and the logical operations of compressed bitmaps. -/
namespace Verif.Ewah

/-- The cursor still has to deliver the words `ws`; an empty current block means the end. -/
def CurRep (c : Cur) (ws : List UInt32) : Prop :=
  ∃ bs, BlocksOk bs ∧ c.rest = flat bs ∧ (c.size = 0 → bs = []) ∧
    ws = List.replicate c.len (fill c.bit) ++ (c.lits ++ words bs)

theorem CurRep.nil {c ws} (h : CurRep c ws) (h0 : c.size = 0) : ws = [] := by
  obtain ⟨bs, _, _, h3, h4⟩ := h
  rw [h4, h3 h0]
  have h1 : c.len = 0 := by unfold Cur.size at h0; omega
  have h2 : c.lits = [] := List.eq_nil_of_length_eq_zero (by unfold Cur.size at h0; omega)
  simp [h1, h2]

theorem CurRep.size_le {c ws} (h : CurRep c ws) : c.size ≤ ws.length := by
  obtain ⟨bs, _, _, _, h4⟩ := h
  rw [h4]; simp [Cur.size]

theorem next_spec {c : Cur} {bs : List Block} (hb : BlocksOk bs) (hr : c.rest = flat bs) :
    CurRep c.next.1 (words bs) ∧ (c.next.2 = false → bs = []) ∧
      (c.next.2 = true → c.next.1.rest.length < c.rest.length) := by
  cases bs with
  | nil =>
    simp only [flat_nil] at hr
    unfold Cur.next
    rw [hr]
    exact ⟨⟨[], BlocksOk.nil, rfl, fun _ => rfl, by simp⟩, fun _ => rfl, fun h => by cases h⟩
  | cons b bs =>
    obtain ⟨m, ls⟩ := b
    have hl : numLit m = ls.length := (hb (m, ls) (by simp)).1
    have hne : 0 < runLen m + ls.length := (hb (m, ls) (by simp)).2
    have hn : c.next = (⟨runBit m, runLen m, ls, flat bs⟩, true) := by
      unfold Cur.next
      rw [hr]
      simp [hl]
    rw [hn]
    refine ⟨⟨bs, hb.tail, rfl, ?_, ?_⟩, ?_, ?_⟩
    · intro h; simp [Cur.size] at h; simp [h] at hne
    · simp [run]
    · intro h; cases h
    · intro _; rw [hr]; simp; omega

theorem start_spec {s ws} (h : Rep s ws) : CurRep (Cur.start s.buffer) ws := by
  obtain ⟨bs, m, ls, v, hne, e⟩ := h
  have hbuf : s.buffer = flat (bs ++ [(m, ls)]) := by rw [v.buf]; simp
  unfold Cur.start
  by_cases hm : 0 < runLen m + ls.length
  · have hok : BlocksOk (bs ++ [(m, ls)]) := v.ok.append (by
      intro b hb; simp only [List.mem_singleton] at hb; subst hb; exact ⟨v.lit, hm⟩)
    have := (next_spec (c := ⟨false, 0, [], s.buffer⟩) hok hbuf).1
    rw [e]; simpa using this
  · have hbs : bs = [] := by rcases hne with h | h; exacts [h, absurd h hm]
    subst hbs
    have hls : ls = [] := List.eq_nil_of_length_eq_zero (by omega)
    subst hls
    have : Cur.next ⟨false, 0, [], s.buffer⟩ = (⟨runBit m, runLen m, [], []⟩, true) := by
      unfold Cur.next; rw [v.buf]; simp
    rw [this]
    refine ⟨[], BlocksOk.nil, rfl, fun _ => rfl, ?_⟩
    rw [e]; simp [run]

theorem CurRep.dropRun {c ws} (h : CurRep c ws) : CurRep c.dropRun (ws.drop c.len) := by
  obtain ⟨bs, h1, h2, h3, h4⟩ := h
  have hd : ws.drop c.len = c.lits ++ words bs := by rw [h4]; simp
  unfold Cur.dropRun
  rw [hd]
  simp only
  split
  · rename_i hl
    have : c.lits = [] := List.eq_nil_of_length_eq_zero hl
    rw [this, List.nil_append]
    exact (next_spec h1 h2).1
  · rename_i hl
    refine ⟨bs, h1, h2, ?_, by simp⟩
    intro h; simp [Cur.size] at h; simp [h] at hl

theorem CurRep.dropLits {c ws n} (h : CurRep c ws) (h0 : c.len = 0) (hn : n ≤ c.lits.length) :
    CurRep (c.dropLits n) (ws.drop n) := by
  obtain ⟨bs, h1, h2, h3, h4⟩ := h
  have hd : ws.drop n = c.lits.drop n ++ words bs := by
    rw [h4, h0]; simp [List.drop_append, show n - c.lits.length = 0 by omega]
  unfold Cur.dropLits
  rw [hd]
  simp only
  split
  · rename_i hl
    rw [List.eq_nil_of_length_eq_zero hl, List.nil_append]
    exact (next_spec (c := { c with lits := c.lits.drop n }) h1 h2).1
  · rename_i hl
    refine ⟨bs, h1, h2, ?_, by simp [h0]⟩
    intro h; simp only [Cur.size] at h; omega

theorem CurRep.dropFirst {fuel : Nat} : ∀ {c : Cur} {ws : List UInt32} {x : Nat}, CurRep c ws →
    c.rest.length < fuel → CurRep (c.dropFirst fuel x) (ws.drop x) := by
  induction fuel with
  | zero => intro c ws x h hf; omega
  | succ fuel ih =>
    intro c ws x h hf
    unfold Cur.dropFirst
    by_cases hx : x = 0
    · rw [if_pos hx]; subst hx; simpa using h
    rw [if_neg hx]
    obtain ⟨bs, h1, h2, h3, h4⟩ := h
    by_cases hl : c.len > x
    · rw [if_pos hl]
      refine ⟨bs, h1, h2, ?_, ?_⟩
      · intro h; simp only [Cur.size] at h; omega
      · rw [h4]; simp only [List.drop_append, List.length_replicate, List.drop_replicate]
        simp [show x - c.len = 0 by omega]
    rw [if_neg hl]
    simp only
    generalize hd : (if x - c.len > c.lits.length then c.lits.length else x - c.len) = d
    have hd1 : d ≤ c.lits.length := by rw [← hd]; split <;> omega
    have hd2 : d ≤ x - c.len := by rw [← hd]; split <;> omega
    have hd3 : x - c.len - d > 0 → d = c.lits.length := by rw [← hd]; split <;> omega
    have hws : ws.drop x = (c.lits.drop d ++ words bs).drop (x - c.len - d) := by
      rw [h4]
      rw [List.drop_append, List.length_replicate, List.drop_replicate, show c.len - x = 0 by omega]
      rw [show x - c.len = d + (x - c.len - d) by omega, ← List.drop_drop]
      rw [List.drop_append (i := d), show d - c.lits.length = 0 by omega]
      simp
    rw [hws]
    by_cases hn : x - c.len - d > 0 ∨ Cur.size { c with len := 0, lits := c.lits.drop d } = 0
    · rw [if_pos hn]
      have hlits : c.lits.drop d = [] := by
        rcases hn with hn | hn
        · rw [hd3 hn]; simp
        · exact List.eq_nil_of_length_eq_zero (by simp only [Cur.size] at hn; omega)
      rw [hlits, List.nil_append]
      obtain ⟨n1, n2, n3⟩ := next_spec (c := { c with len := 0, lits := c.lits.drop d }) h1 h2
      rw [hlits] at n1 n2 n3
      split
      · rename_i ht
        exact ih n1 (by have := n3 ht; simp only at this; omega)
      · rename_i ht
        have := n2 (by simpa using ht)
        subst this
        simpa using n1
    · rw [if_neg hn]
      have hx0 : x - c.len - d = 0 := by omega
      rw [hx0]
      have hc : CurRep { c with len := 0, lits := c.lits.drop d } (c.lits.drop d ++ words bs) :=
        ⟨bs, h1, h2, fun h => absurd (.inr h) hn, by simp⟩
      cases fuel with
      | zero => simpa [Cur.dropFirst] using hc
      | succ f => unfold Cur.dropFirst; simpa using hc

theorem CurRep.dischargeAll {fuel : Nat} : ∀ {c : Cur} {ws us : List UInt32} {s : Ewah}, CurRep c ws →
    c.rest.length < fuel → Rep s us → Rep (c.dischargeAll fuel s) (us ++ ws) := by
  induction fuel with
  | zero => intro c ws us s h hf; omega
  | succ fuel ih =>
    intro c ws us s h hf hs
    unfold Cur.dischargeAll
    split
    · rename_i h0; rw [h.nil h0]; simpa using hs
    · obtain ⟨bs, h1, h2, h3, h4⟩ := h
      obtain ⟨n1, n2, n3⟩ := next_spec h1 h2
      have hs' := (hs.fastAddEmpty c.bit c.len).fastAddDirty c.lits
      simp only
      split
      · rename_i ht
        have := ih n1 (by have := n3 ht; omega) hs'
        rw [h4]; simpa using this
      · rename_i ht
        have := n2 (by simpa using ht)
        subst this
        rw [h4]; simpa using hs'

theorem CurRep.discharge {fuel : Nat} : ∀ {c : Cur} {ws us : List UInt32} {s : Ewah} {index max : Nat},
    CurRep c ws → c.rest.length < fuel → Rep s us → index ≤ max →
    CurRep (c.discharge fuel s index max).1 (ws.drop (max - index)) ∧
      Rep (c.discharge fuel s index max).2.1 (us ++ ws.take (max - index)) ∧
      (c.discharge fuel s index max).2.2 = min (index + ws.length) max := by
  induction fuel with
  | zero => intro c ws us s index max h hf; omega
  | succ fuel ih =>
    intro c ws us s index max h hf hs hi
    obtain ⟨bs, h1, h2, h3, h4⟩ := h
    have hlen : ws.length = c.len + (c.lits.length + (words bs).length) := by rw [h4]; simp
    unfold Cur.discharge
    by_cases hc1 : index + c.len > max
    · rw [if_pos hc1]
      refine ⟨⟨bs, h1, h2, ?_, ?_⟩, ?_, ?_⟩
      · intro h; simp only [Cur.size] at h; omega
      · rw [h4, List.drop_append, List.length_replicate, List.drop_replicate,
          show max - index - c.len = 0 by omega]; simp
      · rw [h4, List.take_append, List.length_replicate, List.take_replicate,
          show max - index - c.len = 0 by omega, show min (max - index) c.len = max - index by omega]
        simpa using hs.fastAddEmpty c.bit (max - index)
      · simp only; omega
    rw [if_neg hc1]
    simp only
    have hs1 := hs.fastAddEmpty c.bit c.len
    by_cases hc2 : c.lits.length + (index + c.len) > max
    · rw [if_pos hc2]
      have e1 : max - (index + c.len) ≤ c.lits.length := by omega
      refine ⟨⟨bs, h1, h2, ?_, ?_⟩, ?_, ?_⟩
      · intro h; simp only [Cur.size, List.length_drop] at h; omega
      · rw [h4, List.drop_append, List.length_replicate, List.drop_replicate,
          show c.len - (max - index) = 0 by omega, List.drop_append,
          show max - index - c.len = max - (index + c.len) by omega,
          show max - (index + c.len) - c.lits.length = 0 by omega]; simp
      · have := hs1.fastAddDirty (c.lits.take (max - (index + c.len)))
        rw [h4, List.take_append, List.length_replicate, List.take_replicate,
          show min (max - index) c.len = c.len by omega, List.take_append,
          show max - index - c.len = max - (index + c.len) by omega,
          show max - (index + c.len) - c.lits.length = 0 by omega]
        simpa using this
      · simp only; omega
    rw [if_neg hc2]
    have hs2 := hs1.fastAddDirty c.lits
    obtain ⟨n1, n2, n3⟩ := next_spec h1 h2
    have edrop : ws.drop (max - index) = (words bs).drop (max - (index + c.len + c.lits.length)) := by
      rw [h4, List.drop_append, List.length_replicate, List.drop_replicate,
          show c.len - (max - index) = 0 by omega, List.drop_append,
          List.drop_eq_nil_of_le (as := c.lits) (by omega),
          show max - index - c.len - c.lits.length = max - (index + c.len + c.lits.length) by omega]
      simp
    have etake : ws.take (max - index) = List.replicate c.len (fill c.bit) ++ (c.lits ++
        (words bs).take (max - (index + c.len + c.lits.length))) := by
      rw [h4, List.take_append, List.length_replicate, List.take_replicate,
          show min (max - index) c.len = c.len by omega, List.take_append,
          List.take_of_length_le (l := c.lits) (by omega),
          show max - index - c.len - c.lits.length = max - (index + c.len + c.lits.length) by omega]
    rw [edrop, etake]
    split
    · rename_i ht
      obtain ⟨r1, r2, r3⟩ := ih (s := Verif.Ewah.fastAddDirty (Verif.Ewah.fastAddEmpty s c.bit c.len) c.lits)
        (index := index + c.len + c.lits.length) (max := max) n1 (by have := n3 ht; omega) hs2 (by omega)
      refine ⟨r1, ?_, ?_⟩
      · simpa using r2
      · rw [r3, hlen]; omega
    · rename_i ht
      have := n2 (by simpa using ht)
      subst this
      refine ⟨by simpa using n1, by simpa using hs2, ?_⟩
      simp only [words_nil, List.length_nil] at hlen
      simp only; omega

theorem not_fill (b : Bool) : ~~~ (fill b) = fill (!b) := by cases b <;> decide

theorem Rep.numLit_le {s ws} (h : Rep s ws) : numLit s.mark ≤ ws.length := by
  obtain ⟨bs, m, ls, v, _, e⟩ := h
  rw [v.mark, v.lit, e]; simp; omega

theorem dropFirst_block {c : Cur} {f x : Nat} (hx : x = c.size) (h0 : 0 < x) :
    c.dropFirst (f + 1) x = c.next.1 := by
  subst hx
  unfold Cur.dropFirst
  unfold Cur.size at *
  rw [if_neg (by omega), if_neg (by omega)]
  simp only
  rw [show c.len + c.lits.length - c.len = c.lits.length by omega,
    if_neg (show ¬ c.lits.length > c.lits.length by omega), if_pos (by simp)]
  have hn : Cur.next { c with len := 0, lits := c.lits.drop c.lits.length } = c.next := by
    unfold Cur.next; simp
  rw [hn]
  split
  · cases f with
    | zero => rfl
    | succ f => unfold Cur.dropFirst; simp
  · rfl

theorem dischargeNeg_done {c : Cur} {s : Ewah} {index max fuel : Nat} (h : index = max ∨ c.size = 0) :
    c.dischargeNeg fuel s index max = (c, s, index) := by
  cases fuel with
  | zero => rfl
  | succ f =>
    unfold Cur.dischargeNeg
    rw [if_neg (by omega)]

theorem CurRep.dischargeNeg {fuel : Nat} : ∀ {c : Cur} {ws us : List UInt32} {s : Ewah} {index max : Nat},
    CurRep c ws → c.rest.length < fuel → Rep s us → index ≤ max →
    us.length + ws.length ≤ maxLit →
    CurRep (c.dischargeNeg fuel s index max).1 (ws.drop (max - index)) ∧
      Rep (c.dischargeNeg fuel s index max).2.1 (us ++ (ws.take (max - index)).map (~~~ ·)) ∧
      (c.dischargeNeg fuel s index max).2.2 = min (index + ws.length) max := by
  induction fuel with
  | zero => intro c ws us s index max h hf; omega
  | succ fuel ih =>
    intro c ws us s index max h hf hs hi hb
    by_cases hdone : index = max ∨ c.size = 0
    · rw [dischargeNeg_done hdone]
      rcases hdone with hd | hd
      · subst hd; simp; exact ⟨h, hs⟩
      · have := h.nil hd; subst this
        simp; exact ⟨h, hs, by omega⟩
    have hsz := h.size_le
    have hdrop := fun x => h.dropFirst (fuel := c.rest.length + 2) (x := x) (by omega)
    obtain ⟨bs, h1, h2, h3, h4⟩ := h
    have hlen : ws.length = c.len + (c.lits.length + (words bs).length) := by rw [h4]; simp
    unfold Cur.dischargeNeg
    rw [if_pos (by omega)]
    simp only
    generalize hpl : (if index + c.len > max then max - index else c.len) = pl
    generalize hpd : (if c.lits.length + (index + pl) > max then max - (index + pl) else c.lits.length) = pd
    have hpl1 : pl ≤ c.len := by rw [← hpl]; split <;> omega
    have hpl2 : pl < c.len → index + pl = max := by rw [← hpl]; split <;> omega
    have hpl3 : index + pl ≤ max := by rw [← hpl]; split <;> omega
    have hpd1 : pd ≤ c.lits.length := by rw [← hpd]; split <;> omega
    have hpd2 : pd < c.lits.length → index + pl + pd = max := by rw [← hpd]; split <;> omega
    have hpd3 : index + pl + pd ≤ max := by rw [← hpd]; split <;> omega
    have hpd4 : index + pl = max → pd = 0 := by rw [← hpd]; split <;> omega
    have hs1 := hs.fastAddEmpty (!c.bit) pl
    have hs2 := hs1.addNegDirty (c.lits.take pd)
    have hnl := hs1.numLit_le
    simp only [List.length_append, List.length_replicate] at hnl
    rw [List.take_of_length_le (l := c.lits.take pd) (by simp; omega),
      List.drop_eq_nil_of_le (by simp; omega)] at hs2
    have htake : ws.take (pl + pd) = List.replicate pl (fill c.bit) ++ c.lits.take pd := by
      by_cases hlt : pl < c.len
      · have := hpd4 (hpl2 hlt)
        subst this
        rw [h4, List.take_append, List.length_replicate, List.take_replicate,
          show pl + 0 - c.len = 0 by omega, show min (pl + 0) c.len = pl by omega]
        simp
      · have : pl = c.len := by omega
        subst this
        rw [h4, List.take_append, List.length_replicate, List.take_replicate,
          show c.len + pd - c.len = pd by omega, show min (c.len + pd) c.len = c.len by omega,
          List.take_append, show pd - c.lits.length = 0 by omega]
        simp
    have hs3 : Rep (Verif.Ewah.addNegDirty (Verif.Ewah.fastAddEmpty s (!c.bit) pl) (c.lits.take pd))
        (us ++ (ws.take (pl + pd)).map (~~~ ·)) := by
      rw [htake]
      have e : (List.replicate pl (fill c.bit) ++ c.lits.take pd).map (~~~ ·) =
          List.replicate pl (fill !c.bit) ++ (c.lits.take pd).map (~~~ ·) := by
        rw [List.map_append, List.map_replicate, not_fill]
      rw [e]
      simpa using hs2
    have hcur := hdrop (pl + pd)
    by_cases hfin : index + (pl + pd) = max
    · rw [dischargeNeg_done (.inl (by omega))]
      rw [show max - index = pl + pd by omega]
      exact ⟨hcur, hs3, by simp only; omega⟩
    · have hall : pl + pd = c.size := by unfold Cur.size; omega
      rw [dropFirst_block hall (by omega)] at hcur ⊢
      obtain ⟨n1, n2, n3⟩ := next_spec h1 h2
      by_cases ht : c.next.2 = true
      · have hlen' : (ws.drop (pl + pd)).length = ws.length - (pl + pd) := by simp
        have htl : (ws.take (pl + pd)).length = pl + pd := by simp; omega
        obtain ⟨r1, r2, r3⟩ := ih (index := index + pl + pd) (max := max) hcur (by have := n3 ht; omega) hs3
          (by omega) (by simp only [List.length_append, List.length_map]; omega)
        refine ⟨?_, ?_, ?_⟩
        · rw [List.drop_drop] at r1
          rwa [show pl + pd + (max - (index + pl + pd)) = max - index by omega] at r1
        · rw [List.append_assoc, ← List.map_append, ← List.take_add] at r2
          rwa [show pl + pd + (max - (index + pl + pd)) = max - index by omega] at r2
        · rw [r3, hlen']; omega
      · have hbs := n2 (by simpa using ht)
        subst hbs
        have hws : ws.length = pl + pd := by
          rw [hlen, hall]; simp [Cur.size]
        have hnil : ws.drop (pl + pd) = [] := by simp; omega
        rw [dischargeNeg_done]
        · rw [hnil] at hcur
          refine ⟨?_, ?_, ?_⟩
          · simp only; rw [List.drop_eq_nil_of_le (by omega)]; exact hcur
          · simp only
            rw [show ws.take (max - index) = ws.take (pl + pd) by
              rw [List.take_of_length_le (by omega), List.take_of_length_le (by omega)]]
            exact hs3
          · simp only; omega
        · right
          rw [hnil] at hcur
          have := hcur.size_le
          simpa using this

/-! ## Word-wise semantics of the loops -/

/-- The words the operation will have produced at the end: those already written, then `op` of what is left. -/
def sem (op : UInt32 → UInt32 → UInt32) (us wi wj : List UInt32) (k : Nat) : UInt32 :=
  if k < us.length then us.getD k 0 else op (wi.getD (k - us.length) 0) (wj.getD (k - us.length) 0)

theorem sem_step {op us wi wj out} {L : Nat} (hL : out.length = L)
    (h : ∀ k < L, out.getD k 0 = op (wi.getD k 0) (wj.getD k 0)) :
    sem op (us ++ out) (wi.drop L) (wj.drop L) = sem op us wi wj := by
  funext k
  unfold sem
  by_cases h1 : k < us.length
  · rw [if_pos h1, if_pos (by simp; omega), List.getD_append _ _ _ _ h1]
  · rw [if_neg h1]
    by_cases h2 : k < us.length + L
    · rw [if_pos (by simp; omega), List.getD_append_right _ _ _ _ (by omega), h _ (by omega)]
    · rw [if_neg (by simp; omega)]
      simp only [List.length_append, hL, List.getD_eq_getElem?_getD, List.getElem?_drop]
      rw [show L + (k - (us.length + L)) = k - us.length by omega]

/-- What a pass of the inner loop has to do, for operands within the limit `N`. -/
def StepOk (op : UInt32 → UInt32 → UInt32) (N : Nat) (step : Cur → Cur → Ewah → Cur × Ewah) : Prop :=
  ∀ {prey pred : Cur} {s : Ewah} {wp wq us : List UInt32}, CurRep prey wp → CurRep pred wq → Rep s us →
    us.length + max wp.length wq.length ≤ N →
    CurRep (step prey pred s).1 (wp.drop pred.len) ∧
    ∃ out, out.length = pred.len ∧ Rep (step prey pred s).2 (us ++ out) ∧
      ∀ k < pred.len, out.getD k 0 = op (wp.getD k 0) (fill pred.bit)

theorem CurRep.getD_run {c ws k} (h : CurRep c ws) (hk : k < c.len) : ws.getD k 0 = fill c.bit := by
  obtain ⟨bs, _, _, _, h4⟩ := h
  rw [h4, List.getD_append _ _ _ _ (by simpa using hk)]
  simp [List.getElem?_replicate, hk]

theorem inner_spec {op N step} (hop : ∀ x y, op x y = op y x) (hstep : StepOk op N step) :
    ∀ {fuel : Nat} {i j : Cur} {s : Ewah} {wi wj us : List UInt32}, CurRep i wi → CurRep j wj → Rep s us →
    us.length + max wi.length wj.length ≤ N → wi.length + wj.length ≤ fuel →
    ∃ wi' wj' us', CurRep (inner step fuel i j s).1 wi' ∧ CurRep (inner step fuel i j s).2.1 wj' ∧
      Rep (inner step fuel i j s).2.2 us' ∧ sem op us' wi' wj' = sem op us wi wj ∧
      us'.length + max wi'.length wj'.length ≤ N ∧ wi'.length + wj'.length ≤ wi.length + wj.length ∧
      (inner step fuel i j s).1.len = 0 ∧ (inner step fuel i j s).2.1.len = 0 := by
  intro fuel
  induction fuel with
  | zero =>
    intro i j s wi wj us hi hj hs hN hf
    refine ⟨wi, wj, us, hi, hj, hs, rfl, hN, Nat.le_refl _, ?_, ?_⟩
    · have := hi.size_le; unfold Cur.size at this; simp only [inner]; omega
    · have := hj.size_le; unfold Cur.size at this; simp only [inner]; omega
  | succ fuel ih =>
    intro i j s wi wj us hi hj hs hN hf
    unfold inner
    by_cases hc : i.len > 0 ∨ j.len > 0
    · rw [if_pos hc]
      by_cases hp : i.len < j.len
      · rw [if_pos hp]
        obtain ⟨r1, out, r2, r3, r4⟩ := hstep hi hj hs hN
        have hjs := hj.size_le
        unfold Cur.size at hjs
        obtain ⟨wi', wj', us', q1, q2, q3, q4, q5, q6, q7⟩ := ih r1 hj.dropRun r3
          (by simp only [List.length_append, List.length_drop]; omega)
          (by simp only [List.length_drop]; omega)
        refine ⟨wi', wj', us', q1, q2, q3, ?_, q5, ?_, q7⟩
        · rw [q4, sem_step r2]
          intro k hk; rw [r4 k hk, hj.getD_run hk]
        · simp only [List.length_drop] at q6; omega
      · rw [if_neg hp]
        obtain ⟨r1, out, r2, r3, r4⟩ := hstep hj hi hs (by omega)
        have his := hi.size_le
        unfold Cur.size at his
        obtain ⟨wi', wj', us', q1, q2, q3, q4, q5, q6, q7⟩ := ih hi.dropRun r1 r3
          (by simp only [List.length_append, List.length_drop]; omega)
          (by simp only [List.length_drop]; omega)
        refine ⟨wi', wj', us', q1, q2, q3, ?_, q5, ?_, q7⟩
        · rw [q4, sem_step r2]
          intro k hk; rw [r4 k hk, hi.getD_run hk, hop]
        · simp only [List.length_drop] at q6; omega
    · rw [if_neg hc]
      exact ⟨wi, wj, us, hi, hj, hs, rfl, hN, Nat.le_refl _, by simp only; omega, by simp only; omega⟩

theorem CurRep.getD_lit {c ws k} (h : CurRep c ws) (h0 : c.len = 0) (hk : k < c.lits.length) :
    ws.getD k 0 = c.lits.getD k 0 := by
  obtain ⟨bs, _, _, _, h4⟩ := h
  rw [h4, h0]
  simp only [List.replicate_zero, List.nil_append]
  rw [List.getD_append _ _ _ _ hk]

theorem outer_spec {op N step} (hop : ∀ x y, op x y = op y x) (hstep : StepOk op N step) :
    ∀ {fuel : Nat} {i j : Cur} {s : Ewah} {wi wj us : List UInt32}, CurRep i wi → CurRep j wj → Rep s us →
    us.length + max wi.length wj.length ≤ N → wi.length + wj.length < fuel →
    ∃ wi' wj' us', CurRep (outer step op fuel i j s).1 wi' ∧ CurRep (outer step op fuel i j s).2.1 wj' ∧
      Rep (outer step op fuel i j s).2.2 us' ∧ sem op us' wi' wj' = sem op us wi wj ∧
      us'.length + max wi'.length wj'.length ≤ N ∧
      ((outer step op fuel i j s).1.size = 0 ∨ (outer step op fuel i j s).2.1.size = 0) := by
  intro fuel
  induction fuel with
  | zero => intro i j s wi wj us hi hj hs hN hf; omega
  | succ fuel ih =>
    intro i j s wi wj us hi hj hs hN hf
    unfold outer
    by_cases hc : i.size > 0 ∧ j.size > 0
    · rw [if_pos hc]
      obtain ⟨wi1, wj1, us1, q1, q2, q3, q4, q5, q6, q7, q8⟩ :=
        inner_spec hop hstep (fuel := fuel) hi hj hs hN (by omega)
      generalize hin : inner step fuel i j s = r at *
      obtain ⟨i1, j1, s1⟩ := r
      simp only at q1 q2 q3 q7 q8 ⊢
      generalize hn : min i1.lits.length j1.lits.length = n
      have hn1 : n ≤ i1.lits.length := by omega
      have hn2 : n ≤ j1.lits.length := by omega
      split
      · rename_i hpos
        have h3 := q3.addWords (List.zipWith op (i1.lits.take n) (j1.lits.take n))
        have hol : (List.zipWith op (i1.lits.take n) (j1.lits.take n)).length = n := by
          simp; omega
        have hi1 := q1.size_le
        have hj1 := q2.size_le
        unfold Cur.size at hi1 hj1
        obtain ⟨wi', wj', us', p1, p2, p3, p4, pN, p5⟩ := ih (q1.dropLits q7 hn1) (q2.dropLits q8 hn2) h3
          (by simp only [List.length_append, List.length_drop, hol]; omega)
          (by simp only [List.length_drop]; omega)
        refine ⟨wi', wj', us', p1, p2, p3, ?_, pN, p5⟩
        rw [p4, sem_step hol, q4]
        intro k hk
        rw [q1.getD_lit q7 (by omega), q2.getD_lit q8 (by omega)]
        have a1 : k < i1.lits.length := by omega
        have a2 : k < j1.lits.length := by omega
        simp [List.getElem?_zipWith, List.getElem?_take, hk, a1, a2]
      · rename_i hpos
        have hn0 : n = 0 := by omega
        have hstop : ¬ (i1.size > 0 ∧ j1.size > 0) := by unfold Cur.size; omega
        have hsame : outer step op fuel i1 j1
            (List.foldl addWord s1 (List.zipWith op (i1.lits.take n) (j1.lits.take n))) = (i1, j1, s1) := by
          rw [hn0]
          cases fuel with
          | zero => simp [outer]
          | succ f => unfold outer; rw [if_neg hstop]; simp
        rw [hsame]
        exact ⟨wi1, wj1, us1, q1, q2, q3, q4, q5, by simp only; omega⟩
    · rw [if_neg hc]
      exact ⟨wi, wj, us, hi, hj, hs, rfl, hN, by simp only; omega⟩

theorem orStep_ok (N : Nat) : StepOk (· ||| ·) N orStep := by
  intro prey pred s wp wq us hp hq hs _
  unfold orStep
  cases hb : pred.bit
  · simp only [Bool.false_eq_true, if_false]
    obtain ⟨r1, r2, r3⟩ := hp.discharge (fuel := prey.rest.length + 1) (index := 0) (max := pred.len)
      (by omega) hs (by omega)
    refine ⟨r1, wp.take pred.len ++ List.replicate (pred.len - min (0 + wp.length) pred.len) (fill false), ?_, ?_, ?_⟩
    · simp; omega
    · rw [r3]; simpa using r2.fastAddEmpty false (pred.len - min (0 + wp.length) pred.len)
    · intro k hk
      by_cases hkw : k < wp.length
      · rw [List.getD_append _ _ _ _ (by simp; omega)]
        simp [List.getElem?_take, hk, fill]
      · rw [List.getD_append_right _ _ _ _ (by simp; omega)]
        simp [List.getElem?_replicate, fill, List.getElem?_eq_none (show wp.length ≤ k by omega)]
        split <;> rfl
  · simp only [if_true]
    refine ⟨hp.dropFirst (by omega), List.replicate pred.len (fill true), by simp, hs.fastAddEmpty _ _, ?_⟩
    intro k hk
    have : ∀ x : UInt32, x ||| fill true = fill true := by
      intro x
      apply UInt32.toBitVec_inj.1
      have h1 : (fill true).toBitVec = BitVec.allOnes 32 := by decide
      rw [UInt32.toBitVec_or, h1, BitVec.or_allOnes]
    rw [this]
    simp [List.getElem?_replicate, hk]

theorem andStep_ok (N : Nat) : StepOk (· &&& ·) N andStep := by
  intro prey pred s wp wq us hp hq hs _
  unfold andStep
  cases hb : pred.bit
  · simp only [Bool.not_false, if_true]
    refine ⟨hp.dropFirst (by omega), List.replicate pred.len (fill false), by simp, hs.fastAddEmpty _ _, ?_⟩
    intro k hk
    simp [List.getElem?_replicate, hk, fill]
  · simp only [Bool.not_true, Bool.false_eq_true, if_false]
    obtain ⟨r1, r2, r3⟩ := hp.discharge (fuel := prey.rest.length + 1) (index := 0) (max := pred.len)
      (by omega) hs (by omega)
    have hone : ∀ x : UInt32, x &&& fill true = x := by
      intro x
      apply UInt32.toBitVec_inj.1
      have h1 : (fill true).toBitVec = BitVec.allOnes 32 := by decide
      rw [UInt32.toBitVec_and, h1, BitVec.and_allOnes]
    refine ⟨r1, wp.take pred.len ++ List.replicate (pred.len - min (0 + wp.length) pred.len) (fill false), ?_, ?_, ?_⟩
    · simp; omega
    · rw [r3]; simpa using r2.fastAddEmpty false (pred.len - min (0 + wp.length) pred.len)
    · intro k hk
      rw [hone]
      by_cases hkw : k < wp.length
      · rw [List.getD_append _ _ _ _ (by simp; omega)]
        simp [List.getElem?_take, hk]
      · rw [List.getD_append_right _ _ _ _ (by simp; omega)]
        simp [List.getElem?_replicate, fill, List.getElem?_eq_none (show wp.length ≤ k by omega)]
        split <;> rfl

theorem xorStep_ok : StepOk (· ^^^ ·) maxLit xorStep := by
  intro prey pred s wp wq us hp hq hs hN
  unfold xorStep
  cases hb : pred.bit
  · simp only [Bool.not_false, if_true]
    obtain ⟨r1, r2, r3⟩ := hp.discharge (fuel := prey.rest.length + 1) (index := 0) (max := pred.len)
      (by omega) hs (by omega)
    refine ⟨r1, wp.take pred.len ++ List.replicate (pred.len - min (0 + wp.length) pred.len) (fill false), ?_, ?_, ?_⟩
    · simp; omega
    · rw [r3]; simpa using r2.fastAddEmpty false (pred.len - min (0 + wp.length) pred.len)
    · intro k hk
      by_cases hkw : k < wp.length
      · rw [List.getD_append _ _ _ _ (by simp; omega)]
        simp [List.getElem?_take, hk, fill]
      · rw [List.getD_append_right _ _ _ _ (by simp; omega)]
        simp [List.getElem?_replicate, fill, List.getElem?_eq_none (show wp.length ≤ k by omega)]
        split <;> rfl
  · simp only [Bool.not_true, Bool.false_eq_true, if_false]
    obtain ⟨r1, r2, r3⟩ := hp.dischargeNeg (fuel := prey.size + prey.rest.length + 1) (index := 0)
      (max := pred.len) (by omega) hs (by omega) (by omega)
    have hneg : ∀ x : UInt32, x ^^^ fill true = ~~~ x := by
      intro x
      apply UInt32.toBitVec_inj.1
      have h1 : (fill true).toBitVec = BitVec.allOnes 32 := by decide
      rw [UInt32.toBitVec_xor, h1, BitVec.xor_allOnes, UInt32.toBitVec_not]
    refine ⟨r1, (wp.take pred.len).map (~~~ ·) ++
      List.replicate (pred.len - min (0 + wp.length) pred.len) (fill true), ?_, ?_, ?_⟩
    · simp; omega
    · rw [r3]; simpa using r2.fastAddEmpty true (pred.len - min (0 + wp.length) pred.len)
    · intro k hk
      rw [hneg]
      by_cases hkw : k < wp.length
      · rw [List.getD_append _ _ _ _ (by simp; omega)]
        simp [List.getElem?_take, hk, hkw]
      · rw [List.getD_append_right _ _ _ _ (by simp; omega)]
        have : k - min pred.len wp.length < pred.len - min wp.length pred.len := by omega
        simp [List.getElem?_replicate, List.getElem?_eq_none (show wp.length ≤ k by omega), this]
        decide

theorem xorStep_ok' {N : Nat} (hN : N ≤ maxLit) : StepOk (· ^^^ ·) N xorStep := by
  intro prey pred s wp wq us hp hq hs h
  exact xorStep_ok hp hq hs (by omega)

theorem sem_nil_left {op us wj} (h0 : ∀ x, op 0 x = x) : sem op us [] wj = fun k => (us ++ wj).getD k 0 := by
  funext k
  unfold sem
  split
  · rename_i h; rw [List.getD_append _ _ _ _ h]
  · rename_i h; rw [List.getD_append_right _ _ _ _ (by omega)]; simp [h0]

theorem sem_nil_right {op us wi} (h0 : ∀ x, op x 0 = x) : sem op us wi [] = fun k => (us ++ wi).getD k 0 := by
  funext k
  unfold sem
  split
  · rename_i h; rw [List.getD_append _ _ _ _ h]
  · rename_i h; rw [List.getD_append_right _ _ _ _ (by omega)]; simp [h0]

theorem Rep.buffer_ne {s ws} (h : Rep s ws) : s.buffer ≠ [] := by
  obtain ⟨bs, m, ls, v, _⟩ := h
  rw [v.buf]; simp

theorem logicalOr_spec {a b : Ewah} {wa wb : List UInt32} (ha : Rep a wa) (hb : Rep b wb) :
    ∃ c wc, logicalOr a b = some c ∧ Rep c wc ∧ (∀ k, wc.getD k 0 = wa.getD k 0 ||| wb.getD k 0) ∧
      c.size = max a.size b.size ∧ wc.length ≤ max wb.length wa.length := by
  unfold logicalOr
  rw [if_neg (by rintro (h | h); exacts [hb.buffer_ne h, ha.buffer_ne h])]
  obtain ⟨wi, wj, us, q1, q2, q3, q4, qN, q5⟩ := outer_spec (op := (· ||| ·)) (fun x y => by
    apply UInt32.toBitVec_inj.1; simp [BitVec.or_comm]) (orStep_ok (max wb.length wa.length))
    (fuel := fuelFor a b) (start_spec hb) (start_spec ha) rep_empty
    (by simp) (by unfold fuelFor; rw [ha.decode, hb.decode]; omega)
  generalize outer orStep (· ||| ·) (fuelFor a b) (Cur.start b.buffer) (Cur.start a.buffer) empty = r at *
  obtain ⟨i, j, s⟩ := r
  simp only at q1 q2 q3 q5 ⊢
  have hsem : sem (· ||| ·) [] wb wa = fun k => wa.getD k 0 ||| wb.getD k 0 := by
    funext k; simp only [sem, List.length_nil, Nat.not_lt_zero, if_false, Nat.sub_zero]
    apply UInt32.toBitVec_inj.1; simp [BitVec.or_comm]
  have hsz : (if a.size > b.size then a.size else b.size) = max a.size b.size := by split <;> omega
  by_cases hi : i.size > 0
  · rw [if_pos hi]
    have hj : wj = [] := q2.nil (by omega)
    subst hj
    refine ⟨_, _, rfl, (q1.dischargeAll (by omega) q3).of_size, ?_, hsz, by
      simp only [List.length_append, List.length_nil] at qN ⊢; omega⟩
    intro k
    rw [sem_nil_right (by simp), hsem] at q4
    exact congrFun q4 k
  · rw [if_neg hi]
    have hi' : wi = [] := q1.nil (by omega)
    subst hi'
    refine ⟨_, _, rfl, (q2.dischargeAll (by omega) q3).of_size, ?_, hsz, by
      simp only [List.length_append, List.length_nil] at qN ⊢; omega⟩
    intro k
    rw [sem_nil_left (by simp), hsem] at q4
    exact congrFun q4 k

theorem logicalXor_spec {a b : Ewah} {wa wb : List UInt32} (ha : Rep a wa) (hb : Rep b wb)
    (hN : max wb.length wa.length ≤ maxLit) :
    ∃ c wc, logicalXor a b = some c ∧ Rep c wc ∧ (∀ k, wc.getD k 0 = wa.getD k 0 ^^^ wb.getD k 0) ∧
      c.size = max a.size b.size ∧ wc.length ≤ max wb.length wa.length := by
  unfold logicalXor
  rw [if_neg (by rintro (h | h); exacts [hb.buffer_ne h, ha.buffer_ne h])]
  obtain ⟨wi, wj, us, q1, q2, q3, q4, qN, q5⟩ := outer_spec (op := (· ^^^ ·)) (fun x y => by
    apply UInt32.toBitVec_inj.1; simp [BitVec.xor_comm]) (xorStep_ok' hN)
    (fuel := fuelFor a b) (start_spec hb) (start_spec ha) rep_empty
    (by simp) (by unfold fuelFor; rw [ha.decode, hb.decode]; omega)
  generalize outer xorStep (· ^^^ ·) (fuelFor a b) (Cur.start b.buffer) (Cur.start a.buffer) empty = r at *
  obtain ⟨i, j, s⟩ := r
  simp only at q1 q2 q3 q5 ⊢
  have hsem : sem (· ^^^ ·) [] wb wa = fun k => wa.getD k 0 ^^^ wb.getD k 0 := by
    funext k; simp only [sem, List.length_nil, Nat.not_lt_zero, if_false, Nat.sub_zero]
    apply UInt32.toBitVec_inj.1; simp [BitVec.xor_comm]
  have hsz : (if a.size > b.size then a.size else b.size) = max a.size b.size := by split <;> omega
  by_cases hi : i.size > 0
  · rw [if_pos hi]
    have hj : wj = [] := q2.nil (by omega)
    subst hj
    refine ⟨_, _, rfl, (q1.dischargeAll (by omega) q3).of_size, ?_, hsz, by
      simp only [List.length_append, List.length_nil] at qN ⊢; omega⟩
    intro k
    rw [sem_nil_right (by simp), hsem] at q4
    exact congrFun q4 k
  · rw [if_neg hi]
    have hi' : wi = [] := q1.nil (by omega)
    subst hi'
    refine ⟨_, _, rfl, (q2.dischargeAll (by omega) q3).of_size, ?_, hsz, by
      simp only [List.length_append, List.length_nil] at qN ⊢; omega⟩
    intro k
    rw [sem_nil_left (by simp), hsem] at q4
    exact congrFun q4 k

theorem logicalAnd_spec {a b : Ewah} {wa wb : List UInt32} (ha : Rep a wa) (hb : Rep b wb) :
    ∃ c wc, logicalAnd a b = some c ∧ Rep c wc ∧ (∀ k, wc.getD k 0 = wa.getD k 0 &&& wb.getD k 0) ∧
      c.size = max a.size b.size ∧ wc.length ≤ max wb.length wa.length := by
  unfold logicalAnd
  rw [if_neg (by rintro (h | h); exacts [hb.buffer_ne h, ha.buffer_ne h])]
  obtain ⟨wi, wj, us, q1, q2, q3, q4, qN, q5⟩ := outer_spec (op := (· &&& ·)) (fun x y => by
    apply UInt32.toBitVec_inj.1; simp [BitVec.and_comm]) (andStep_ok (max wb.length wa.length))
    (fuel := fuelFor a b) (start_spec hb) (start_spec ha) rep_empty
    (by simp) (by unfold fuelFor; rw [ha.decode, hb.decode]; omega)
  generalize outer andStep (· &&& ·) (fuelFor a b) (Cur.start b.buffer) (Cur.start a.buffer) empty = r at *
  obtain ⟨i, j, s⟩ := r
  simp only at q1 q2 q3 q5 ⊢
  have hsem : sem (· &&& ·) [] wb wa = fun k => wa.getD k 0 &&& wb.getD k 0 := by
    funext k; simp only [sem, List.length_nil, Nat.not_lt_zero, if_false, Nat.sub_zero]
    apply UInt32.toBitVec_inj.1; simp [BitVec.and_comm]
  have hsz : (if a.size > b.size then a.size else b.size) = max a.size b.size := by split <;> omega
  refine ⟨_, us, rfl, q3.of_size, ?_, hsz, by omega⟩
  intro k
  rw [← congrFun hsem k, ← q4]
  unfold sem
  split
  · rfl
  · rename_i hk
    rw [List.getD_eq_default _ _ (by omega)]
    rcases q5 with h | h
    · rw [q1.nil h]; simp
    · rw [q2.nil h]; simp

end Verif.Ewah
