import Verif.Model.BitmapIndex
import Verif.Proof.EwahSet

/-! Lemmas about the text index. -/
namespace Verif.BitmapIndex
open Verif.Ewah (Ewah Rep Aligned bit maxLit)

variable {E : Type}

/-- The bitmap `b` of token `t` over the elements `els`. -/
def BitsOf (tokens : E → List UInt32) (els : List E) (t : UInt32) (b : Ewah) : Prop :=
  ∃ ws, Rep b ws ∧ Aligned b ws ∧ (∃ e ∈ els, t ∈ tokens e) ∧ b.size ≤ els.length ∧
    ∀ k, bit ws k = true ↔ ∃ e, els[k]? = some e ∧ t ∈ tokens e

/-- The bitmaps index the elements `els` for every token except the bad ones. -/
def Indexed (bad : UInt32 → Prop) (tokens : E → List UInt32) (els : List E) (bm : Bitmap) : Prop :=
  ∀ t, ¬ bad t → match bm.find t with
    | none => ∀ e ∈ els, t ∉ tokens e
    | some b => BitsOf tokens els t b

theorem Indexed.nil (bad : UInt32 → Prop) (tokens : E → List UInt32) : Indexed bad tokens [] [] := by
  intro t _
  simp [Assoc.find]

/-- The state while the tokens of element number `n = els.length` are being added; `done` are those added. -/
def Adding (bad : UInt32 → Prop) (tokens : E → List UInt32) (els : List E) (done : List UInt32) (bm : Bitmap) : Prop :=
  ∀ t, ¬ bad t → match bm.find t with
    | none => (∀ e ∈ els, t ∉ tokens e) ∧ t ∉ done
    | some b => ∃ ws, Rep b ws ∧ Aligned b ws ∧ ((∃ e ∈ els, t ∈ tokens e) ∨ t ∈ done) ∧
        (t ∈ done → b.size = els.length + 1) ∧ (t ∉ done → b.size ≤ els.length) ∧
        ∀ k, bit ws k = true ↔ (∃ e, els[k]? = some e ∧ t ∈ tokens e) ∨ (k = els.length ∧ t ∈ done)

theorem Adding.step {bad : UInt32 → Prop} {tokens : E → List UInt32} {els : List E} {done : List UInt32} {bm : Bitmap}
    (h : Adding bad tokens els done bm) {t : UInt32} (ht : ¬ bad t) :
    ∃ b, Ewah.set ((bm.find t).getD Ewah.empty) els.length = some b ∧
      Adding bad tokens els (done ++ [t]) (bm.set t b) := by
  have other : ∀ b u, ¬ bad u → u ≠ t → match (bm.set t b).find u with
    | none => (∀ e ∈ els, u ∉ tokens e) ∧ u ∉ done ++ [t]
    | some b => ∃ ws, Rep b ws ∧ Aligned b ws ∧ ((∃ e ∈ els, u ∈ tokens e) ∨ u ∈ done ++ [t]) ∧
        (u ∈ done ++ [t] → b.size = els.length + 1) ∧ (u ∉ done ++ [t] → b.size ≤ els.length) ∧
        ∀ k, bit ws k = true ↔ (∃ e, els[k]? = some e ∧ u ∈ tokens e) ∨ (k = els.length ∧ u ∈ done ++ [t]) := by
    intro b u hu hne
    have e : ∀ x, x ∈ [u] → (x ∈ done ++ [t] ↔ x ∈ done) := by
      intro x hx; simp at hx; subst hx; simp [hne]
    have e' := e u (by simp)
    rw [Assoc.find_set, if_neg hne]
    simp only [e']
    exact h u hu
  have hh := h t ht
  by_cases hd : t ∈ done
  · -- a repeated token is refused
    cases hf : bm.find t with
    | none => rw [hf] at hh; exact absurd hd hh.2
    | some b =>
      rw [hf] at hh
      obtain ⟨ws, r1, r2, r3, r4, r5, r6⟩ := hh
      refine ⟨b, ?_, ?_⟩
      · simp only [Option.getD_some, Ewah.set]
        rw [if_pos (by rw [r4 hd]; omega)]
      · intro u hu
        by_cases hne : u = t
        · subst hne
          rw [Assoc.find_set, if_pos rfl]
          refine ⟨ws, r1, r2, .inr (by simp), fun _ => r4 hd, fun hc => absurd (by simp) hc, ?_⟩
          intro k; rw [r6]; simp [hd]
        · exact other b u hu hne
  · have start : ∃ ws, Rep ((bm.find t).getD Ewah.empty) ws ∧ Aligned ((bm.find t).getD Ewah.empty) ws ∧
        ((bm.find t).getD Ewah.empty).size ≤ els.length ∧
        ∀ k, bit ws k = true ↔ ∃ e, els[k]? = some e ∧ t ∈ tokens e := by
      cases hf : bm.find t with
      | none =>
        rw [hf] at hh
        refine ⟨[], Ewah.rep_empty, Ewah.aligned_empty, Nat.zero_le _, ?_⟩
        intro k
        rw [Ewah.bit_ge (by simp)]
        constructor
        · intro h; cases h
        · rintro ⟨e, he, het⟩
          exact absurd het (hh.1 e (List.mem_of_getElem? he))
      | some b =>
        rw [hf] at hh
        obtain ⟨ws, r1, r2, r3, r4, r5, r6⟩ := hh
        exact ⟨ws, r1, r2, r5 hd, fun k => by rw [r6]; simp [hd]⟩
    obtain ⟨ws, s1, s2, s3, s4⟩ := start
    obtain ⟨b', ws', f1, f2, f3, f4, f5⟩ := Ewah.set_spec s1 s2 s3
    refine ⟨b', f1, ?_⟩
    intro u hu
    by_cases hne : u = t
    · subst hne
      rw [Assoc.find_set, if_pos rfl]
      refine ⟨ws', f2, f3, .inr (by simp), fun _ => f4, fun hc => absurd (by simp) hc, ?_⟩
      intro k
      rw [f5]
      simp only [Bool.or_eq_true, decide_eq_true_eq, s4]
      simp
    · exact other b' u hu hne

theorem Adding.all {bad : UInt32 → Prop} {tokens : E → List UInt32} {els : List E} (ts : List UInt32) :
    ∀ {done : List UInt32} {bm : Bitmap}, Adding bad tokens els done bm → (∀ t ∈ ts, ¬ bad t) →
    ∃ bm', add bm ts els.length = some bm' ∧ Adding bad tokens els (done ++ ts) bm' := by
  induction ts with
  | nil => intro done bm h _; exact ⟨bm, rfl, by simpa using h⟩
  | cons t ts ih =>
    intro done bm h hb
    obtain ⟨b, e1, e2⟩ := h.step (hb t (by simp))
    obtain ⟨bm', f1, f2⟩ := ih e2 (fun u hu => hb u (by simp [hu]))
    refine ⟨bm', ?_, by simpa using f2⟩
    unfold add at *
    rw [List.foldlM_cons, e1]
    exact f1

theorem add_indexed {bad : UInt32 → Prop} {tokens : E → List UInt32} {els : List E} {bm : Bitmap}
    (h : Indexed bad tokens els bm) (e : E) (hb : ∀ t ∈ tokens e, ¬ bad t) :
    ∃ bm', add bm (tokens e) els.length = some bm' ∧ Indexed bad tokens (els ++ [e]) bm' := by
  have h0 : Adding bad tokens els [] bm := by
    intro t ht
    have := h t ht
    split at this
    · exact ⟨this, by simp⟩
    · rename_i b hf
      obtain ⟨ws, r1, r2, r3, r4, r5⟩ := this
      exact ⟨ws, r1, r2, .inl r3, by simp, fun _ => r4, fun k => by rw [r5]; simp⟩
  obtain ⟨bm', e1, e2⟩ := h0.all (tokens e) hb
  refine ⟨bm', e1, ?_⟩
  intro t ht
  have := e2 t ht
  split at this
  · intro x hx
    rcases List.mem_append.1 hx with hx | hx
    · exact this.1 x hx
    · simp only [List.mem_singleton] at hx; subst hx; simpa using this.2
  · rename_i b hf
    obtain ⟨ws, r1, r2, r3, r4, r5, r6⟩ := this
    simp only [List.nil_append] at r3 r4 r5 r6
    refine ⟨ws, r1, r2, ?_, ?_, ?_⟩
    · rcases r3 with ⟨x, hx, hxt⟩ | hx
      · exact ⟨x, by simp [hx], hxt⟩
      · exact ⟨e, by simp, hx⟩
    · simp only [List.length_append, List.length_singleton]
      by_cases hd : t ∈ tokens e
      · rw [r4 hd]; exact Nat.le_refl _
      · exact Nat.le_succ_of_le (r5 hd)
    · intro k
      rw [r6]
      constructor
      · rintro (⟨x, hx, hxt⟩ | ⟨hk, hxt⟩)
        · exact ⟨x, by rw [List.getElem?_append_left (List.getElem?_eq_some_iff.1 hx).1]; exact hx, hxt⟩
        · subst hk; exact ⟨e, by simp, hxt⟩
      · rintro ⟨x, hx, hxt⟩
        by_cases hk : k < els.length
        · rw [List.getElem?_append_left hk] at hx; exact .inl ⟨x, hx, hxt⟩
        · rw [List.getElem?_append_right (by omega)] at hx
          by_cases hk0 : k - els.length = 0
          · rw [hk0] at hx; simp at hx; subst hx; exact .inr ⟨by omega, hxt⟩
          · obtain ⟨hlt, _⟩ := List.getElem?_eq_some_iff.1 hx
            simp at hlt; omega

/-! ## Searching -/

/-- The current result of the search: which elements it selects. -/
structure Sel (els : List E) (bs : Ewah) (P : E → Prop) : Prop where
  out : ∃ ws, Rep bs ws ∧ ws.length ≤ (els.length + 31) / 32 ∧ ∀ k, bit ws k = true ↔ ∃ e, els[k]? = some e ∧ P e

theorem Sel.congr {els : List E} {bs : Ewah} {P Q : E → Prop} (h : Sel els bs P) (hpq : ∀ e ∈ els, P e ↔ Q e) :
    Sel els bs Q := by
  obtain ⟨ws, r1, r2, r3⟩ := h
  refine ⟨ws, r1, r2, fun k => ?_⟩
  rw [r3]
  constructor
  · rintro ⟨e, he, hp⟩; exact ⟨e, he, (hpq e (List.mem_of_getElem? he)).1 hp⟩
  · rintro ⟨e, he, hp⟩; exact ⟨e, he, (hpq e (List.mem_of_getElem? he)).2 hp⟩

theorem BitsOf.sel {tokens : E → List UInt32} {els : List E} {t : UInt32} {b : Ewah} (h : BitsOf tokens els t b) :
    Sel els b (fun e => t ∈ tokens e) ∧ 0 < b.size := by
  obtain ⟨ws, r1, r2, ⟨e, he, het⟩, r4, r5⟩ := h
  refine ⟨⟨ws, r1, by rw [r2.1]; omega, r5⟩, ?_⟩
  obtain ⟨k, hk⟩ := List.getElem?_of_mem he
  by_contra hc
  have := (r5 k).2 ⟨e, hk, het⟩
  rw [r2.2 k (by omega)] at this
  cases this

theorem Sel.empty (els : List E) : Sel els Ewah.empty (fun _ => False) := by
  refine ⟨[], Ewah.rep_empty, by simp, fun k => ?_⟩
  rw [Ewah.bit_ge (by simp)]
  simp

theorem Sel.or {els : List E} {a b : Ewah} {P Q : E → Prop} (ha : Sel els a P) (hb : Sel els b Q) :
    ∃ c, Ewah.logicalOr a b = some c ∧ Sel els c (fun e => P e ∨ Q e) ∧ c.size = max a.size b.size := by
  obtain ⟨wa, a1, a2, a3⟩ := ha
  obtain ⟨wb, b1, b2, b3⟩ := hb
  obtain ⟨c, wc, c1, c2, c3, c4, c5⟩ := Ewah.logicalOr_spec a1 b1
  refine ⟨c, c1, ⟨wc, c2, by omega, fun k => ?_⟩, c4⟩
  have : bit wc k = (bit wa k || bit wb k) := by
    unfold bit; rw [c3, UInt32.toNat_or, Nat.testBit_or]
  rw [this, Bool.or_eq_true, a3, b3]
  constructor
  · rintro (⟨e, he, hp⟩ | ⟨e, he, hp⟩)
    · exact ⟨e, he, .inl hp⟩
    · exact ⟨e, he, .inr hp⟩
  · rintro ⟨e, he, hp | hp⟩
    · exact .inl ⟨e, he, hp⟩
    · exact .inr ⟨e, he, hp⟩

theorem Sel.and {els : List E} {a b : Ewah} {P Q : E → Prop} (ha : Sel els a P) (hb : Sel els b Q) :
    ∃ c, Ewah.logicalAnd a b = some c ∧ Sel els c (fun e => P e ∧ Q e) ∧ c.size = max a.size b.size := by
  obtain ⟨wa, a1, a2, a3⟩ := ha
  obtain ⟨wb, b1, b2, b3⟩ := hb
  obtain ⟨c, wc, c1, c2, c3, c4, c5⟩ := Ewah.logicalAnd_spec a1 b1
  refine ⟨c, c1, ⟨wc, c2, by omega, fun k => ?_⟩, c4⟩
  have : bit wc k = (bit wa k && bit wb k) := by
    unfold bit; rw [c3, UInt32.toNat_and, Nat.testBit_and]
  rw [this, Bool.and_eq_true, a3, b3]
  constructor
  · rintro ⟨⟨e, he, hp⟩, ⟨e', he', hp'⟩⟩
    rw [he] at he'; cases he'
    exact ⟨e, he, hp, hp'⟩
  · rintro ⟨e, he, hp, hq⟩
    exact ⟨⟨e, he, hp⟩, ⟨e, he, hq⟩⟩

theorem Sel.xor {els : List E} {a b : Ewah} {P Q : E → Prop} (ha : Sel els a P) (hb : Sel els b Q)
    (hl : els.length ≤ 32 * maxLit) :
    ∃ c, Ewah.logicalXor a b = some c ∧ Sel els c (fun e => ¬ (P e ↔ Q e)) ∧ c.size = max a.size b.size := by
  obtain ⟨wa, a1, a2, a3⟩ := ha
  obtain ⟨wb, b1, b2, b3⟩ := hb
  obtain ⟨c, wc, c1, c2, c3, c4, c5⟩ := Ewah.logicalXor_spec a1 b1 (by omega)
  refine ⟨c, c1, ⟨wc, c2, by omega, fun k => ?_⟩, c4⟩
  have : bit wc k = (bit wa k ^^ bit wb k) := by
    unfold bit; rw [c3, UInt32.toNat_xor, Nat.testBit_xor]
  rw [this]
  have h1 := a3 k
  have h2 := b3 k
  cases he : els[k]? with
  | none => rw [he] at h1 h2; simp at h1 h2; simp [h1, h2]
  | some e =>
    rw [he] at h1 h2
    simp only [Option.some.injEq, exists_eq_left'] at h1 h2 ⊢
    rw [← h1, ← h2]
    cases bit wa k <;> cases bit wb k <;> simp

variable {bad : UInt32 → Prop} {tokens : E → List UInt32} {els : List E} {bm : Bitmap}

theorem find_none_iff (h : Indexed bad tokens els bm) {t : UInt32} (ht : ¬ bad t) :
    bm.find t = none ↔ ∀ e ∈ els, t ∉ tokens e := by
  have := h t ht
  split at this
  · rename_i hf; simp [hf]; exact this
  · rename_i b hf
    obtain ⟨_, _, _, ⟨e, he, het⟩, _⟩ := this
    simp only [hf, reduceCtorEq, false_iff, not_forall]
    exact ⟨e, he, fun hc => hc het⟩

theorem orTerms_spec (h : Indexed bad tokens els bm) (terms : List UInt32) (ht : ∀ t ∈ terms, ¬ bad t) :
    ∀ {bs : Ewah} {P : E → Prop}, Sel els bs P →
    ∃ c, orTerms bm terms bs = some c ∧ Sel els c (fun e => P e ∨ ∃ t ∈ terms, t ∈ tokens e) ∧
      (c.size = 0 ↔ bs.size = 0 ∧ ∀ t ∈ terms, ∀ e ∈ els, t ∉ tokens e) := by
  induction terms with
  | nil => intro bs P hs; exact ⟨bs, rfl, hs.congr (by simp), by simp⟩
  | cons t ts ih =>
    intro bs P hs
    have hbt := ht t (by simp)
    cases hf : bm.find t with
    | none =>
      obtain ⟨c, c1, c2, c3⟩ := ih (fun u hu => ht u (by simp [hu])) hs
      have hno := (find_none_iff h hbt).1 hf
      refine ⟨c, ?_, c2.congr ?_, ?_⟩
      · unfold orTerms at *; simp [hf, c1]
      · intro e he; simp [hno e he]
      · rw [c3]; simp only [List.mem_cons, forall_eq_or_imp]
        exact ⟨fun ⟨a, b⟩ => ⟨a, hno, b⟩, fun ⟨a, _, b⟩ => ⟨a, b⟩⟩
    | some b =>
      have hb := h t hbt
      rw [hf] at hb
      obtain ⟨d, d1, d2, d3⟩ := hb.sel.1.or hs
      obtain ⟨c, c1, c2, c3⟩ := ih (fun u hu => ht u (by simp [hu])) d2
      refine ⟨c, ?_, c2.congr ?_, ?_⟩
      · unfold orTerms at *; simp [hf, d1, c1]
      · intro e he; simp only [List.mem_cons, exists_eq_or_imp]; tauto
      · have := hb.sel.2
        have hne : d.size ≠ 0 := by omega
        rw [c3]
        constructor
        · intro hc; exact absurd hc.1 hne
        · rintro ⟨_, hc⟩
          obtain ⟨_, _, _, ⟨e, he, het⟩, _⟩ := hb
          exact absurd het (hc t (by simp) e he)

theorem andTerms_spec (h : Indexed bad tokens els bm) (terms : List UInt32) (ht : ∀ t ∈ terms, ¬ bad t) :
    ∀ {bs : Ewah} {P : E → Prop}, Sel els bs P → (bs.size ≠ 0) →
    ∃ c, andTerms bm terms bs = some c ∧ Sel els c (fun e => P e ∧ ∀ t ∈ terms, t ∈ tokens e) := by
  induction terms with
  | nil => intro bs P hs _; exact ⟨bs, rfl, hs.congr (by simp)⟩
  | cons t ts ih =>
    intro bs P hs hsz
    have hbt := ht t (by simp)
    cases hf : bm.find t with
    | none =>
      have hno := (find_none_iff h hbt).1 hf
      refine ⟨Ewah.empty, by simp [andTerms, hf], (Sel.empty els).congr ?_⟩
      intro e he; simp [hno e he]
    | some b =>
      have hb := h t hbt
      rw [hf] at hb
      obtain ⟨d, d1, d2, d3⟩ := hb.sel.1.and hs
      obtain ⟨c, c1, c2⟩ := ih (fun u hu => ht u (by simp [hu])) d2 (by omega)
      refine ⟨c, ?_, c2.congr ?_⟩
      · simp [andTerms, hf, hsz, d1, c1]
      · intro e he; simp only [List.mem_cons, forall_eq_or_imp]; tauto

/-- And-terms on an empty selection: the first one starts the selection. -/
theorem andTerms_first (h : Indexed bad tokens els bm) (t : UInt32) (ts : List UInt32) (ht : ∀ u ∈ t :: ts, ¬ bad u)
    {bs : Ewah} (hsz : bs.size = 0) :
    ∃ c, andTerms bm (t :: ts) bs = some c ∧ Sel els c (fun e => ∀ u ∈ t :: ts, u ∈ tokens e) := by
  have hbt := ht t (by simp)
  cases hf : bm.find t with
  | none =>
    have hno := (find_none_iff h hbt).1 hf
    refine ⟨Ewah.empty, by simp [andTerms, hf], (Sel.empty els).congr ?_⟩
    intro e he; simp [hno e he]
  | some b =>
    have hb := h t hbt
    rw [hf] at hb
    have := hb.sel.2
    obtain ⟨c, c1, c2⟩ := andTerms_spec h ts (fun u hu => ht u (by simp [hu])) hb.sel.1 (by omega)
    refine ⟨c, by simp [andTerms, hf, hsz, c1], c2.congr ?_⟩
    intro e he; simp

theorem notTerms_spec (h : Indexed bad tokens els bm) (terms : List UInt32) (ht : ∀ t ∈ terms, ¬ bad t)
    (hl : terms = [] ∨ els.length ≤ 32 * maxLit) :
    ∀ {bs : Ewah} {P : E → Prop}, Sel els bs P →
    ∃ c, notTerms bm terms bs = some c ∧ Sel els c (fun e => P e ∧ ∀ t ∈ terms, t ∉ tokens e) := by
  induction terms with
  | nil => intro bs P hs; exact ⟨bs, rfl, hs.congr (by simp)⟩
  | cons t ts ih =>
    intro bs P hs
    have hl' : els.length ≤ 32 * maxLit := hl.resolve_left (by simp)
    have hbt := ht t (by simp)
    cases hf : bm.find t with
    | none =>
      obtain ⟨c, c1, c2⟩ := ih (fun u hu => ht u (by simp [hu])) (.inr hl') hs
      have hno := (find_none_iff h hbt).1 hf
      refine ⟨c, ?_, c2.congr ?_⟩
      · unfold notTerms at *; rw [List.foldlM_cons]; simp only [hf]; exact c1
      · intro e he; simp [hno e he]
    | some b =>
      have hb := h t hbt
      rw [hf] at hb
      obtain ⟨d, d1, d2, d3⟩ := hb.sel.1.xor hs hl'
      obtain ⟨f, f1, f2, f3⟩ := d2.and hs
      obtain ⟨c, c1, c2⟩ := ih (fun u hu => ht u (by simp [hu])) (.inr hl') f2
      refine ⟨c, ?_, c2.congr ?_⟩
      · unfold notTerms at *; rw [List.foldlM_cons]; simp only [hf, d1]; simp [f1]; exact c1
      · intro e he; simp only [List.mem_cons, forall_eq_or_imp]; tauto

/-- What the search selects from a tile holding `els`. -/
def Selects (tokens : E → List UInt32) (els : List E) (q : Terms) (e : E) : Prop :=
  (if q.and = [] ∨ ∃ t ∈ q.or, ∃ x ∈ els, t ∈ tokens x then ∃ t ∈ q.or, t ∈ tokens e else True) ∧
    (∀ t ∈ q.and, t ∈ tokens e) ∧ ∀ t ∈ q.not, t ∉ tokens e

theorem search_spec (h : Indexed bad tokens els bm) (q : Terms) (h1 : ∀ t ∈ q.or, ¬ bad t)
    (h2 : ∀ t ∈ q.and, ¬ bad t) (h3 : ∀ t ∈ q.not, ¬ bad t) (hl : q.not = [] ∨ els.length ≤ 32 * maxLit) :
    ∃ os, search bm q = some os ∧ os.Pairwise (· < ·) ∧
      ∀ k, k ∈ os ↔ ∃ e, els[k]? = some e ∧ Selects tokens els q e := by
  obtain ⟨b1, e1, s1, z1⟩ := orTerms_spec h q.or h1 (Sel.empty els)
  have key : ∃ b2, andTerms bm q.and b1 = some b2 ∧ Sel els b2 (fun e =>
      (if q.and = [] ∨ ∃ t ∈ q.or, ∃ x ∈ els, t ∈ tokens x then ∃ t ∈ q.or, t ∈ tokens e else True) ∧
      ∀ t ∈ q.and, t ∈ tokens e) := by
    by_cases hz : b1.size = 0
    · have hno := (z1.1 hz).2
      cases ha : q.and with
      | nil => exact ⟨b1, rfl, s1.congr (by simp)⟩
      | cons t ts =>
        obtain ⟨c, c1, c2⟩ := andTerms_first h t ts (by rw [← ha]; exact h2) hz
        refine ⟨c, c1, c2.congr ?_⟩
        intro e he
        have : ¬ (t :: ts = [] ∨ ∃ t ∈ q.or, ∃ x ∈ els, t ∈ tokens x) := by
          rintro (hc | ⟨t, ht, x, hx, hxt⟩)
          · cases hc
          · exact hno t ht x hx hxt
        rw [if_neg this]; simp
    · obtain ⟨c, c1, c2⟩ := andTerms_spec h q.and h2 s1 hz
      refine ⟨c, c1, c2.congr ?_⟩
      intro e he
      have : ∃ t ∈ q.or, ∃ x ∈ els, t ∈ tokens x := by
        by_contra hc
        apply hz
        rw [z1]
        refine ⟨rfl, fun t ht x hx hxt => hc ⟨t, ht, x, hx, hxt⟩⟩
      rw [if_pos (.inr this)]; simp
  obtain ⟨b2, e2, s2⟩ := key
  obtain ⟨b3, e3, s3⟩ := notTerms_spec h q.not h3 hl s2
  obtain ⟨ws, r1, r2, r3⟩ := s3
  refine ⟨Ewah.bits b3, by simp [search, e1, e2, e3], Ewah.bits_sorted r1, ?_⟩
  intro k
  rw [Ewah.mem_bits r1, r3]
  constructor
  · rintro ⟨e, he, ⟨p1, p2⟩, p3⟩; exact ⟨e, he, p1, p2, p3⟩
  · rintro ⟨e, he, p1, p2, p3⟩; exact ⟨e, he, ⟨p1, p2⟩, p3⟩

end Verif.BitmapIndex
