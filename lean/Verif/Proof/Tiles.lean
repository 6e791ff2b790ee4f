import Verif.Model.Tiles

namespace Verif

theorem mem_intRange (s e i : Int) : i ∈ intRange s e ↔ s ≤ i ∧ i ≤ e := by
  simp only [intRange, List.mem_map, List.mem_range]
  constructor
  · rintro ⟨k, hk, rfl⟩; omega
  · intro h; exact ⟨(i - s).toNat, by omega, by omega⟩

theorem nodup_intRange (s e : Int) : (intRange s e).Nodup := by
  unfold intRange
  refine List.Pairwise.map _ (R := (· ≠ ·)) ?_ List.nodup_range
  intro a b h; simp only [ne_eq]; omega

theorem sorted_intRange (s e : Int) : (intRange s e).Pairwise (· < ·) := by
  unfold intRange
  refine List.Pairwise.map _ (R := (· < ·)) ?_ List.pairwise_lt_range
  intro a b h; omega

theorem quadCode_length (q : QuadKey) (n : Nat) : (quadCode q n).length = n := by
  induction n with
  | zero => rfl
  | succ n ih => simp [quadCode, ih]

theorem quadCode_digit (q : QuadKey) (n : Nat) (c : Char) (h : c ∈ quadCode q n) :
    c = '0' ∨ c = '1' ∨ c = '2' ∨ c = '3' := by
  induction n with
  | zero => simp [quadCode] at h
  | succ n ih =>
    rcases List.mem_cons.1 h with h | h
    · subst h; unfold quadDigit; split <;> simp
    · exact ih h

theorem quadDigit_inj {q r : QuadKey} {n : Nat} (h : quadDigit q n = quadDigit r n) :
    bitSet q.x n = bitSet r.x n ∧ bitSet q.y n = bitSet r.y n := by
  unfold quadDigit at h
  revert h
  cases bitSet q.x n <;> cases bitSet q.y n <;> cases bitSet r.x n <;> cases bitSet r.y n <;> simp

theorem quadCode_bits {q r : QuadKey} {n : Nat} (h : quadCode q n = quadCode r n) :
    ∀ k < n, bitSet q.x k = bitSet r.x k ∧ bitSet q.y k = bitSet r.y k := by
  induction n with
  | zero => intro k hk; omega
  | succ n ih =>
    simp only [quadCode, List.cons.injEq] at h
    intro k hk
    by_cases e : k = n
    · subst e; exact quadDigit_inj h.1
    · exact ih h.2 k (by omega)

theorem bitSet_inj {n : Nat} : ∀ {a b : Int}, 0 ≤ a → a < 2 ^ n → 0 ≤ b → b < 2 ^ n →
    (∀ k < n, bitSet a k = bitSet b k) → a = b := by
  induction n with
  | zero => intro a b; simp only [Int.pow_zero]; intros; omega
  | succ n ih =>
    intro a b ha ha' hb hb' h
    rw [Int.pow_succ] at ha' hb'
    have key : a / 2 = b / 2 := by
      apply ih (by omega) (by omega) (by omega) (by omega)
      intro k hk
      have := h (k + 1) (by omega)
      simp only [bitSet, Int.pow_succ] at this ⊢
      rw [Int.mul_comm, ← Int.ediv_ediv_of_nonneg (by omega), ← Int.ediv_ediv_of_nonneg (by omega)] at this
      exact this
    have h0 := h 0 (by omega)
    simp only [bitSet, Int.pow_zero, Int.ediv_one, decide_eq_decide, ne_eq] at h0
    omega

/-- Splitting at the last occurrence of a separator is unique. -/
theorem split_last_unique {α} {c : α} : ∀ {a a' b b' : List α}, c ∉ b → c ∉ b' →
    a ++ c :: b = a' ++ c :: b' → a = a' ∧ b = b' := by
  intro a a' b b' hb hb' h
  rw [List.append_eq_append_iff] at h
  rcases h with ⟨t, h1, h2⟩ | ⟨t, h1, h2⟩
  · cases t with
    | nil => simp at h1 h2; exact ⟨h1.symm, h2⟩
    | cons x t =>
      simp only [List.cons_append, List.cons.injEq] at h2
      exact absurd (by rw [h2.2]; simp) hb
  · cases t with
    | nil => simp at h1 h2; exact ⟨h1, h2.symm⟩
    | cons x t =>
      simp only [List.cons_append, List.cons.injEq] at h2
      exact absurd (by rw [h2.2]; simp) hb'

/-- Splitting at the first occurrence of a separator is unique. -/
theorem split_first_unique {α} {c : α} : ∀ {a a' b b' : List α}, c ∉ a → c ∉ a' →
    a ++ c :: b = a' ++ c :: b' → a = a' ∧ b = b' := by
  intro a
  induction a with
  | nil =>
    intro a' b b' _ h' h
    cases a' with
    | nil => simpa using h
    | cons x t => simp at h; exact absurd (by simp [h.1]) h'
  | cons y a ih =>
    intro a' b b' hn h' h
    cases a' with
    | nil => simp at h; exact absurd (by simp [h.1]) hn
    | cons x t =>
      simp only [List.cons_append, List.cons.injEq] at h
      simp only [List.mem_cons, not_or] at hn h'
      have := ih hn.2 h'.2 h.2
      exact ⟨by rw [h.1, this.1], this.2⟩

theorem natString_isDigit (n : Nat) (c : Char) (h : c ∈ (toString n).toList) : c.isDigit := by
  have : (toString n).toList = Nat.toDigits 10 n := by
    simp [toString, Nat.repr]
  rw [this] at h
  exact Nat.isDigit_of_mem_toDigits (by omega) (by omega) h

theorem lodString_no_slash (i : Int) (h : 0 ≤ i) : '/' ∉ (toString i).toList := by
  intro hc
  cases i with
  | ofNat n =>
    have := natString_isDigit n '/' hc
    revert this; decide
  | negSucc n => omega

end Verif
