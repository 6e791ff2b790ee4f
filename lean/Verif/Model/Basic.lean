/-!
# Shared vocabulary of the model

Nothing here models a particular source file except where cited.
-/
namespace Verif

/-- Result of a C++ call: normal return, exception (with the exception class name), or undefined
behaviour.  Undefined behaviour is a separate outcome so that no theorem can rely on it silently. -/
inductive Outcome (α : Type) where
  | ok (a : α)
  | throw (exc : String)
  | ub (why : String)
deriving Repr, DecidableEq

namespace Outcome
variable {α β : Type}

/-- Sequencing: an exception or undefined behaviour stops the computation. -/
def bind (x : Outcome α) (f : α → Outcome β) : Outcome β :=
  match x with
  | ok a => f a
  | throw e => throw e
  | ub w => ub w

instance : Monad Outcome where
  pure := ok
  bind := bind

/-- The call returned normally with this value. -/
def isOk : Outcome α → Bool
  | ok _ => true
  | _ => false

end Outcome

/-- `std::map` / `std::unordered_map` as an association list.  Simplification: iteration order is not
represented, lookups and updates are.  Invariant (unique keys) is proved where used. -/
abbrev Assoc (K V : Type) := List (K × V)

namespace Assoc
variable {K V : Type} [DecidableEq K]

/-- `map.find(key)` -/
def find (m : Assoc K V) (k : K) : Option V :=
  match m with
  | [] => none
  | (k', v) :: rest => if k' = k then some v else find rest k

/-- `map.erase(key)` -/
def erase (m : Assoc K V) (k : K) : Assoc K V := List.filter (fun e => e.1 ≠ k) m

/-- `map[key] = value` -/
def set (m : Assoc K V) (k : K) (v : V) : Assoc K V := (k, v) :: erase m k

/-- `map.emplace(key, value)`: keeps the existing value if there is one. -/
def emplace (m : Assoc K V) (k : K) (v : V) : Assoc K V :=
  match find m k with
  | some _ => m
  | none => (k, v) :: m

theorem find_nil (k : K) : find ([] : Assoc K V) k = none := rfl

theorem find_cons (m : Assoc K V) (k k' : K) (v : V) :
    find ((k', v) :: m) k = if k' = k then some v else find m k := rfl

theorem find_erase (m : Assoc K V) (k k' : K) :
    find (erase m k) k' = if k' = k then none else find m k' := by
  induction m with
  | nil => simp [erase, find]
  | cons e m ih =>
    obtain ⟨a, v⟩ := e
    unfold erase at ih ⊢
    by_cases h : a = k
    · subst h
      simp only [List.filter, find_cons]
      simp only [ne_eq, not_true_eq_false, decide_false]
      rw [ih]
      by_cases h2 : k' = a
      · subst h2; simp
      · have : ¬ a = k' := fun h => h2 h.symm
        simp [h2, this]
    · simp only [List.filter]
      simp only [ne_eq, h, not_false_eq_true, decide_true, find_cons]
      rw [ih]
      by_cases h2 : k' = k
      · subst h2; simp [h]
      · simp [h2]

theorem find_set (m : Assoc K V) (k k' : K) (v : V) :
    find (set m k v) k' = if k' = k then some v else find m k' := by
  unfold set
  rw [find_cons, find_erase]
  by_cases h : k' = k
  · subst h; simp
  · have : ¬ k = k' := fun h' => h h'.symm
    simp [h, this]

theorem find_emplace (m : Assoc K V) (k k' : K) (v : V) :
    find (emplace m k v) k' =
      if k' = k then some ((find m k).getD v) else find m k' := by
  unfold emplace
  split
  · rename_i w hw
    by_cases h : k' = k
    · subst h; simp [hw]
    · simp [h]
  · rename_i hn
    rw [find_cons]
    by_cases h : k' = k
    · subst h; simp [hn]
    · have : ¬ k = k' := fun h' => h h'.symm
      simp [h, this]

theorem find_eq_none_iff (m : Assoc K V) (k : K) : find m k = none ↔ ∀ e ∈ m, e.1 ≠ k := by
  induction m with
  | nil => simp [find]
  | cons e m ih =>
    obtain ⟨a, v⟩ := e
    rw [find_cons]
    by_cases h : a = k
    · simp [h]
    · simp [h, ih]

theorem mem_of_find (m : Assoc K V) (k : K) (v : V) (h : find m k = some v) : (k, v) ∈ m := by
  induction m with
  | nil => simp [find] at h
  | cons e m ih =>
    obtain ⟨a, w⟩ := e
    rw [find_cons] at h
    by_cases hk : a = k
    · subst hk; simp at h; subst h; simp
    · simp [hk] at h; exact List.mem_cons_of_mem _ (ih h)

theorem find_of_mem (m : Assoc K V) (k : K) (v : V) (hn : (m.map (·.1)).Nodup) (h : (k, v) ∈ m) :
    find m k = some v := by
  induction m with
  | nil => simp at h
  | cons e m ih =>
    obtain ⟨a, w⟩ := e
    simp only [List.map_cons, List.nodup_cons] at hn
    rw [find_cons]
    rcases List.mem_cons.1 h with h | h
    · cases h; simp
    · have : a ≠ k := by
        rintro rfl
        exact hn.1 (List.mem_map.2 ⟨(a, v), h, rfl⟩)
      simp [this, ih hn.2 h]

end Assoc
end Verif
