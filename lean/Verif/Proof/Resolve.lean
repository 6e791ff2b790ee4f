import Mathlib.Algebra.Order.BigOperators.Group.List
import Mathlib.Order.WellFounded
import Verif.Props.ResolveSpec
import Verif.Props.Tags
import Verif.Props.OsmSpec
import Verif.Props.Osm
import Verif.Props.OsmRelations

/-! # Lemmas about resolving relations (C96) -/
namespace Verif.ResolveProof
open Verif.Resolve Verif.ResolveSpec
open Verif.Building (hasTag)
open Classical
set_option linter.unusedSectionVars false

variable {K : Type} [Field K] [LinearOrder K]

/-! ## Lookup -/

theorem lookup_iff (d : Data K) (m : Member) (k : Key) : lookup d m = some k ↔ Names d m k := by
  obtain ⟨ty, i, role⟩ := m
  have hnw : ("n" : String) ≠ "w" := by decide
  unfold lookup Names
  simp only
  generalize ha : d.ctx.areaMap.find i = oa
  generalize (d.ctx.wayMap.find i).isSome = bw
  generalize (d.ctx.nodeMap.find i).isSome = bn
  generalize (d.relations.find i).isSome = br
  by_cases hn : ty = "n"
  · subst hn
    cases bn <;> cases oa <;> grind
  · by_cases hw : ty = "w"
    · subst hw
      cases bw <;> cases oa <;> grind
    · cases br <;> grind

theorem lookup_relation {d : Data K} {m : Member} {r : UInt64} (h : lookup d m = some (.relation r)) :
    m.type ≠ "n" ∧ m.type ≠ "w" ∧ m.refId = r ∧ (d.relations.find r).isSome := by
  rcases (lookup_iff d m _).1 h with ⟨-, h, -⟩ | ⟨-, h, -⟩ | ⟨-, h, -⟩ | ⟨h1, h2, h3, h4⟩
  · cases h
  · cases h
  · cases h
  · cases h3; exact ⟨h1, h2, rfl, h4⟩

theorem lookup_id {d : Data K} {m : Member} {k : Key} (h : lookup d m = some k) : k.id = m.refId := by
  rcases (lookup_iff d m _).1 h with ⟨-, h, -⟩ | ⟨-, h, -⟩ | ⟨-, h, -⟩ | ⟨-, -, h, -⟩ <;> rw [h] <;> rfl

theorem back_iff (d : Data K) (a r : UInt64) : hasReferenceToParent d a r = true ↔ NamesBack d a (.relation r) := by
  unfold hasReferenceToParent NamesBack
  cases h : d.relations.find r with
  | none =>
    simp only [Bool.false_eq_true, false_iff]
    rintro ⟨i, own, ms, he, hf, -⟩
    cases he
    rw [h] at hf; cases hf
  | some x =>
    obtain ⟨own, ms⟩ := x
    simp only [List.any_eq_true, beq_iff_eq]
    constructor
    · rintro ⟨m, hm, he⟩; exact ⟨r, own, ms, rfl, h, m, hm, he⟩
    · rintro ⟨i, own', ms', he, hf, m, hm, hid⟩
      cases he
      rw [h] at hf; cases hf
      exact ⟨m, hm, hid⟩

theorem find_mem {V : Type} {l : Assoc UInt64 V} {k : UInt64} {v : V} (h : l.find k = some v) : (k, v) ∈ l := by
  induction l with
  | nil => simp [Assoc.find] at h
  | cons p l ih =>
    obtain ⟨k', v'⟩ := p
    rw [Assoc.find] at h
    split at h
    · rename_i he; cases h; simp [he]
    · exact List.mem_cons_of_mem _ (ih h)

theorem find_of_mem {V : Type} {l : Assoc UInt64 V} {k : UInt64} {v : V} (hn : (l.map (·.1)).Nodup) (h : (k, v) ∈ l) : l.find k = some v := by
  induction l with
  | nil => simp at h
  | cons p l ih =>
    obtain ⟨k', v'⟩ := p
    rw [Assoc.find]
    rw [List.map_cons, List.nodup_cons] at hn
    rcases List.mem_cons.1 h with h | h
    · cases h; simp
    · rw [if_neg]
      · exact ih hn.2 h
      · rintro rfl
        exact hn.1 (List.mem_map_of_mem (f := (·.1)) h)

/-! ## Tags -/

/-- The kind of a relation is seen in its tags, also if marks were added. -/
theorem hasTag_iff {key value : UInt32} {own : List Tag} (hs : (own.map Tag.key).Pairwise (· < ·)) (hm : ∀ t ∈ own, t.key < 0xFFFFFFFF) (hk : key ≠ 0xFFFFFFFF)
    (hv : value ≠ 0xFFFFFFFF) (n : Nat) : hasTag key value (own ++ List.replicate n marker) = true ↔ ⟨key, value⟩ ∈ own := by
  have hsorted : ((own ++ List.replicate n marker).map Tag.key).Pairwise (· ≤ ·) := by
    rw [List.map_append, List.map_replicate, List.pairwise_append]
    refine ⟨hs.imp fun h => UInt32.le_of_lt h, ?_, ?_⟩
    · rw [List.pairwise_replicate]; exact .inr (UInt32.le_refl _)
    · intro a ha b hb
      obtain ⟨t, ht, rfl⟩ := List.mem_map.1 ha
      rw [List.eq_of_mem_replicate hb]
      exact UInt32.le_of_lt (hm t ht)
  have hin : ∀ v, (⟨key, v⟩ : Tag) ∈ own ++ List.replicate n marker → ⟨key, v⟩ ∈ own := by
    intro v h
    rcases List.mem_append.1 h with h | h
    · exact h
    · have := List.eq_of_mem_replicate h
      cases this
      exact absurd rfl hk
  rw [← Props.C77_has_partial key value own hs hv]
  unfold hasTag
  rw [beq_iff_eq, beq_iff_eq]
  have hle : (own.map Tag.key).Pairwise (· ≤ ·) := hs.imp fun h => UInt32.le_of_lt h
  rcases Props.C77_value key 0xFFFFFFFF _ hsorted with h | ⟨h, hn⟩
  · have h1 := hin _ h
    have h2 := Props.C77_has_partial key (Building.getTagValue key (own ++ List.replicate n marker) 0xFFFFFFFF) own hs
    by_cases hx : Building.getTagValue key (own ++ List.replicate n marker) 0xFFFFFFFF = 0xFFFFFFFF
    · rw [hx] at h1
      rcases Props.C77_value key 0xFFFFFFFF own hle with h3 | ⟨h3, h4⟩
      · have huniq : Building.getTagValue key own 0xFFFFFFFF = 0xFFFFFFFF := by
          by_contra hne
          have h5 := (Props.C77_has_partial key _ own hs hne).2 h3
          -- both tags have the same key
          have huniq : ∀ (l : List Tag) (k a b : UInt32), (l.map Tag.key).Pairwise (· < ·) → (⟨k, a⟩ : Tag) ∈ l → (⟨k, b⟩ : Tag) ∈ l → a = b := by
            intro l k a b
            induction l with
            | nil => intro _ h; cases h
            | cons t l ih =>
              intro hp ha hb
              rw [List.map_cons, List.pairwise_cons] at hp
              rcases List.mem_cons.1 ha with rfl | ha2
              · rcases List.mem_cons.1 hb with hb | hb
                · injection hb with _ h; exact h.symm
                · exact absurd (hp.1 k (List.mem_map.2 ⟨⟨k, b⟩, hb, rfl⟩)) (UInt32.lt_irrefl _)
              · rcases List.mem_cons.1 hb with rfl | hb
                · exact absurd (hp.1 k (List.mem_map.2 ⟨⟨k, a⟩, ha2, rfl⟩)) (UInt32.lt_irrefl _)
                · exact ih hp.2 ha2 hb
          exact hne (huniq own key _ _ hs h3 h1)
        rw [hx, huniq]
      · rw [hx, h3]
    · have h3 := (h2 hx).2 h1
      unfold hasTag at h3
      rw [beq_iff_eq] at h3
      rw [h3]
  · rw [h]
    rcases Props.C77_value key 0xFFFFFFFF own hle with h3 | ⟨h3, h4⟩
    · exact absurd rfl (hn _ (List.mem_append_left _ h3))
    · rw [h3]

/-! ## What is wanted -/

def back (d : Data K) (a : UInt64) : Key → Bool
  | .relation r => hasReferenceToParent d a r
  | _ => false

def stepP (env : Env K) (d : Data K) (a : UInt64) (acc : List (Ref K)) (m : Member) : List (Ref K) :=
  match lookup d m with
  | none => acc
  | some k => if alreadyProcessed env acc k.id || back d a k then acc else acc ++ [.old k]

def wantP (env : Env K) (d : Data K) (a : UInt64) (ms : List Member) : List (Ref K) := ms.foldl (stepP env d a) []

def wantB (d : Data K) (ms : List Member) : List (Ref K) := ms.filterMap fun m => if m.role = "outline" then none else (lookup d m).map .old

noncomputable def wantM (env : Env K) (d : Data K) (ms : List Member) : List (Ref K) :=
  match Multipolygon.process (Osm.geoEq env.eps) Osm.isClockwise env.contains (rings d ms) with
  | .ok l => l.map .new
  | _ => []

noncomputable def want (env : Env K) (d : Data K) (a : UInt64) : List (Ref K) :=
  match d.relations.find a with
  | none => []
  | some (own, ms) =>
    if IsKind env.getId own .multipolygon then wantM env d ms
    else if IsKind env.getId own .building then wantB d ms
    else wantP env d a ms

/-- The tags after the loop of a multipolygon. -/
def mergeAll (env : Env K) (d : Data K) : List Member → List Tag → List Tag
  | [], t => t
  | m :: ms, t =>
    if m.type = "w" then
      match found d m.refId with
      | .way _ => mergeAll env d ms t
      | .area _ => if m.role = "outer" then mergeAll env d ms (Osm.mergeTags env.sort t (d.tags (.area m.refId))) else mergeAll env d ms t
      | .relation => mergeAll env d ms t
      | .missing => t
    else mergeAll env d ms t

noncomputable def merged (env : Env K) (d : Data K) (a : UInt64) : List Tag :=
  match d.relations.find a with
  | none => []
  | some (own, ms) => if IsKind env.getId own .multipolygon ∧ own.length < 2 then mergeAll env d ms own else own

/-- How often a relation marks an element. -/
noncomputable def marksOf (env : Env K) (d : Data K) (own : List Tag) (ms : List Member) (k : Key) : Nat :=
  if IsKind env.getId own .building then ms.countP fun m => decide (lookup d m = some k) else 0

noncomputable def cnt (env : Env K) (d : Data K) (done : UInt64 → Bool) (k : Key) : Nat :=
  (d.relations.map fun r => if done r.1 = true then marksOf env d r.2.1 r.2.2 k else 0).sum

/-- What has been done to relations which are not finished. -/
structure Pend (K : Type) where
  E : UInt64 → List (Ref K)
  T : UInt64 → List Tag
  X : Key → Nat

noncomputable def base (env : Env K) (d : Data K) (done : UInt64 → Bool) (P : Pend K) : Key → List Tag
  | .relation j => if done j = true then merged env d j else P.T j
  | k => d.tags k

noncomputable def abs (env : Env K) (d : Data K) (done : UInt64 → Bool) (P : Pend K) : State K :=
  ⟨fun j => if done j = true then want env d j else P.E j, fun k => base env d done P k ++ List.replicate (cnt env d done k + P.X k) marker⟩

def upd (P : Pend K) (a : UInt64) (e : List (Ref K)) (t : List Tag) (x : Key → Nat) : Pend K :=
  ⟨fun j => if j = a then e else P.E j, fun j => if j = a then t else P.T j, fun k => P.X k + x k⟩

def ins (done : UInt64 → Bool) (a : UInt64) : UInt64 → Bool := fun j => if j = a then true else done j

omit [Field K] in
theorem sum_ins (done : UInt64 → Bool) (a : UInt64) (ha : done a = false) (f : UInt64 × (List Tag × List Member) → Nat) (l : Assoc UInt64 (List Tag × List Member))
    (hn : (l.map (·.1)).Nodup) : (l.map fun r => if ins done a r.1 = true then f r else 0).sum =
      (l.map fun r => if done r.1 = true then f r else 0).sum + (match l.find a with | none => 0 | some v => f (a, v)) := by
  induction l with
  | nil => simp [Assoc.find]
  | cons p l ih =>
    obtain ⟨k, v⟩ := p
    rw [List.map_cons, List.nodup_cons] at hn
    rw [List.map_cons, List.map_cons, List.sum_cons, List.sum_cons, ih hn.2, Assoc.find]
    by_cases hk : k = a
    · subst hk
      have : Assoc.find l k = none := by
        cases hf : Assoc.find l k with
        | none => rfl
        | some v => exact absurd (List.mem_map_of_mem (f := (·.1)) (find_mem hf)) hn.1
      simp only [ins, this, ha, if_true]
      simp
      omega
    · have : ¬ a = k := fun h => hk h.symm
      simp only [ins, if_neg hk]
      omega

theorem cnt_ins (env : Env K) (d : Data K) (hn : (d.relations.map (·.1)).Nodup) (done : UInt64 → Bool) (a : UInt64) (ha : done a = false) {own : List Tag} {ms : List Member}
    (hf : d.relations.find a = some (own, ms)) (k : Key) : cnt env d (ins done a) k = cnt env d done k + marksOf env d own ms k := by
  unfold cnt
  rw [sum_ins done a ha _ _ hn, hf]

theorem finish (env : Env K) (d : Data K) (hn : (d.relations.map (·.1)).Nodup) (done : UInt64 → Bool) (P : Pend K) (a : UInt64) (ha : done a = false) {own : List Tag}
    {ms : List Member} (hf : d.relations.find a = some (own, ms)) :
    abs env d done (upd P a (want env d a) (merged env d a) (marksOf env d own ms)) = abs env d (ins done a) P := by
  have h1 : ∀ j, (if done j = true then want env d j else if j = a then want env d a else P.E j) = if ins done a j = true then want env d j else P.E j := by
    intro j
    by_cases hj : j = a
    · subst hj; simp [ins, ha]
    · simp [ins, hj]
  have h2 : ∀ k, base env d done (upd P a (want env d a) (merged env d a) (marksOf env d own ms)) k = base env d (ins done a) P k := by
    intro k
    cases k with
    | relation j =>
      by_cases hj : j = a
      · subst hj; simp [ins, ha, base, upd]
      · simp [ins, hj, base, upd]
    | node j => rfl
    | way j => rfl
    | area j => rfl
  unfold abs
  congr 1
  · funext j; exact h1 j
  · funext k
    rw [h2, cnt_ins env d hn done a ha hf]
    congr 2
    simp only [upd]; omega

/-! ## Invariants -/

structure Inv (env : Env K) (d : Data K) (done : UInt64 → Bool) (P : Pend K) : Prop where
  parts : ∀ b own ms, done b = true → d.relations.find b = some (own, ms) → IsKind env.getId own .building → ∀ m ∈ ms, ∀ r, lookup d m = some (.relation r) → done r = true
  pend : ∀ r, P.X (.relation r) ≠ 0 → done r = true
  named : ∀ k, P.X k ≠ 0 → PartOfBuilding env.getId d k

def Reach (getId : String → UInt32) (d : Data K) (a j : UInt64) : Prop := j = a ∨ Relation.TransGen (Follows getId d) a j

def Fresh (env : Env K) (d : Data K) (done : UInt64 → Bool) (P : Pend K) (a : UInt64) : Prop :=
  ∀ j, Reach env.getId d a j → done j = false → P.E j = [] ∧ P.T j = d.tags (.relation j)

def Steady (env : Env K) (d : Data K) (a : UInt64) : Prop :=
  ∀ own ms, d.relations.find a = some (own, ms) → IsKind env.getId own .plain ∨ (want env d a).length = ms.length

/-- What a call of `resolve` does. -/
def Good (env : Env K) (d : Data K) (a : UInt64) (n : Nat) : Prop :=
  ∀ done P, Inv env d done P → Fresh env d done P a → (done a = true → Steady env d a) →
    ∃ done', resolve env d n (abs env d done P) a = .ok (abs env d done' P) ∧ (∀ j, done j = true → done' j = true) ∧ done' a = true ∧
      (∀ j, done' j = true → done j = true ∨ Reach env.getId d a j) ∧ Inv env d done' P

theorem cnt_zero (env : Env K) (d : Data K) (hn : (d.relations.map (·.1)).Nodup) {done : UInt64 → Bool} {k : Key}
    (h : ∀ b own ms, done b = true → d.relations.find b = some (own, ms) → IsKind env.getId own .building → ∀ m ∈ ms, lookup d m ≠ some k) : cnt env d done k = 0 := by
  unfold cnt
  rw [List.sum_eq_zero_iff]
  intro x hx
  obtain ⟨r, hr, rfl⟩ := List.mem_map.1 hx
  split
  · rename_i hd
    unfold marksOf
    split
    · rename_i hb
      rw [List.countP_eq_zero]
      intro m hm
      simpa using h r.1 r.2.1 r.2.2 hd (find_of_mem hn hr) hb m hm
    · rfl
  · rfl

/-- A relation which is not finished has no marks. -/
theorem no_marks {env : Env K} {d : Data K} (hn : (d.relations.map (·.1)).Nodup) {done : UInt64 → Bool} {P : Pend K} (hI : Inv env d done P) {a : UInt64} (ha : done a = false) :
    cnt env d done (.relation a) + P.X (.relation a) = 0 := by
  have h1 : cnt env d done (.relation a) = 0 := cnt_zero env d hn fun b own ms hb hf hk m hm hl => by
    have := hI.parts b own ms hb hf hk m hm a hl
    rw [ha] at this; cases this
  have h2 : P.X (.relation a) = 0 := by
    by_contra h
    have := hI.pend a h
    rw [ha] at this; cases this
  omega

/-! ## The pieces of the state -/

@[simp] theorem abs_elements (env : Env K) (d : Data K) (done : UInt64 → Bool) (P : Pend K) (j : UInt64) :
    (abs env d done P).elements j = if done j = true then want env d j else P.E j := rfl

theorem push_abs {env : Env K} {d : Data K} {done : UInt64 → Bool} {P : Pend K} {a : UInt64} (ha : done a = false) (e : List (Ref K)) (t : List Tag) (x : Key → Nat) (r : Ref K) :
    push (abs env d done (upd P a e t x)) a r = abs env d done (upd P a (e ++ [r]) t x) := by
  unfold push abs
  congr 1
  funext j
  by_cases hj : j = a
  · subst hj; simp [ha, upd]
  · simp [hj, upd]

theorem append_abs {env : Env K} {d : Data K} {done : UInt64 → Bool} {P : Pend K} {a : UInt64} (ha : done a = false) (e : List (Ref K)) (t : List Tag) (x : Key → Nat) (l : List (Ref K)) :
    append (abs env d done (upd P a e t x)) a l = abs env d done (upd P a (e ++ l) t x) := by
  unfold append abs
  congr 1
  funext j
  by_cases hj : j = a
  · subst hj; simp [ha, upd]
  · simp [hj, upd]

theorem mark_abs {env : Env K} {d : Data K} {done : UInt64 → Bool} {P : Pend K} {a : UInt64} (e : List (Ref K)) (t : List Tag) (x : Key → Nat) (k : Key) :
    mark (abs env d done (upd P a e t x)) k = abs env d done (upd P a e t fun j => x j + if j = k then 1 else 0) := by
  unfold mark abs
  congr 1
  funext j
  by_cases hj : j = k
  · subst hj
    simp only [if_true, upd, List.append_assoc]
    congr 1
    rw [← List.replicate_succ']
    congr 1
  · simp [hj, upd, base]

/-! ## Folding -/

theorem upd_zero (P : Pend K) (a : UInt64) : upd P a (P.E a) (P.T a) (fun _ => 0) = P := by
  unfold upd
  congr 1
  · funext j; split
    · rename_i h; rw [h]
    · rfl
  · funext j; split
    · rename_i h; rw [h]
    · rfl

theorem fresh_child {env : Env K} {d : Data K} (hac : Acyclic env.getId d) {done done' : UInt64 → Bool} {P : Pend K} {a b : UInt64} (hF : Fresh env d done P a)
    (hle : ∀ j, done j = true → done' j = true) (hab : Follows env.getId d a b) (e : List (Ref K)) (t : List Tag) (x : Key → Nat) : Fresh env d done' (upd P a e t x) b := by
  intro j hj hd
  have hr : Relation.TransGen (Follows env.getId d) a j := by
    rcases hj with rfl | hj
    · exact .single hab
    · exact .head hab hj
  have hne : j ≠ a := fun h => hac a (by rw [h] at hr; exact hr)
  have hd0 : done j = false := by
    by_contra h
    have := hle j (by simpa using h)
    rw [hd] at this; cases this
  have := hF j (.inr hr) hd0
  simpa [upd, hne] using this

theorem kind_cases (getId : String → UInt32) (own : List Tag) : IsKind getId own .multipolygon ∨ IsKind getId own .building ∨ IsKind getId own .plain := by
  unfold IsKind; grind

/-- Every relation which is reached from others can be resolved again. -/
def AllSteady (env : Env K) (d : Data K) : Prop := ∀ a b, Follows env.getId d a b → Steady env d b

theorem upd_inv {env : Env K} {d : Data K} {done : UInt64 → Bool} {P : Pend K} (hI : Inv env d done P) (a : UInt64) (e : List (Ref K)) (t : List Tag) {x : Key → Nat}
    (h1 : ∀ r, x (.relation r) ≠ 0 → done r = true) (h2 : ∀ k, x k ≠ 0 → PartOfBuilding env.getId d k) : Inv env d done (upd P a e t x) := by
  refine ⟨hI.parts, fun r hr => ?_, fun k hk => ?_⟩
  · by_cases h : P.X (.relation r) = 0
    · exact h1 r (by simp only [upd, h] at hr; simpa using hr)
    · exact hI.pend r h
  · by_cases h : P.X k = 0
    · exact h2 k (by simp only [upd, h] at hk; simpa using hk)
    · exact hI.named k h

theorem inv_upd {env : Env K} {d : Data K} {done : UInt64 → Bool} {P : Pend K} {a : UInt64} {e : List (Ref K)} {t : List Tag} {x : Key → Nat} (hI : Inv env d done (upd P a e t x)) :
    Inv env d done P := by
  refine ⟨hI.parts, fun r hr => hI.pend r ?_, fun k hk => hI.named k ?_⟩
  · simp only [upd]; omega
  · simp only [upd]; omega

section Fold
variable {env : Env K} {d : Data K} (hn : (d.relations.map (·.1)).Nodup) (hac : Acyclic env.getId d) (hst : AllSteady env d) {a : UInt64} {own : List Tag} {ms : List Member}
  (hf : d.relations.find a = some (own, ms))
include hac hst hf

/-- What the loops keep: `a` is not finished, and only relations below it are finished. -/
def Grown (env : Env K) (d : Data K) (a : UInt64) (done done' : UInt64 → Bool) : Prop :=
  (∀ j, done j = true → done' j = true) ∧ ∀ j, done' j = true → done j = true ∨ Relation.TransGen (Follows env.getId d) a j

omit hst hf in
theorem Grown.not_done {done done' : UInt64 → Bool} (h : Grown env d a done done') (ha : done a = false) : done' a = false := by
  by_contra hc
  rcases h.2 a (by simpa using hc) with h1 | h1
  · rw [ha] at h1; cases h1
  · exact hac a h1

omit hac hst hf in
theorem Grown.trans {d1 d2 d3 : UInt64 → Bool} (h : Grown env d a d1 d2) (h' : Grown env d a d2 d3) : Grown env d a d1 d3 :=
  ⟨fun j hj => h'.1 j (h.1 j hj), fun j hj => (h'.2 j hj).elim (h.2 j) .inr⟩

omit hac hst hf in
theorem Grown.refl (done : UInt64 → Bool) : Grown env d a done done := ⟨fun _ h => h, fun _ h => .inl h⟩

omit hf in
/-- A call for a relation below `a` while `a` is resolved. -/
theorem child {n : Nat} {b : UInt64} (hab : Follows env.getId d a b) (hg : Good env d b n) {done0 done : UInt64 → Bool} {P : Pend K} (hF : Fresh env d done0 P a)
    (hgr : Grown env d a done0 done) {e : List (Ref K)} {t : List Tag} {x : Key → Nat} (hI : Inv env d done (upd P a e t x)) :
    ∃ done', resolve env d n (abs env d done (upd P a e t x)) b = .ok (abs env d done' (upd P a e t x)) ∧ Grown env d a done0 done' ∧ done' b = true ∧
      (∀ j, done j = true → done' j = true) ∧ Inv env d done' (upd P a e t x) := by
  obtain ⟨done', h1, h2, h3, h4, h5⟩ := hg done _ hI (fresh_child hac hF hgr.1 hab e t x) fun _ => hst a b hab
  refine ⟨done', h1, hgr.trans ⟨h2, fun j hj => ?_⟩, h3, h2, h5⟩
  rcases h4 j hj with h | rfl | h
  · exact .inl h
  · exact .inr (.single hab)
  · exact .inr (.head hab h)

theorem fold_building {n : Nat} (hk : IsKind env.getId own .building) (hg : ∀ m ∈ ms, Follows env.getId d a m.refId → Good env d m.refId n) {done0 : UInt64 → Bool} {P : Pend K}
    (hF : Fresh env d done0 P a) (ha : done0 a = false) (t : List Tag) (post : List Member) : ∀ (pre : List Member), ms = pre ++ post → ∀ done, Grown env d a done0 done →
      Inv env d done (upd P a (wantB d pre) t fun k => pre.countP fun m => decide (lookup d m = some k)) →
      (∀ m ∈ pre, ∀ r, lookup d m = some (.relation r) → done r = true) →
      ∃ done', foldMembers (visitBuilding d (resolve env d n) a) post (abs env d done (upd P a (wantB d pre) t fun k => pre.countP fun m => decide (lookup d m = some k))) =
        .ok (abs env d done' (upd P a (wantB d ms) t fun k => ms.countP fun m => decide (lookup d m = some k))) ∧ Grown env d a done0 done' ∧
        Inv env d done' (upd P a (wantB d ms) t fun k => ms.countP fun m => decide (lookup d m = some k)) ∧
        (∀ m ∈ ms, ∀ r, lookup d m = some (.relation r) → done' r = true) := by
  induction post with
  | nil =>
    intro pre hp done hgr hI hd
    rw [List.append_nil] at hp
    subst hp
    exact ⟨done, rfl, hgr, hI, hd⟩
  | cons m post ih =>
    intro pre hp done hgr hI hd
    have hmem : m ∈ ms := by rw [hp]; simp
    have step : ∀ (done' : UInt64 → Bool) (k : Key), lookup d m = some k → done' a = false →
        addToRelation a m.role (abs env d done' (upd P a (wantB d pre) t fun k => pre.countP fun m => decide (lookup d m = some k))) k =
          abs env d done' (upd P a (wantB d (pre ++ [m])) t fun k => (pre ++ [m]).countP fun m => decide (lookup d m = some k)) := by
      intro done' k hl ha'
      have hx : (fun j => (pre.countP fun m => decide (lookup d m = some j)) + if j = k then 1 else 0) = fun j => (pre ++ [m]).countP fun m => decide (lookup d m = some j) := by
        funext j
        rw [List.countP_append, List.countP_singleton, hl]
        by_cases hj : j = k
        · simp [hj]
        · have : ¬ k = j := fun h => hj h.symm
          rw [if_neg hj, if_neg (by simpa using this)]
      unfold addToRelation
      by_cases ho : m.role = "outline"
      · rw [if_pos ho, mark_abs, hx]
        congr 2
        simp [wantB, List.filterMap_append, ho]
      · rw [if_neg ho, push_abs ha', mark_abs, hx]
        congr 2
        simp [wantB, List.filterMap_append, ho, hl]
    have hpart : ∀ k, lookup d m = some k → PartOfBuilding env.getId d k := fun k hl => ⟨a, own, ms, hf, hk, m, hmem, (lookup_iff d m k).1 hl⟩
    have hinv : ∀ done' : UInt64 → Bool, (∀ r, lookup d m = some (.relation r) → done' r = true) → (∀ m ∈ pre, ∀ r, lookup d m = some (.relation r) → done' r = true) → Inv env d done' P →
        Inv env d done' (upd P a (wantB d (pre ++ [m])) t fun k => (pre ++ [m]).countP fun m => decide (lookup d m = some k)) := by
      intro done' h1 h2 hI
      have hz : ∀ k, (pre ++ [m]).countP (fun m => decide (lookup d m = some k)) ≠ 0 → ∃ m' ∈ pre ++ [m], lookup d m' = some k := by
        intro k hk
        have := Nat.pos_of_ne_zero hk
        rw [List.countP_pos_iff] at this
        obtain ⟨m', h, h'⟩ := this
        exact ⟨m', h, by simpa using h'⟩
      refine upd_inv hI _ _ _ (fun r hr => ?_) fun k hk => ?_
      · obtain ⟨m', hm', hl⟩ := hz _ hr
        rcases List.mem_append.1 hm' with h | h
        · exact h2 m' h r hl
        · rw [List.mem_singleton] at h; subst h; exact h1 r hl
      · obtain ⟨m', hm', hl⟩ := hz _ hk
        exact ⟨a, own, ms, hf, ‹_›, m', by rw [hp]; simp at hm' ⊢; tauto, (lookup_iff d m' k).1 hl⟩
    have hp' : ms = (pre ++ [m]) ++ post := by rw [hp]; simp
    have hdone : ∀ done' : UInt64 → Bool, (∀ r, lookup d m = some (.relation r) → done' r = true) → (∀ m ∈ pre, ∀ r, lookup d m = some (.relation r) → done' r = true) →
        ∀ m' ∈ pre ++ [m], ∀ r, lookup d m' = some (.relation r) → done' r = true := by
      intro done' h1 h2 m' hm' r hl
      rcases List.mem_append.1 hm' with h | h
      · exact h2 m' h r hl
      · rw [List.mem_singleton] at h; subst h; exact h1 r hl
    rw [foldMembers]
    cases hl : lookup d m with
    | none =>
      have hsame : abs env d done (upd P a (wantB d pre) t fun k => pre.countP fun m => decide (lookup d m = some k)) =
          abs env d done (upd P a (wantB d (pre ++ [m])) t fun k => (pre ++ [m]).countP fun m => decide (lookup d m = some k)) := by
        congr 2
        · simp [wantB, List.filterMap_append, hl]
        · funext k; simp [List.countP_append, hl]
      have hnone : ∀ r, lookup d m = some (.relation r) → done r = true := fun r h => by rw [hl] at h; cases h
      have h0 : visitBuilding d (resolve env d n) a (abs env d done (upd P a (wantB d pre) t fun k => pre.countP fun m => decide (lookup d m = some k))) m =
          .ok (abs env d done (upd P a (wantB d (pre ++ [m])) t fun k => (pre ++ [m]).countP fun m => decide (lookup d m = some k))) := by
        rw [visitBuilding, hl, ← hsame]
      rw [h0]
      exact ih (pre ++ [m]) hp' done hgr (hinv done hnone hd (inv_upd hI)) (hdone done hnone hd)
    | some k =>
      by_cases hr : ∃ r, k = .relation r
      · obtain ⟨r, rfl⟩ := hr
        obtain ⟨t1, t2, t3, t4⟩ := lookup_relation hl
        have hab : Follows env.getId d a r := ⟨own, ms, m, hf, hmem, t3, t4, .inr (.inl ⟨hk, t1, t2⟩)⟩
        obtain ⟨done', c1, c2, c3, c4, c5⟩ := child hac hst hab (t3 ▸ hg m hmem (t3 ▸ hab)) hF hgr hI
        have hr' : ∀ r', lookup d m = some (.relation r') → done' r' = true := fun r' h => by rw [hl] at h; cases h; exact c3
        have hd' : ∀ m ∈ pre, ∀ r, lookup d m = some (.relation r) → done' r = true := fun m hm r h => c4 r (hd m hm r h)
        have h0 : visitBuilding d (resolve env d n) a (abs env d done (upd P a (wantB d pre) t fun k => pre.countP fun m => decide (lookup d m = some k))) m =
            .ok (abs env d done' (upd P a (wantB d (pre ++ [m])) t fun k => (pre ++ [m]).countP fun m => decide (lookup d m = some k))) := by
          rw [visitBuilding, hl]
          simp only [c1, Outcome.bind]
          rw [step done' _ hl (c2.not_done hac ha)]
        rw [h0]
        exact ih (pre ++ [m]) hp' done' c2 (hinv done' hr' hd' (inv_upd c5)) (hdone done' hr' hd')
      · have hnone : ∀ r, lookup d m = some (.relation r) → done r = true := fun r h => absurd ⟨r, Option.some.inj (hl.symm.trans h)⟩ hr
        have h0 : visitBuilding d (resolve env d n) a (abs env d done (upd P a (wantB d pre) t fun k => pre.countP fun m => decide (lookup d m = some k))) m =
            .ok (abs env d done (upd P a (wantB d (pre ++ [m])) t fun k => (pre ++ [m]).countP fun m => decide (lookup d m = some k))) := by
          rw [visitBuilding, hl]
          cases k with
          | relation r => exact absurd ⟨r, rfl⟩ hr
          | node i => simp only; rw [step done _ hl (hgr.not_done hac ha)]
          | way i => simp only; rw [step done _ hl (hgr.not_done hac ha)]
          | area i => simp only; rw [step done _ hl (hgr.not_done hac ha)]
        rw [h0]
        exact ih (pre ++ [m]) hp' done hgr (hinv done hnone hd (inv_upd hI)) (hdone done hnone hd)

theorem fold_plain {n : Nat} (hk : IsKind env.getId own .plain) (hg : ∀ m ∈ ms, Follows env.getId d a m.refId → Good env d m.refId n) {done0 : UInt64 → Bool} {P : Pend K}
    (hF : Fresh env d done0 P a) (ha : done0 a = false) (t : List Tag) (post : List Member) : (∀ m ∈ post, m ∈ ms) → ∀ acc done, Grown env d a done0 done →
      Inv env d done (upd P a acc t fun _ => 0) →
      ∃ done', foldMembers (visitPlain env d (resolve env d n) a) post (abs env d done (upd P a acc t fun _ => 0)) =
        .ok (abs env d done' (upd P a (post.foldl (stepP env d a) acc) t fun _ => 0)) ∧ Grown env d a done0 done' ∧
        Inv env d done' (upd P a (post.foldl (stepP env d a) acc) t fun _ => 0) := by
  induction post with
  | nil => intro _ acc done hgr hI; exact ⟨done, rfl, hgr, hI⟩
  | cons m post ih =>
    intro hsub acc done hgr hI
    have hmem := hsub m (by simp)
    have hna := hgr.not_done hac ha
    rw [foldMembers, List.foldl_cons]
    have key : ∃ done', visitPlain env d (resolve env d n) a (abs env d done (upd P a acc t fun _ => 0)) m = .ok (abs env d done' (upd P a (stepP env d a acc m) t fun _ => 0)) ∧
        Grown env d a done0 done' ∧ Inv env d done' (upd P a (stepP env d a acc m) t fun _ => 0) := by
      have hreinv : ∀ {done' : UInt64 → Bool} {e e' : List (Ref K)}, Inv env d done' (upd P a e t fun _ => 0) → Inv env d done' (upd P a e' t fun _ => 0) :=
        fun h => upd_inv (inv_upd h) _ _ _ (by simp) (by simp)
      have hel : (abs env d done (upd P a acc t fun _ => 0)).elements a = acc := by simp [hna, upd]
      unfold visitPlain stepP
      cases hl : lookup d m with
      | none => exact ⟨done, rfl, hgr, hI⟩
      | some k =>
        by_cases hr : ∃ r, k = .relation r
        · obtain ⟨r, rfl⟩ := hr
          simp only [hel, back, Key.id]
          by_cases hc : (alreadyProcessed env acc r || hasReferenceToParent d a r) = true
          · simp only [hc, if_true]
            exact ⟨done, rfl, hgr, hI⟩
          · simp only [hc, if_false, Bool.false_eq_true]
            obtain ⟨t1, t2, t3, t4⟩ := lookup_relation hl
            have hnb : ¬ NamesBack d a (.relation r) := by
              rw [← back_iff]
              intro h; apply hc; rw [h]; simp
            have hab : Follows env.getId d a r := ⟨own, ms, m, hf, hmem, t3, t4, .inr (.inr ⟨hk, t1, t2, hnb⟩)⟩
            obtain ⟨done', c1, c2, c3, c4, c5⟩ := child hac hst hab (t3 ▸ hg m hmem (t3 ▸ hab)) hF hgr hI
            refine ⟨done', ?_, c2, hreinv c5⟩
            simp only [c1, Outcome.bind]
            rw [push_abs (c2.not_done hac ha)]
        · have hb : back d a k = false := by cases k <;> simp_all [back]
          simp only [hb, Bool.or_false]
          by_cases hc : alreadyProcessed env acc k.id = true
          · refine ⟨done, ?_, hgr, ?_⟩
            · cases k with
              | relation r => exact absurd ⟨r, rfl⟩ hr
              | node i => simp only [hel, hc, if_true]
              | way i => simp only [hel, hc, if_true]
              | area i => simp only [hel, hc, if_true]
            · rw [if_pos hc]; exact hI
          · refine ⟨done, ?_, hgr, ?_⟩
            · cases k with
              | relation r => exact absurd ⟨r, rfl⟩ hr
              | node i => simp only [hel, hc, if_false, Bool.false_eq_true]; rw [push_abs hna]
              | way i => simp only [hel, hc, if_false, Bool.false_eq_true]; rw [push_abs hna]
              | area i => simp only [hel, hc, if_false, Bool.false_eq_true]; rw [push_abs hna]
            · rw [if_neg hc]; exact hreinv hI
    obtain ⟨done', k1, k2, k3⟩ := key
    rw [k1]
    exact ih (fun m hm => hsub m (by simp [hm])) _ done' k2 k3

omit hac hst hf in
theorem found_cases (d : Data K) (i : UInt64) :
    (∃ w, d.ctx.wayMap.find i = some w ∧ found d i = .way w.coordinates) ∨
    (d.ctx.wayMap.find i = none ∧ ∃ x, d.ctx.areaMap.find i = some x ∧ found d i = .area x.coordinates) ∨
    (d.ctx.wayMap.find i = none ∧ d.ctx.areaMap.find i = none ∧ (d.relations.find i).isSome ∧ found d i = .relation) ∨
    (d.ctx.wayMap.find i = none ∧ d.ctx.areaMap.find i = none ∧ d.relations.find i = none ∧ found d i = .missing) := by
  unfold found
  cases h1 : d.ctx.wayMap.find i with
  | some w => exact .inl ⟨w, rfl, rfl⟩
  | none =>
    cases h2 : d.ctx.areaMap.find i with
    | some x => exact .inr (.inl ⟨rfl, x, rfl, rfl⟩)
    | none =>
      cases h3 : d.relations.find i with
      | some r => exact .inr (.inr (.inl ⟨rfl, rfl, rfl, rfl⟩))
      | none => exact .inr (.inr (.inr ⟨rfl, rfl, rfl, rfl⟩))

include hn in
theorem fold_rings {n : Nat} (hk : IsKind env.getId own .multipolygon) (noTags : Bool) (hun : noTags = true → ∀ i, OuterArea d ms i → ¬ PartOfBuilding env.getId d (.area i))
    (hg : ∀ m ∈ ms, Follows env.getId d a m.refId → Good env d m.refId n) {done0 : UInt64 → Bool} {P : Pend K}
    (hF : Fresh env d done0 P a) (ha : done0 a = false) (e : List (Ref K)) (post : List Member) : (∀ m ∈ post, m ∈ ms) → ∀ t done, Grown env d a done0 done →
      Inv env d done (upd P a e t fun _ => 0) →
      ∃ done', visitRings env d (resolve env d n) a noTags post (abs env d done (upd P a e t fun _ => 0)) =
        .ok (abs env d done' (upd P a e (if noTags = true then mergeAll env d post t else t) fun _ => 0)) ∧ Grown env d a done0 done' ∧
        Inv env d done' (upd P a e (if noTags = true then mergeAll env d post t else t) fun _ => 0) := by
  induction post with
  | nil => intro _ t done hgr hI; exact ⟨done, by simp [visitRings, mergeAll], hgr, by simpa [mergeAll] using hI⟩
  | cons m post ih =>
    intro hsub t done hgr hI
    have ih := ih fun m hm => hsub m (by simp [hm])
    have hmem := hsub m (by simp)
    have hna := hgr.not_done hac ha
    unfold visitRings mergeAll
    by_cases hw : m.type = "w"
    · simp only [hw, if_true]
      rcases found_cases d m.refId with ⟨w, hw1, hf1⟩ | ⟨hw1, x, ha1, hf1⟩ | ⟨hw1, ha1, hr1, hf1⟩ | ⟨hw1, ha1, hr1, hf1⟩
      · simp only [hf1]; exact ih t done hgr hI
      · simp only [hf1]
        by_cases ho : m.role = "outer"
        · cases hnt : noTags with
          | false =>
            rw [hnt] at ih
            simp only [ho, Bool.false_eq_true, and_false, if_false]
            simpa using ih t done hgr hI
          | true =>
            have hpart := hun hnt m.refId ⟨m, hmem, hw, ho, rfl, hw1, by rw [ha1]; rfl⟩
            have htags : (abs env d done (upd P a e t fun _ => 0)).tags (.area m.refId) = d.tags (.area m.refId) := by
              have h1 : cnt env d done (.area m.refId) = 0 := cnt_zero env d hn fun b own' ms' _ hb hkb m' hm' hl =>
                hpart ⟨b, own', ms', hb, hkb, m', hm', (lookup_iff d m' _).1 hl⟩
              have h2 : (upd P a e t fun _ => 0).X (.area m.refId) = 0 := by
                by_contra h; exact hpart (hI.named _ h)
              simp [abs, base, h1, h2]
            have hrel : (abs env d done (upd P a e t fun _ => 0)).tags (.relation a) = t := by
              simp only [abs, no_marks hn hI hna, base, hna]
              simp [upd]
            have hset : setTags (abs env d done (upd P a e t fun _ => 0)) (.relation a) (Osm.mergeTags env.sort t (d.tags (.area m.refId))) =
                abs env d done (upd P a e (Osm.mergeTags env.sort t (d.tags (.area m.refId))) fun _ => 0) := by
              unfold setTags
              conv_rhs => unfold abs
              conv_lhs => unfold abs
              congr 1
              funext k
              by_cases hka : k = .relation a
              · subst hka
                have := no_marks hn hI hna
                simp only [upd] at this
                simp only [if_true, upd, this, base, hna]
                simp
              · rw [if_neg hka]
                congr 1
                cases k with
                | relation j =>
                  have : j ≠ a := fun h => hka (by rw [h])
                  simp [base, upd, this]
                | node j => rfl
                | way j => rfl
                | area j => rfl
            rw [hnt] at ih
            simp only [ho, and_self, if_true, htags, hrel, hset]
            exact ih _ done hgr (upd_inv (inv_upd hI) _ _ _ (by simp) (by simp))
        · simp only [ho, false_and, if_false]
          exact ih t done hgr hI
      · have hab : Follows env.getId d a m.refId := ⟨own, ms, m, hf, hmem, rfl, hr1, .inl ⟨hk, hw, hw1, ha1⟩⟩
        obtain ⟨done', c1, c2, c3, c4, c5⟩ := child hac hst hab (hg m hmem hab) hF hgr hI
        simp only [hf1, c1, Outcome.bind]
        exact ih t done' c2 c5
      · simp only [hf1, ite_self]
        exact ⟨done, rfl, hgr, hI⟩
    · simp only [hw, if_false]
      exact ih t done hgr hI

end Fold

/-! ## A second visit of plain relations -/

theorem stepP_mono (env : Env K) (d : Data K) (a : UInt64) (acc : List (Ref K)) (m : Member) : acc <+: stepP env d a acc m := by
  unfold stepP
  split
  · exact List.prefix_rfl
  · split
    · exact List.prefix_rfl
    · exact List.prefix_append _ _

theorem foldl_mono (env : Env K) (d : Data K) (a : UInt64) (ms : List Member) : ∀ acc, acc <+: ms.foldl (stepP env d a) acc := by
  induction ms with
  | nil => intro acc; exact List.prefix_rfl
  | cons m ms ih => intro acc; exact (stepP_mono env d a acc m).trans (ih _)

theorem covers (env : Env K) (d : Data K) (a : UInt64) (ms : List Member) : ∀ acc, ∀ m ∈ ms, ∀ k, lookup d m = some k →
    (alreadyProcessed env (ms.foldl (stepP env d a) acc) k.id || back d a k) = true := by
  induction ms with
  | nil => intro _ m hm; cases hm
  | cons x ms ih =>
    intro acc m hm k hl
    rw [List.foldl_cons]
    rcases List.mem_cons.1 hm with rfl | hm
    · have hmono := foldl_mono env d a ms (stepP env d a acc m)
      have lift : alreadyProcessed env (stepP env d a acc m) k.id = true → alreadyProcessed env (ms.foldl (stepP env d a) (stepP env d a acc m)) k.id = true := by
        unfold alreadyProcessed
        rw [List.any_eq_true, List.any_eq_true]
        rintro ⟨e, he, h⟩
        exact ⟨e, hmono.subset he, h⟩
      by_cases hb : back d a k = true
      · rw [hb]; simp
      · rw [lift, Bool.true_or]
        have hb : back d a k = false := by simpa using hb
        unfold stepP
        simp only [hl, hb, Bool.or_false]
        split
        · assumption
        · simp [alreadyProcessed, Ref.id]
    · exact ih _ m hm k hl

theorem fold_again (env : Env K) (d : Data K) (f : State K → UInt64 → Outcome (State K)) (a : UInt64) (s : State K) (ms : List Member)
    (h : ∀ m ∈ ms, ∀ k, lookup d m = some k → (alreadyProcessed env (s.elements a) k.id || back d a k) = true) : foldMembers (visitPlain env d f a) ms s = .ok s := by
  induction ms with
  | nil => rfl
  | cons m ms ih =>
    have h0 : visitPlain env d f a s m = .ok s := by
      unfold visitPlain
      cases hl : lookup d m with
      | none => rfl
      | some k =>
        have := h m (by simp) k hl
        cases k with
        | relation r => simp only [back, Key.id] at this; simp only [this, if_true]
        | node i => simp only [back, Bool.or_false] at this; simp only [this, if_true]
        | way i => simp only [back, Bool.or_false] at this; simp only [this, if_true]
        | area i => simp only [back, Bool.or_false] at this; simp only [this, if_true]
    rw [foldMembers, h0]
    exact ih fun m hm => h m (by simp [hm])

/-! ## A call -/

theorem wf {env : Env K} {d : Data K} (h : Acyclic env.getId d) : WellFounded (flip (Follows env.getId d)) := by
  have := Props.OsmRelationsProof.finite_ids
  have irr : Std.Irrefl (Relation.TransGen (flip (Follows env.getId d))) := ⟨fun a hc => h a (Relation.transGen_swap.1 hc)⟩
  have tr : IsTrans UInt64 (Relation.TransGen (flip (Follows env.getId d))) := ⟨fun _ _ _ => Relation.TransGen.trans⟩
  exact Subrelation.wf (fun h => Relation.TransGen.single h) (Finite.wellFounded_of_trans_of_irrefl (Relation.TransGen (flip (Follows env.getId d))))

theorem bound {Q : UInt64 → Nat → Prop} {R : UInt64 → Prop} (ms : List Member) (ih : ∀ b, R b → ∃ N, ∀ n ≥ N, Q b n) : ∃ N, ∀ m ∈ ms, R m.refId → ∀ n ≥ N, Q m.refId n := by
  induction ms with
  | nil => exact ⟨0, by simp⟩
  | cons m ms ihm =>
    obtain ⟨N, hN⟩ := ihm
    by_cases hf : R m.refId
    · obtain ⟨M, hM⟩ := ih _ hf
      refine ⟨max N M, fun m' hm' hf' n hn => ?_⟩
      rcases List.mem_cons.1 hm' with rfl | hm'
      · exact hM n (by omega)
      · exact hN m' hm' hf' n (by omega)
    · refine ⟨N, fun m' hm' hf' n hn => ?_⟩
      rcases List.mem_cons.1 hm' with rfl | hm'
      · exact absurd hf' hf
      · exact hN m' hm' hf' n hn

theorem rings_finds (d : Data K) (ms : List Member) : List.Forall₂ (Finds d) (ms.filter fun m => decide (m.type = "w")) (rings d ms) := by
  unfold rings
  rw [List.forall₂_map_right_iff, List.forall₂_same]
  intro m _
  exact ⟨rfl, rfl, found_cases d m.refId⟩

theorem finds_unique {d : Data K} {l : List Member} {r r' : List (Multipolygon.Member (Geo K))} (h : List.Forall₂ (Finds d) l r) (h' : List.Forall₂ (Finds d) l r') : r = r' := by
  induction h generalizing r' with
  | nil => cases h'; rfl
  | @cons m x l xs hx _ ih =>
    cases h' with
    | cons hy hys =>
      rename_i y ys
      rw [ih hys]
      congr 1
      obtain ⟨x1, x2, x3⟩ := x
      obtain ⟨y1, y2, y3⟩ := y
      obtain ⟨hx1, hx2, hx⟩ := hx
      obtain ⟨hy1, hy2, hy⟩ := hy
      simp only at *
      subst hx1 hx2 hy1 hy2
      congr 1
      rcases hx with ⟨w, a1, a2⟩ | ⟨a1, w, a2, a3⟩ | ⟨a1, a2, a3, a4⟩ | ⟨a1, a2, a3, a4⟩ <;>
        rcases hy with ⟨w', b1, b2⟩ | ⟨b1, w', b2, b3⟩ | ⟨b1, b2, b3, b4⟩ | ⟨b1, b2, b3, b4⟩ <;> simp_all

theorem areas_iff (env : Env K) (d : Data K) (ms : List Member) (areas : List (Multipolygon.NewArea (Geo K))) :
    Areas env d ms areas ↔ Multipolygon.process (Osm.geoEq env.eps) Osm.isClockwise env.contains (rings d ms) = .ok areas := by
  constructor
  · rintro ⟨rs, h1, h2⟩
    rw [finds_unique (rings_finds d ms) h1]; exact h2
  · intro h; exact ⟨_, rings_finds d ms, h⟩

/-- What is known of a file. -/
structure Fine (env : Env K) (d : Data K) : Prop where
  nodup : (d.relations.map (·.1)).Nodup
  acyclic : Acyclic env.getId d
  tags : ∀ a own ms, d.relations.find a = some (own, ms) → (own.map Tag.key).Pairwise (· < ·) ∧ ∀ t ∈ own, t.key < 0xFFFFFFFF
  strings : env.getId "type" ≠ 0xFFFFFFFF ∧ env.getId "multipolygon" ≠ 0xFFFFFFFF ∧ env.getId "building" ≠ 0xFFFFFFFF
  assembled : ∀ a own ms, d.relations.find a = some (own, ms) → IsKind env.getId own .multipolygon → ∃ areas, Areas env d ms areas
  steady : AllSteady env d
  unmixed : ∀ a own ms, d.relations.find a = some (own, ms) → IsKind env.getId own .multipolygon → own.length < 2 → ∀ i, OuterArea d ms i → ¬ PartOfBuilding env.getId d (.area i)

theorem inv_ins {env : Env K} {d : Data K} {done : UInt64 → Bool} {P : Pend K} {a : UInt64} {own : List Tag} {ms : List Member} (hf : d.relations.find a = some (own, ms))
    (hI : Inv env d done P) (h : IsKind env.getId own .building → ∀ m ∈ ms, ∀ r, lookup d m = some (.relation r) → done r = true) : Inv env d (ins done a) P := by
  have hle : ∀ j, done j = true → ins done a j = true := by
    intro j hj; unfold ins; split
    · rfl
    · exact hj
  refine ⟨fun b own' ms' hb hf' hk m hm r hl => ?_, fun r hr => hle r (hI.pend r hr), hI.named⟩
  by_cases hba : b = a
  · subst hba
    rw [hf] at hf'; cases hf'
    exact hle r (h hk m hm r hl)
  · exact hle r (hI.parts b own' ms' (by simpa [ins, hba] using hb) hf' hk m hm r hl)

theorem good (env : Env K) (d : Data K) (hd : Fine env d) (a : UInt64) (hs : (d.relations.find a).isSome) : ∃ N, ∀ n ≥ N, Good env d a n := by
  induction a using (wf hd.acyclic).induction with
  | _ a ih =>
    obtain ⟨⟨own, ms⟩, hf⟩ := Option.isSome_iff_exists.1 hs
    obtain ⟨N, hN⟩ := bound (R := Follows env.getId d a) ms fun b hb => ih b hb (by obtain ⟨_, _, _, _, _, rfl, h, _⟩ := hb; exact h)
    refine ⟨N + 1, fun n hn => ?_⟩
    obtain ⟨k, rfl⟩ : ∃ k, n = k + 1 := ⟨n - 1, by omega⟩
    have hg : ∀ m ∈ ms, Follows env.getId d a m.refId → Good env d m.refId k := fun m hm hr => hN m hm hr k (by omega)
    intro done P hI hF hSt
    obtain ⟨ht1, ht2⟩ := hd.tags a own ms hf
    obtain ⟨s1, s2, s3⟩ := hd.strings
    have hM : ∀ n, hasTag (env.getId "type") (env.getId "multipolygon") (own ++ List.replicate n marker) = true ↔ IsKind env.getId own .multipolygon :=
      fun n => hasTag_iff ht1 ht2 s1 s2 n
    have hB : ∀ n, hasTag (env.getId "type") (env.getId "building") (own ++ List.replicate n marker) = true ↔ ⟨env.getId "type", env.getId "building"⟩ ∈ own :=
      fun n => hasTag_iff ht1 ht2 s1 s3 n
    rcases Bool.eq_false_or_eq_true (done a) with ha | ha
    · -- it was resolved before
      refine ⟨done, ?_, fun _ h => h, ha, fun _ h => .inl h, hI⟩
      rw [resolve]
      simp only [hf]
      have hel : (abs env d done P).elements a = want env d a := by simp [ha]
      rw [hel]
      split
      · rfl
      · rename_i hlen
        have hpl := (hSt ha own ms hf).resolve_right hlen
        have hpl' := hpl
        simp only [IsKind] at hpl'
        have htg : (abs env d done P).tags (.relation a) = own ++ List.replicate (cnt env d done (.relation a) + P.X (.relation a)) marker := by
          simp only [abs, base, ha, if_true, merged, hf]
          rw [if_neg (fun h => hpl'.1 h.1)]
        rw [htg, if_neg (by rw [hM]; exact hpl'.1), if_neg (by rw [hB]; exact hpl'.2)]
        apply fold_again
        intro m hm k hl
        rw [hel]
        have hw : want env d a = wantP env d a ms := by
          simp only [want, hf, IsKind, hpl'.1, hpl'.2, if_false, and_false]
        rw [hw]
        exact covers env d a ms [] m hm k hl
    · obtain ⟨hE, hT⟩ := hF a (.inl rfl) ha
      have hT : P.T a = own := by rw [hT]; simp [Data.tags, hf]
      have hP : P = upd P a [] own fun _ => 0 := by
        conv_lhs => rw [← upd_zero P a, hE, hT]
      have hfin := finish env d hd.nodup
      have hgrow : ∀ done', Grown env d a done done' → (∀ j, done j = true → ins done' a j = true) ∧ ins done' a a = true ∧
          ∀ j, ins done' a j = true → done j = true ∨ Reach env.getId d a j := by
        intro done' hgr
        refine ⟨fun j hj => ?_, by simp [ins], fun j hj => ?_⟩
        · by_cases h : j = a
          · simp [ins, h]
          · simpa [ins, h] using hgr.1 j hj
        · by_cases h : j = a
          · exact .inr (.inl h)
          · rcases hgr.2 j (by simpa [ins, h] using hj) with h' | h'
            · exact .inl h'
            · exact .inr (.inr h')
      have htg : (abs env d done P).tags (.relation a) = own ++ List.replicate 0 marker := by
        simp only [abs, base, ha, no_marks hd.nodup hI ha]
        simp [hT]
      have hel : (abs env d done P).elements a = [] := by simp [ha, hE]
      rw [resolve]
      simp only [hf, hel, htg]
      by_cases hM' : IsKind env.getId own .multipolygon
      · -- multipolygon
        have hB' : ¬ IsKind env.getId own .building := fun h => h.1 hM'
        obtain ⟨areas, har⟩ := hd.assembled a own ms hf hM'
        rw [areas_iff] at har
        have hwant : want env d a = areas.map .new := by simp only [want, hf, hM', if_true, wantM, har]
        have hmerged : merged env d a = if decide (own.length < 2) = true then mergeAll env d ms own else own := by
          simp only [merged, hf, hM', true_and, decide_eq_true_eq]
        have hmarks : marksOf env d own ms = fun _ => 0 := by funext k; simp [marksOf, hB']
        have hbuild : ∀ done : UInt64 → Bool, IsKind env.getId own .building → ∀ m ∈ ms, ∀ r, lookup d m = some (.relation r) → done r = true := fun _ h => absurd h hB'
        by_cases hms : ms = []
        · subst hms
          have h0 : areas = [] := by
            have : Multipolygon.process (Osm.geoEq env.eps) Osm.isClockwise env.contains (rings d []) = .ok [] := rfl
            rw [this] at har; cases har; rfl
          refine ⟨ins done a, ?_, (hgrow done (.refl _)).1, (hgrow done (.refl _)).2.1, (hgrow done (.refl _)).2.2, inv_ins hf hI (hbuild done)⟩
          simp only [List.length_nil, if_true]
          rw [← hfin done P a ha hf, hwant, hmerged, hmarks, h0]
          simp only [mergeAll, ite_self, List.map_nil]
          rw [← hP]
        · rw [if_neg (by simpa [eq_comm] using hms), if_pos ((hM 0).2 hM')]
          unfold visitMultipolygon
          have hlen : decide (((abs env d done P).tags (.relation a)).length < 2) = decide (own.length < 2) := by rw [htg]; simp
          rw [hlen]
          obtain ⟨done', r1, r2, r3⟩ := fold_rings hd.nodup hd.acyclic hd.steady hf hM' (decide (own.length < 2))
            (fun h => hd.unmixed a own ms hf hM' (by simpa using h)) hg hF ha [] ms (fun _ h => h) own done (.refl _) (hP ▸ hI)
          rw [← hP] at r1
          rw [r1]
          simp only [Outcome.bind, har]
          rw [append_abs (r2.not_done hd.acyclic ha), List.nil_append, ← hwant, ← hmerged, ← hmarks, hfin done' P a (r2.not_done hd.acyclic ha) hf]
          exact ⟨ins done' a, rfl, (hgrow done' r2).1, (hgrow done' r2).2.1, (hgrow done' r2).2.2, inv_ins hf (inv_upd r3) (hbuild done')⟩
      · have hmerged : merged env d a = own := by simp only [merged, hf, hM', false_and, if_false]
        rw [if_neg (c := hasTag (env.getId "type") (env.getId "multipolygon") _ = true) (by rw [hM]; exact hM')]
        by_cases hB' : IsKind env.getId own .building
        · -- building
          have hwant : want env d a = wantB d ms := by simp only [want, hf, hM', hB', if_false, if_true]
          have hmarks : marksOf env d own ms = fun k => ms.countP fun m => decide (lookup d m = some k) := by funext k; simp only [marksOf, hB', if_true]
          by_cases hms : ms = []
          · subst hms
            refine ⟨ins done a, ?_, (hgrow done (.refl _)).1, (hgrow done (.refl _)).2.1, (hgrow done (.refl _)).2.2, inv_ins hf hI (fun _ m hm => by cases hm)⟩
            simp only [List.length_nil, if_true]
            rw [← hfin done P a ha hf, hwant, hmerged, hmarks]
            have : (fun k => ([] : List Member).countP fun m => decide (lookup d m = some k)) = fun _ => 0 := by funext k; rfl
            rw [this]
            exact congrArg (fun x => Outcome.ok (abs env d done x)) hP
          · rw [if_neg (by simpa [eq_comm] using hms), if_pos ((hB 0).2 hB'.2)]
            obtain ⟨done', r1, r2, r3, r4⟩ := fold_building hd.acyclic hd.steady hf hB' hg hF ha own ms [] rfl done (.refl _) (by
              have : (fun k => ([] : List Member).countP fun m => decide (lookup d m = some k)) = fun _ => 0 := by funext k; rfl
              rw [this]; exact hP ▸ hI) (fun m hm => by cases hm)
            have h0 : (upd P a (wantB d []) own fun k => ([] : List Member).countP fun m => decide (lookup d m = some k)) = P := hP.symm
            rw [h0] at r1
            rw [r1, ← hwant, ← hmarks, ← hmerged]
            have hm2 : marksOf env d (merged env d a) ms = marksOf env d own ms := by rw [hmerged]
            rw [hm2, hfin done' P a (r2.not_done hd.acyclic ha) hf]
            exact ⟨ins done' a, rfl, (hgrow done' r2).1, (hgrow done' r2).2.1, (hgrow done' r2).2.2, inv_ins hf (inv_upd r3) (fun _ => r4)⟩
        · -- plain
          have hpl : IsKind env.getId own .plain := ((kind_cases env.getId own).resolve_left hM').resolve_left hB'
          have hwant : want env d a = ms.foldl (stepP env d a) [] := by simp only [want, hf, hM', hB', if_false, wantP]
          have hmarks : marksOf env d own ms = fun _ => 0 := by funext k; simp [marksOf, hB']
          have hbuild : ∀ done : UInt64 → Bool, IsKind env.getId own .building → ∀ m ∈ ms, ∀ r, lookup d m = some (.relation r) → done r = true := fun _ h => absurd h hB'
          by_cases hms : ms = []
          · subst hms
            refine ⟨ins done a, ?_, (hgrow done (.refl _)).1, (hgrow done (.refl _)).2.1, (hgrow done (.refl _)).2.2, inv_ins hf hI (hbuild done)⟩
            simp only [List.length_nil, if_true]
            rw [← hfin done P a ha hf, hwant, hmerged, hmarks]
            exact congrArg (fun x => Outcome.ok (abs env d done x)) hP
          · rw [if_neg (by simpa [eq_comm] using hms), if_neg (by rw [hB]; exact hpl.2)]
            obtain ⟨done', r1, r2, r3⟩ := fold_plain hd.acyclic hd.steady hf hpl hg hF ha own ms (fun _ h => h) [] done (.refl _) (hP ▸ hI)
            rw [← hP] at r1
            rw [r1, ← hwant, ← hmarks, ← hmerged]
            have hm2 : marksOf env d (merged env d a) ms = marksOf env d own ms := by rw [hmerged]
            rw [hm2, hfin done' P a (r2.not_done hd.acyclic ha) hf]
            exact ⟨ins done' a, rfl, (hgrow done' r2).1, (hgrow done' r2).2.1, (hgrow done' r2).2.2, inv_ins hf (inv_upd r3) (hbuild done')⟩

end Verif.ResolveProof
