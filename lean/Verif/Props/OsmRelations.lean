import Mathlib.Order.WellFounded
import Mathlib.Data.Fintype.EquivFin
import Mathlib.Data.Finite.Prod
import Mathlib.Order.Preorder.Finite
import Mathlib.Data.List.Forall2
import Verif.Props.OsmRelationsSpec

/-! # C35 and C61: resolution of relations -/
namespace Verif.Props
open Verif.OsmRelations Verif.OsmRelationsSpec

namespace OsmRelationsProof

theorem finite_ids : Finite UInt64 := Finite.of_injective UInt64.toFin (fun a b h => by
  have : a.toNat = b.toNat := congrArg Fin.val h
  exact UInt64.toNat_inj.1 this)

theorem wf (d : Data) (h : Acyclic d) : WellFounded (flip (Follows d)) := by
  have := finite_ids
  have irr : Std.Irrefl (Relation.TransGen (flip (Follows d))) := ⟨fun a hc => h a (Relation.transGen_swap.1 hc)⟩
  have tr : IsTrans UInt64 (Relation.TransGen (flip (Follows d))) := ⟨fun _ _ _ => Relation.TransGen.trans⟩
  exact Subrelation.wf (fun h => Relation.TransGen.single h) (Finite.wellFounded_of_trans_of_irrefl (Relation.TransGen (flip (Follows d))))

theorem lookup_relation {d : Data} {m : Member} {r : UInt64} (h : lookup d m = some (.relation r)) :
    m.type = .other ∧ m.refId = r ∧ (d.relation r).isSome := by
  unfold lookup at h
  split at h
  · split at h <;> simp at h
  · split at h
    · simp at h
    · split at h <;> simp at h
  · rename_i ht
    split at h
    · rename_i hs
      simp at h
      subst h
      exact ⟨ht, rfl, hs⟩
    · simp at h

theorem present_iff (d : Data) (m : Member) (r : Ref) : lookup d m = some r ↔ Present d m r := by
  unfold lookup Present
  cases m.type with
  | n =>
    by_cases hn : d.node m.refId = true
    · simp only [hn, if_true, Option.some.injEq, true_and]; exact eq_comm
    · simp [hn]
  | w =>
    by_cases ha : d.area m.refId = true
    · simp only [ha, if_true, Option.some.injEq, true_and, Bool.true_eq_false, false_and, or_false]; exact eq_comm
    · by_cases hw : d.way m.refId = true
      · simp only [Bool.not_eq_true] at ha
        simp only [ha, hw, if_true, Option.some.injEq, true_and, Bool.false_eq_true, false_and, false_or, if_false]; exact eq_comm
      · simp [ha, hw]
  | other =>
    by_cases hn : (d.relation m.refId).isSome = true
    · simp only [hn, if_true, Option.some.injEq, true_and]; exact eq_comm
    · simp only [hn, if_false, false_and, reduceCtorEq]

theorem noRef {d : Data} {a r : UInt64} (h : hasReferenceToParent d a r = false) :
    ∀ k ms, d.relation r = some (k, ms) → ∀ m ∈ ms, m.refId ≠ a := by
  intro k ms hr m hm hc
  rw [hasReferenceToParent, hr] at h
  simp only [List.any_eq_false, beq_iff_eq] at h
  exact h m hm hc

theorem hasRef_iff (d : Data) (a r : UInt64) : hasReferenceToParent d a r = true ↔ NamesBack d a (.relation r) := by
  unfold hasReferenceToParent NamesBack
  constructor
  · intro h
    cases hr : d.relation r with
    | none => rw [hr] at h; simp at h
    | some x =>
      obtain ⟨k, ms⟩ := x
      rw [hr] at h
      simp only [List.any_eq_true, beq_iff_eq] at h
      obtain ⟨m, hm, he⟩ := h
      exact ⟨r, k, ms, m, rfl, hr, hm, he⟩
  · rintro ⟨i, k, ms, m, he, hr, hm, hid⟩
    cases he
    rw [hr]
    simp only [List.any_eq_true, beq_iff_eq]
    exact ⟨m, hm, hid⟩

/-! ## Termination -/

theorem foldMembers_total (f : State → Member → Option State) (ms : List Member) (h : ∀ m ∈ ms, ∀ s, ∃ s', f s m = some s') (s : State) :
    ∃ s', foldMembers f ms s = some s' := by
  induction ms generalizing s with
  | nil => exact ⟨s, rfl⟩
  | cons m ms ih =>
    obtain ⟨s', hs'⟩ := h m (by simp) s
    obtain ⟨s'', h''⟩ := ih (fun m hm => h m (by simp [hm])) s'
    exact ⟨s'', by simp [foldMembers, hs', h'']⟩

theorem bound (d : Data) (a : UInt64) (ms : List Member)
    (ih : ∀ b, Follows d a b → ∃ N, ∀ n ≥ N, ∀ s, ∃ s', resolve d n s b = some s') :
    ∃ N, ∀ m ∈ ms, Follows d a m.refId → ∀ n ≥ N, ∀ s, ∃ s', resolve d n s m.refId = some s' := by
  induction ms with
  | nil => exact ⟨0, by simp⟩
  | cons m ms ihm =>
    obtain ⟨N, hN⟩ := ihm
    by_cases hf : Follows d a m.refId
    · obtain ⟨M, hM⟩ := ih _ hf
      refine ⟨max N M, ?_⟩
      intro m' hm' hf' n hn s
      rcases List.mem_cons.1 hm' with rfl | hm'
      · exact hM n (by omega) s
      · exact hN m' hm' hf' n (by omega) s
    · refine ⟨N, ?_⟩
      intro m' hm' hf' n hn s
      rcases List.mem_cons.1 hm' with rfl | hm'
      · exact absurd hf' hf
      · exact hN m' hm' hf' n hn s

theorem visitMultipolygon_total (d : Data) (f : State → UInt64 → Option State) (ms : List Member)
    (h : ∀ m ∈ ms, m.type = .w → (d.relation m.refId).isSome → ∀ s, ∃ s', f s m.refId = some s') (s : State) :
    ∃ r, visitMultipolygon d f ms s = some r := by
  induction ms generalizing s with
  | nil => exact ⟨_, rfl⟩
  | cons m ms ih =>
    unfold visitMultipolygon
    split
    · rename_i hc
      split
      · exact ⟨_, rfl⟩
      · rename_i hn
        have hs : (d.relation m.refId).isSome := by cases hx : d.relation m.refId <;> simp_all
        obtain ⟨s', hs'⟩ := h m (by simp) hc.1 hs s
        rw [hs']
        exact ih (fun m hm => h m (by simp [hm])) s'
    · exact ih (fun m hm => h m (by simp [hm])) s

theorem resolve_total (d : Data) (hd : Acyclic d) (a : UInt64) : ∃ N, ∀ n ≥ N, ∀ s, ∃ s', resolve d n s a = some s' := by
  induction a using (wf d hd).induction with
  | _ a ih =>
    cases hr : d.relation a with
    | none =>
      refine ⟨1, ?_⟩
      intro n hn s
      obtain ⟨k, rfl⟩ : ∃ k, n = k + 1 := ⟨n - 1, by omega⟩
      exact ⟨s, by simp [resolve, hr]⟩
    | some x =>
      obtain ⟨kind, ms⟩ := x
      obtain ⟨N, hN⟩ := bound d a ms ih
      refine ⟨N + 1, ?_⟩
      intro n hn s
      obtain ⟨k, rfl⟩ : ∃ k, n = k + 1 := ⟨n - 1, by omega⟩
      simp only [resolve, hr]
      split
      · exact ⟨s, rfl⟩
      · cases kind with
        | multipolygon =>
          obtain ⟨r, h⟩ := visitMultipolygon_total d (resolve d k) ms
            (fun m hm ht hs s => hN m hm ⟨.multipolygon, ms, m, hr, hm, rfl, hs, ht⟩ k (by omega) s) s
          simp only [h, Option.map_some]
          exact ⟨_, rfl⟩
        | building =>
          refine foldMembers_total _ ms ?_ s
          intro m hm s
          unfold visitBuilding
          split
          · exact ⟨s, rfl⟩
          · rename_i r hl
            obtain ⟨ht, hid, hs⟩ := lookup_relation hl
            subst hid
            obtain ⟨s', hs'⟩ := hN m hm ⟨.building, ms, m, hr, hm, rfl, hs, ht⟩ k (by omega) s
            simp only [hs', Option.map_some]
            exact ⟨_, rfl⟩
          · exact ⟨_, rfl⟩
        | plain =>
          refine foldMembers_total _ ms ?_ s
          intro m hm s
          unfold visitPlain
          split
          · exact ⟨s, rfl⟩
          · rename_i r hl
            obtain ⟨ht, hid, hs⟩ := lookup_relation hl
            subst hid
            split
            · exact ⟨s, rfl⟩
            · rename_i hc
              simp only [Bool.or_eq_true, not_or, Bool.not_eq_true] at hc
              obtain ⟨s', hs'⟩ := hN m hm ⟨.plain, ms, m, hr, hm, rfl, hs, ht, noRef hc.2⟩ k (by omega) s
              simp only [hs', Option.map_some]
              exact ⟨_, rfl⟩
          · split <;> exact ⟨_, rfl⟩

/-! ## Results -/

/-- Proof device: the elements of `a` after one more member. -/
def wantStep (d : Data) (a : UInt64) (acc : List Ref) (m : Member) : List Ref :=
  match lookup d m with
  | none => acc
  | some (.relation r) => if acc.any (fun e => e.id == r) || hasReferenceToParent d a r then acc else acc ++ [.relation r]
  | some e => if acc.any (fun x => x.id == e.id) then acc else acc ++ [e]

def want (d : Data) (a : UInt64) : List Ref :=
  match d.relation a with
  | none => []
  | some (_, ms) => ms.foldl (wantStep d a) []

/-- Whether the step keeps a present member out. -/
theorem wantStep_cases (d : Data) (a : UInt64) (acc : List Ref) (m : Member) :
    (lookup d m = none ∧ wantStep d a acc m = acc) ∨
    ∃ e, lookup d m = some e ∧
      ((∃ x ∈ acc, x.id = e.id) ∧ wantStep d a acc m = acc ∨
       NamesBack d a e ∧ wantStep d a acc m = acc ∨
       ((∀ x ∈ acc, x.id ≠ e.id) ∧ ¬ NamesBack d a e ∧ wantStep d a acc m = acc ++ [e])) := by
  have any : ∀ i : UInt64, acc.any (fun x => x.id == i) = true ↔ ∃ x ∈ acc, x.id = i := by intro i; simp
  cases hl : lookup d m with
  | none => left; exact ⟨rfl, by simp [wantStep, hl]⟩
  | some e =>
    right
    refine ⟨e, rfl, ?_⟩
    have other : (∀ r, e ≠ .relation r) → wantStep d a acc m = (if acc.any (fun x => x.id == e.id) then acc else acc ++ [e]) := by
      intro hne
      unfold wantStep
      rw [hl]
      cases e <;> simp_all
    by_cases hx : ∃ x ∈ acc, x.id = e.id
    · left
      refine ⟨hx, ?_⟩
      have hx' := (any e.id).2 hx
      cases e with
      | relation r =>
        change acc.any (fun e => e.id == r) = true at hx'
        unfold wantStep; rw [hl]; simp only [hx', Bool.true_or, if_true]
      | _ => rw [other (by intro r; simp), if_pos hx']
    · right
      have hx' : acc.any (fun x => x.id == e.id) = false := by rw [← Bool.not_eq_true, any]; exact hx
      have hx'' : ∀ x ∈ acc, x.id ≠ e.id := fun x h hc => hx ⟨x, h, hc⟩
      cases e with
      | relation r =>
        by_cases hb : hasReferenceToParent d a r = true
        · left
          exact ⟨(hasRef_iff d a r).1 hb, by unfold wantStep; rw [hl]; simp only [hb, Bool.or_true, if_true]⟩
        · right
          refine ⟨hx'', fun h => hb ((hasRef_iff d a r).2 h), ?_⟩
          change acc.any (fun e => e.id == r) = false at hx'
          unfold wantStep; rw [hl]
          simp only [Bool.not_eq_true] at hb
          simp [hx', hb]
      | _ =>
        right
        refine ⟨hx'', ?_, by rw [other (by intro r; simp), if_neg (by rw [hx']; simp)]⟩
        rintro ⟨i, k, ms, m', he, -⟩
        cases he

theorem wantStep_prefix (d : Data) (a : UInt64) (acc : List Ref) (m : Member) : acc <+: wantStep d a acc m := by
  rcases wantStep_cases d a acc m with ⟨-, h⟩ | ⟨e, -, ⟨-, h⟩ | ⟨-, h⟩ | ⟨-, -, h⟩⟩ <;> rw [h]
  all_goals first | exact List.prefix_rfl | exact List.prefix_append _ _

theorem foldl_prefix (d : Data) (a : UInt64) (ms : List Member) (acc : List Ref) : acc <+: ms.foldl (wantStep d a) acc := by
  induction ms generalizing acc with
  | nil => exact List.prefix_rfl
  | cons m ms ih => exact (wantStep_prefix d a acc m).trans (ih _)

theorem wantStep_settled (d : Data) (a : UInt64) (acc acc' : List Ref) (m : Member) (h : wantStep d a acc m <+: acc') :
    wantStep d a acc' m = acc' := by
  rcases wantStep_cases d a acc' m with ⟨-, h'⟩ | ⟨e, hl, ⟨-, h'⟩ | ⟨-, h'⟩ | ⟨hno, hnb, h'⟩⟩
  · exact h'
  · exact h'
  · exact h'
  · exfalso
    have sub : ∀ x ∈ wantStep d a acc m, x ∈ acc' := fun x hx => h.subset hx
    rcases wantStep_cases d a acc m with ⟨hl', -⟩ | ⟨e', hl', ⟨⟨x, hx, hid⟩, h2⟩ | ⟨hb, -⟩ | ⟨-, -, h2⟩⟩
    · rw [hl] at hl'; simp at hl'
    · rw [hl] at hl'; cases hl'
      exact hno x (sub x (by rw [h2]; exact hx)) hid
    · rw [hl] at hl'; cases hl'
      exact hnb hb
    · rw [hl] at hl'; cases hl'
      exact hno e (sub e (by rw [h2]; simp)) rfl

theorem foldl_again (d : Data) (a : UInt64) (ms : List Member) (acc acc' : List Ref) (h : ms.foldl (wantStep d a) acc <+: acc') :
    ms.foldl (wantStep d a) acc' = acc' := by
  induction ms generalizing acc with
  | nil => rfl
  | cons m ms ih =>
    simp only [List.foldl_cons] at h ⊢
    rw [wantStep_settled d a acc acc' m ((foldl_prefix d a ms _).trans h)]
    exact ih _ h

theorem foldMembers_inv (f : State → Member → Option State) (I : State → Prop) (ms : List Member)
    (step : ∀ m ∈ ms, ∀ s s', I s → f s m = some s' → I s') (s s' : State) (hs : I s) (h : foldMembers f ms s = some s') : I s' := by
  induction ms generalizing s with
  | nil => simp [foldMembers] at h; subst h; exact hs
  | cons m ms ih =>
    simp only [foldMembers, Option.bind_eq_some_iff] at h
    obtain ⟨t, ht, h⟩ := h
    exact ih (fun m hm => step m (by simp [hm])) t (step m (by simp) s t hs ht) h

theorem push_ne (s : State) (id j : UInt64) (r : Ref) (h : j ≠ id) : push s id r j = s j := by simp [push, h]

/-- Resolving a relation changes only relations which can be reached from it. -/
theorem resolve_frame (d : Data) (n : Nat) (s s' : State) (a : UInt64) (h : resolve d n s a = some s') (j : UInt64) (hj : j ≠ a)
    (hr : ¬ Relation.TransGen (Follows d) a j) : s' j = s j := by
  induction n generalizing s s' a with
  | zero => simp [resolve] at h
  | succ n ih =>
    unfold resolve at h
    cases hrel : d.relation a with
    | none => rw [hrel] at h; simp at h; rw [h]
    | some x =>
      obtain ⟨kind, ms⟩ := x
      rw [hrel] at h
      simp only at h
      have child : ∀ b, Follows d a b → ∀ t t', resolve d n t b = some t' → t' j = t j := by
        intro b hb t t' ht
        refine ih t t' b ht ?_ fun hc => hr (Relation.TransGen.head hb hc)
        rintro rfl
        exact hr (.single hb)
      split at h
      · cases h; rfl
      · cases kind with
        | multipolygon =>
          simp only [Option.map_eq_some_iff] at h
          obtain ⟨r, hv, rfl⟩ := h
          have key : ∀ (l : List Member) (t : State) (r : State × Bool), (∀ m ∈ l, m ∈ ms) →
              visitMultipolygon d (resolve d n) l t = some r → r.1 j = t j := by
            intro l
            induction l with
            | nil => intro t r _ h; simp [visitMultipolygon] at h; rw [← h]
            | cons m l ihl =>
              intro t r hsub h
              unfold visitMultipolygon at h
              split at h
              · rename_i hc
                split at h
                · simp at h; rw [← h]
                · rename_i hn
                  have hs : (d.relation m.refId).isSome := by cases hx : d.relation m.refId <;> simp_all
                  simp only [Option.bind_eq_some_iff] at h
                  obtain ⟨t', ht', h⟩ := h
                  rw [ihl t' r (fun m hm => hsub m (by simp [hm])) h]
                  exact child m.refId ⟨.multipolygon, ms, m, hrel, hsub m (by simp), rfl, hs, hc.1⟩ t t' ht'
              · exact ihl t r (fun m hm => hsub m (by simp [hm])) h
          have := key ms s r (fun _ h => h) hv
          split
          · simp [hj, this]
          · exact this
        | building =>
          refine foldMembers_inv _ (fun t => t j = s j) ms ?_ s s' rfl h
          intro m hm t t' hI hf
          unfold visitBuilding at hf
          split at hf
          · cases hf; exact hI
          · rename_i r hl
            obtain ⟨ht, hid, hs⟩ := lookup_relation hl
            simp only [Option.map_eq_some_iff] at hf
            obtain ⟨u, hu, rfl⟩ := hf
            have := child r ⟨.building, ms, m, hrel, hm, hid, hs, ht⟩ t u hu
            split
            · rw [this, hI]
            · rw [push_ne _ _ _ _ hj, this, hI]
          · cases hf
            split
            · exact hI
            · rw [push_ne _ _ _ _ hj, hI]
        | plain =>
          refine foldMembers_inv _ (fun t => t j = s j) ms ?_ s s' rfl h
          intro m hm t t' hI hf
          unfold visitPlain at hf
          split at hf
          · cases hf; exact hI
          · rename_i r hl
            obtain ⟨ht, hid, hs⟩ := lookup_relation hl
            split at hf
            · cases hf; exact hI
            · rename_i hc
              simp only [Bool.or_eq_true, not_or, Bool.not_eq_true] at hc
              simp only [Option.map_eq_some_iff] at hf
              obtain ⟨u, hu, rfl⟩ := hf
              have := child r ⟨.plain, ms, m, hrel, hm, hid, hs, ht, noRef hc.2⟩ t u hu
              rw [push_ne _ _ _ _ hj, this, hI]
          · split at hf
            · cases hf; exact hI
            · cases hf
              rw [push_ne _ _ _ _ hj, hI]

theorem resolve_want (d : Data) (hd : Acyclic d) (hp : AllPlain d) (n : Nat) (s s' : State) (a : UInt64) (h : resolve d n s a = some s')
    (hs : ∀ j, Relation.ReflTransGen (Follows d) a j → s j = [] ∨ s j = want d j) :
    ((d.relation a).isSome → s' a = want d a) ∧ ∀ j, s' j = s j ∨ s' j = want d j := by
  induction n generalizing s s' a with
  | zero => simp [resolve] at h
  | succ n ih =>
    unfold resolve at h
    cases hrel : d.relation a with
    | none => rw [hrel] at h; simp at h; subst h; exact ⟨by simp, fun j => .inl rfl⟩
    | some x =>
      obtain ⟨kind, ms⟩ := x
      have hk := hp a kind ms hrel
      subst hk
      rw [hrel] at h
      simp only at h
      have hwant : want d a = ms.foldl (wantStep d a) [] := by simp [want, hrel]
      have hsa := hs a .refl
      split at h
      · rename_i hlen
        cases h
        refine ⟨fun _ => ?_, fun j => .inl rfl⟩
        rcases hsa with h0 | h0
        · rw [h0] at hlen
          have : ms = [] := List.length_eq_zero_iff.1 (by simpa using hlen.symm)
          rw [h0, hwant, this]; rfl
        · exact h0
      · have key : ∀ (l : List Member) (t : State), (∀ m ∈ l, m ∈ ms) → (∀ j, j ≠ a → t j = s j ∨ t j = want d j) →
            ∀ t', foldMembers (visitPlain d (resolve d n) a) l t = some t' →
            t' a = l.foldl (wantStep d a) (t a) ∧ ∀ j, j ≠ a → t' j = s j ∨ t' j = want d j := by
          intro l
          induction l with
          | nil => intro t _ hI t' hf; simp [foldMembers] at hf; subst hf; exact ⟨rfl, hI⟩
          | cons m l ihl =>
            intro t hsub hI t' hf
            simp only [foldMembers, Option.bind_eq_some_iff] at hf
            obtain ⟨u, hu, hf⟩ := hf
            have one : u a = wantStep d a (t a) m ∧ ∀ j, j ≠ a → u j = s j ∨ u j = want d j := by
              unfold visitPlain at hu
              unfold wantStep
              cases hl : lookup d m with
              | none => rw [hl] at hu; cases hu; exact ⟨rfl, hI⟩
              | some e =>
                rw [hl] at hu
                cases e with
                | relation r =>
                  simp only at hu ⊢
                  obtain ⟨ht, hid, hsr⟩ := lookup_relation hl
                  split at hu
                  · rename_i hc
                    cases hu
                    rw [alreadyProcessed] at hc
                    exact ⟨by rw [if_pos hc], hI⟩
                  · rename_i hc
                    have hc' := hc
                    rw [alreadyProcessed] at hc'
                    simp only [Bool.or_eq_true, not_or, Bool.not_eq_true] at hc
                    have hfol : Follows d a r := ⟨.plain, ms, m, hrel, hsub m (by simp), hid, hsr, ht, noRef hc.2⟩
                    simp only [Option.map_eq_some_iff] at hu
                    obtain ⟨v, hv, rfl⟩ := hu
                    have hne : a ≠ r := by rintro rfl; exact hd _ (.single hfol)
                    have hfr := resolve_frame d n t v r hv a hne fun hc => hd a (Relation.TransGen.head hfol hc)
                    have hreach : ∀ j, Relation.ReflTransGen (Follows d) r j → t j = [] ∨ t j = want d j := by
                      intro j hj
                      have hja : j ≠ a := by
                        rintro rfl
                        exact hd _ (Relation.TransGen.head' hfol hj)
                      rcases hI j hja with h0 | h0
                      · rw [h0]; exact hs j (Relation.ReflTransGen.head hfol hj)
                      · exact .inr h0
                    obtain ⟨-, h2⟩ := ih t v r hv hreach
                    refine ⟨?_, ?_⟩
                    · rw [if_neg hc']
                      simp [push, hfr]
                    · intro j hj
                      rw [push_ne _ _ _ _ hj]
                      rcases h2 j with h0 | h0
                      · rw [h0]; exact hI j hj
                      · exact .inr h0
                | _ i =>
                  simp only at hu ⊢
                  by_cases hc : alreadyProcessed t a i = true
                  · rw [Ref.id, if_pos hc] at hu
                    cases hu
                    rw [alreadyProcessed] at hc
                    exact ⟨by rw [Ref.id, if_pos hc], hI⟩
                  · rw [Ref.id, if_neg hc] at hu
                    rw [alreadyProcessed] at hc
                    cases hu
                    refine ⟨by rw [Ref.id, if_neg hc]; simp [push], ?_⟩
                    intro j hj
                    rw [push_ne _ _ _ _ hj]
                    exact hI j hj
            obtain ⟨h1, h2⟩ := ihl u (fun m hm => hsub m (by simp [hm])) one.2 t' hf
            exact ⟨by rw [h1, one.1]; rfl, h2⟩
        obtain ⟨h1, h2⟩ := key ms s (fun _ h => h) (fun j _ => .inl rfl) s' h
        have hfin : s' a = want d a := by
          rw [h1]
          rcases hsa with h0 | h0
          · rw [h0, hwant]
          · rw [h0, hwant]
            exact foldl_again d a ms [] _ List.prefix_rfl
        refine ⟨fun _ => hfin, ?_⟩
        intro j
        by_cases hj : j = a
        · subst hj; exact .inr hfin
        · exact h2 j hj

theorem complete_want (d : Data) (hd : Acyclic d) (hp : AllPlain d) (n : Nat) (keys : List UInt64) (s s' : State)
    (h : complete d n keys s = some s') (hs : ∀ j, s j = [] ∨ s j = want d j) :
    (∀ j, s' j = s j ∨ s' j = want d j) ∧ ∀ a ∈ keys, (d.relation a).isSome → s' a = want d a := by
  induction keys generalizing s with
  | nil => simp [complete] at h; subst h; exact ⟨fun j => .inl rfl, by simp⟩
  | cons k keys ih =>
    simp only [complete, Option.bind_eq_some_iff] at h
    obtain ⟨t, ht, h⟩ := h
    obtain ⟨h1, h2⟩ := resolve_want d hd hp n s t k ht fun j _ => hs j
    obtain ⟨h3, h4⟩ := ih t h fun j => by rcases h2 j with h0 | h0 <;> rw [h0]; exacts [hs j, .inr rfl]
    refine ⟨?_, ?_⟩
    · intro j
      rcases h3 j with h0 | h0
      · rw [h0]; exact h2 j
      · exact .inr h0
    · intro a ha hsome
      rcases List.mem_cons.1 ha with rfl | ha
      · rcases h3 a with h0 | h0
        · rw [h0]; exact h1 hsome
        · exact h0
      · exact h4 a ha hsome

theorem complete_total (d : Data) (hd : Acyclic d) (keys : List UInt64) : ∃ N, ∀ n ≥ N, ∀ s, ∃ s', complete d n keys s = some s' := by
  induction keys with
  | nil => exact ⟨0, fun n _ s => ⟨s, rfl⟩⟩
  | cons k keys ih =>
    obtain ⟨N, hN⟩ := ih
    obtain ⟨M, hM⟩ := resolve_total d hd k
    refine ⟨max N M, ?_⟩
    intro n hn s
    obtain ⟨t, ht⟩ := hM n (by omega) s
    obtain ⟨u, hu⟩ := hN n (by omega) t
    exact ⟨u, by simp [complete, ht, hu]⟩

theorem foldl_spec (d : Data) (a : UInt64) (ms : List Member) (acc : List Ref) (hacc : acc.Pairwise fun x y => x.id ≠ y.id) :
    ∃ more, ms.foldl (wantStep d a) acc = acc ++ more ∧ (acc ++ more).Pairwise (fun x y => x.id ≠ y.id) ∧
      (∃ sub, sub.Sublist ms ∧ List.Forall₂ (Present d) sub more) ∧ (∀ r ∈ more, ¬ NamesBack d a r) ∧
      (∀ m ∈ ms, ∀ r, Present d m r → NamesBack d a r ∨ ∃ x ∈ acc ++ more, x.id = r.id) := by
  induction ms generalizing acc with
  | nil => exact ⟨[], by simp, by simpa using hacc, ⟨[], .refl _, .nil⟩, by simp, by simp⟩
  | cons m ms ih =>
    simp only [List.foldl_cons]
    have skip : wantStep d a acc m = acc → (∀ r, Present d m r → NamesBack d a r ∨ ∃ x ∈ acc, x.id = r.id) →
        ∃ more, ms.foldl (wantStep d a) (wantStep d a acc m) = acc ++ more ∧ (acc ++ more).Pairwise (fun x y => x.id ≠ y.id) ∧
        (∃ sub, sub.Sublist (m :: ms) ∧ List.Forall₂ (Present d) sub more) ∧ (∀ r ∈ more, ¬ NamesBack d a r) ∧
        (∀ m' ∈ m :: ms, ∀ r, Present d m' r → NamesBack d a r ∨ ∃ x ∈ acc ++ more, x.id = r.id) := by
      intro he hpr
      rw [he]
      obtain ⟨more, h1, h2, ⟨sub, h3, h4⟩, h5, h6⟩ := ih acc hacc
      refine ⟨more, h1, h2, ⟨sub, h3.cons m, h4⟩, h5, ?_⟩
      intro m' hm' r hr
      rcases List.mem_cons.1 hm' with rfl | hm'
      · rcases hpr r hr with h0 | ⟨x, hx, hxr⟩
        · exact .inl h0
        · exact .inr ⟨x, List.mem_append_left _ hx, hxr⟩
      · exact h6 m' hm' r hr
    rcases wantStep_cases d a acc m with ⟨hl, he⟩ | ⟨e, hl, ⟨hx, he⟩ | ⟨hb, he⟩ | ⟨hno, hnb, he⟩⟩
    · exact skip he fun r hr => by rw [← present_iff, hl] at hr; simp at hr
    · exact skip he fun r hr => by rw [← present_iff, hl] at hr; cases hr; exact .inr hx
    · exact skip he fun r hr => by rw [← present_iff, hl] at hr; cases hr; exact .inl hb
    · rw [he]
      obtain ⟨more, h1, h2, ⟨sub, h3, h4⟩, h5, h6⟩ := ih (acc ++ [e]) (by
        rw [List.pairwise_append]
        exact ⟨hacc, by simp, fun x hx y hy => by simp at hy; subst hy; exact hno x hx⟩)
      refine ⟨e :: more, by simpa using h1, by simpa using h2, ⟨m :: sub, h3.cons_cons m, .cons ((present_iff d m e).1 hl) h4⟩, ?_, ?_⟩
      · intro r hr
        rcases List.mem_cons.1 hr with rfl | hr
        · exact hnb
        · exact h5 r hr
      · intro m' hm' r hr
        rcases List.mem_cons.1 hm' with rfl | hm'
        · rw [← present_iff, hl] at hr; cases hr
          exact .inr ⟨e, by simp, rfl⟩
        · simpa using h6 m' hm' r hr

end OsmRelationsProof

open OsmRelationsProof

/-- C35, termination: if no relation contains itself through the members the code follows, resolving all relations in any order ends, at a
depth which does not depend on what has been resolved already. Partial: the code does not detect cycles in general, see
`C35_violated_cycle` and `C35_violated_building`. -/
theorem C35_terminates_partial (d : Data) (hd : Acyclic d) (keys : List UInt64) :
    ∃ N, ∀ n ≥ N, ∀ s, ∃ s', complete d n keys s = some s' := complete_total d hd keys

/-- C35, once: among plain relations without cycles, after all are resolved in any order, and however often each is reached through others
or listed, every relation has each present member at most once, in the order of its member list. -/
theorem C35_once_partial (d : Data) (hd : Acyclic d) (hp : AllPlain d) (n : Nat) (keys : List UInt64) (s' : State)
    (h : complete d n keys (fun _ => []) = some s') (a : UInt64) (ha : a ∈ keys) (kind : Kind) (ms : List Member)
    (hr : d.relation a = some (kind, ms)) :
    (∃ sub, sub.Sublist ms ∧ List.Forall₂ (Present d) sub (s' a)) ∧ (s' a).Pairwise (fun x y => x.id ≠ y.id) := by
  have := (complete_want d hd hp n keys _ s' h fun j => .inl rfl).2 a ha (by simp [hr])
  rw [this, want, hr]
  obtain ⟨more, h1, h2, h3, -⟩ := foldl_spec d a ms [] .nil
  simp only [List.nil_append] at h1 h2
  simp only [h1]
  exact ⟨h3, h2⟩

/-- C61: among plain relations without cycles a relation gets every member which is present and does not name the relation itself. Partial:
the member ids must differ, see `C61_violated_same_id`. -/
theorem C61_members_partial (d : Data) (hd : Acyclic d) (hp : AllPlain d) (n : Nat) (keys : List UInt64) (s' : State)
    (h : complete d n keys (fun _ => []) = some s') (a : UInt64) (ha : a ∈ keys) (kind : Kind) (ms : List Member)
    (hr : d.relation a = some (kind, ms)) (hid : ∀ m ∈ ms, ∀ m' ∈ ms, m.refId = m'.refId → m.type = m'.type) (r : Ref) :
    r ∈ s' a ↔ (∃ m ∈ ms, Present d m r) ∧ ¬ NamesBack d a r := by
  have hw := (complete_want d hd hp n keys _ s' h fun j => .inl rfl).2 a ha (by simp [hr])
  rw [hw, want, hr]
  obtain ⟨more, h1, h2, ⟨sub, hsub, h3⟩, h4, h5⟩ := foldl_spec d a ms [] .nil
  simp only [List.nil_append] at h1 h2 h5
  simp only [h1]
  have mem : ∀ x ∈ more, ∃ m ∈ ms, Present d m x := by
    have key : ∀ (l : List Member) (rs : List Ref), List.Forall₂ (Present d) l rs → ∀ x ∈ rs, ∃ m ∈ l, Present d m x := by
      intro l rs h
      induction h with
      | nil => simp
      | cons h _ ih =>
        intro x hx
        rcases List.mem_cons.1 hx with rfl | hx
        · exact ⟨_, by simp, h⟩
        · obtain ⟨m, hm, hh⟩ := ih x hx; exact ⟨m, by simp [hm], hh⟩
    intro x hx
    obtain ⟨m, hm, hh⟩ := key sub more h3 x hx
    exact ⟨m, hsub.subset hm, hh⟩
  have idOf : ∀ m r, Present d m r → r.id = m.refId := by
    intro m r hp
    unfold Present at hp
    split at hp
    · rw [hp.2]; rfl
    · rcases hp with ⟨-, rfl⟩ | ⟨-, -, rfl⟩ <;> rfl
    · rw [hp.2]; rfl
  constructor
  · intro hx
    exact ⟨mem r hx, h4 r hx⟩
  · rintro ⟨⟨m, hm, hpr⟩, hnb⟩
    rcases h5 m hm r hpr with h0 | ⟨x, hx, hxid⟩
    · exact absurd h0 hnb
    · obtain ⟨m', hm', hp'⟩ := mem x hx
      have e1 := idOf m r hpr
      have e2 := idOf m' x hp'
      have e3 : m.refId = m'.refId := by rw [← e1, ← e2, hxid]
      have e4 := hid m hm m' hm' e3
      have : lookup d m = lookup d m' := by simp only [lookup, e3, e4]
      rw [← present_iff] at hpr hp'
      rw [this, hp'] at hpr
      cases hpr
      exact hx

/-! ## Violations -/

/-- Data in which only relations exist. -/
def onlyRelations (f : UInt64 → Option (Kind × List Member)) : Data := ⟨fun _ => false, fun _ => false, fun _ => false, f, fun _ => []⟩

/-- Three plain relations in a ring. -/
def ringOfThree : Data := onlyRelations fun i =>
  if i = 1 then some (.plain, [⟨.other, 2, false⟩]) else if i = 2 then some (.plain, [⟨.other, 3, false⟩])
  else if i = 3 then some (.plain, [⟨.other, 1, false⟩]) else none

/-- C35 is false: a ring of three relations recurses for ever, the code detects only two. -/
theorem C35_violated_cycle (n : Nat) (keys : List UInt64) : complete ringOfThree n (1 :: keys) (fun _ => []) = none := by
  have key : ∀ n, resolve ringOfThree n (fun _ => []) 1 = none ∧ resolve ringOfThree n (fun _ => []) 2 = none ∧
      resolve ringOfThree n (fun _ => []) 3 = none := by
    intro n
    induction n with
    | zero => simp [resolve]
    | succ n ih =>
      obtain ⟨h1, h2, h3⟩ := ih
      refine ⟨?_, ?_, ?_⟩ <;>
      simp [resolve, ringOfThree, onlyRelations, foldMembers, visitPlain, lookup, alreadyProcessed, hasReferenceToParent] <;>
      first | exact h1 | exact h2 | exact h3
  simp [complete, (key n).1]

/-- C35 is false: a building which names itself as a member recurses for ever. -/
theorem C35_violated_building (n : Nat) (keys : List UInt64) (o : Bool) :
    complete (onlyRelations fun i => if i = 1 then some (.building, [⟨.other, 1, o⟩]) else none) n (1 :: keys) (fun _ => []) = none := by
  have key : ∀ n, resolve (onlyRelations fun i => if i = 1 then some (.building, [⟨.other, 1, o⟩]) else none) n (fun _ => []) 1 = none := by
    intro n
    induction n with
    | zero => rfl
    | succ n ih =>
      simp [resolve, foldMembers, visitBuilding, lookup, onlyRelations]
      exact ih
  simp [complete, key n]

/-- C35 is false even without cycles: a building with an outline, reached first through another relation, gets its part twice. -/
theorem C35_violated_twice :
    ∃ (d : Data) (s' : State), Acyclic d ∧ complete d 3 [2, 1] (fun _ => []) = some s' ∧ s' 1 = [.way 11, .way 11] := by
  let f : UInt64 → Option (Kind × List Member) := fun i =>
    if i = 1 then some (.building, [⟨.w, 10, true⟩, ⟨.w, 11, false⟩]) else if i = 2 then some (.plain, [⟨.other, 1, false⟩]) else none
  let d : Data := ⟨fun _ => false, fun i => i == 10 || i == 11, fun _ => false, f, fun _ => []⟩
  have hfol : ∀ a b, Follows d a b → a = 2 ∧ b = 1 := by
    rintro a b ⟨k, ms, m, h1, h2, h3, h4, h5⟩
    by_cases ha : a = 1
    · subst ha
      have : k = .building ∧ ms = [⟨.w, 10, true⟩, ⟨.w, 11, false⟩] := by
        have : d.relation 1 = some (.building, [⟨.w, 10, true⟩, ⟨.w, 11, false⟩]) := rfl
        rw [this] at h1; simp at h1; exact ⟨h1.1.symm, h1.2.symm⟩
      obtain ⟨rfl, rfl⟩ := this
      simp at h2 h5
      rcases h2 with rfl | rfl <;> simp at h5
    · by_cases ha2 : a = 2
      · subst ha2
        have : k = .plain ∧ ms = [⟨.other, 1, false⟩] := by
          have : d.relation 2 = some (.plain, [⟨.other, 1, false⟩]) := rfl
          rw [this] at h1; simp at h1; exact ⟨h1.1.symm, h1.2.symm⟩
        obtain ⟨rfl, rfl⟩ := this
        simp at h2
        subst h2
        exact ⟨rfl, h3.symm⟩
      · have : d.relation a = none := by simp [d, f, ha, ha2]
        rw [this] at h1; simp at h1
  refine ⟨d, _, ?_, rfl, rfl⟩
  intro a h
  have : ∀ a b, Relation.TransGen (Follows d) a b → a = 2 ∧ b = 1 := by
    intro a b h
    induction h with
    | single h => exact hfol _ _ h
    | tail _ h ih =>
      have := (hfol _ _ h).1
      rw [ih.2] at this; simp at this
  obtain ⟨h1, h2⟩ := this a a h
  rw [h1] at h2; simp at h2

/-- C61 is false for members of different types with the same number, which OpenStreetMap data allows: the way is lost. -/
theorem C61_violated_same_id :
    ∃ (d : Data) (s' : State), AllPlain d ∧ d.relation 1 = some (.plain, [⟨.n, 5, false⟩, ⟨.w, 5, false⟩]) ∧ d.node 5 = true ∧
      d.way 5 = true ∧ complete d 1 [1] (fun _ => []) = some s' ∧ s' 1 = [.node 5] := by
  let d : Data := ⟨fun i => i == 5, fun i => i == 5, fun _ => false,
    fun i => if i = 1 then some (.plain, [⟨.n, 5, false⟩, ⟨.w, 5, false⟩]) else none, fun _ => []⟩
  refine ⟨d, _, ?_, rfl, rfl, rfl, rfl, rfl⟩
  intro a k ms h
  simp only [d] at h
  split at h
  · simp at h; exact h.1.symm
  · simp at h

/-- A concrete case: relation 3 has relation 2 and way 7, relation 2 has way 7 and the absent node 9; 2 is resolved twice. -/
example : ∃ s', complete ⟨fun _ => false, fun i => i == 7, fun _ => false,
    fun i => if i = 3 then some (.plain, [⟨.other, 2, false⟩, ⟨.w, 7, false⟩]) else if i = 2 then some (.plain, [⟨.w, 7, false⟩, ⟨.n, 9, false⟩])
      else none, fun _ => []⟩ 3 [3, 2] (fun _ => []) = some s' ∧ s' 3 = [.relation 2, .way 7] ∧ s' 2 = [.way 7] :=
  ⟨_, rfl, rfl, rfl⟩

end Verif.Props
