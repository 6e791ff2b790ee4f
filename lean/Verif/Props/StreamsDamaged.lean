import Verif.Props.StreamsDamagedSpec
import Verif.Props.MeshCache

/-! # Damaged elements and cache files are refused (C07, C23) -/
namespace Verif.Props
open Verif.Streams Verif.StreamsSpec Verif.StreamsProof Verif.MeshCache Verif.MeshCacheSpec Verif.StreamsDamagedSpec

variable {D : Type}

namespace StreamsDamagedProof
open MeshCacheProof

theorem no_space {ty : UInt8} (h : 32 ≠ ty) (h' : ¬ (9 ≤ ty ∧ ty ≤ 13)) : isSpace ty = false := by
  unfold isSpace
  simp only [Bool.or_eq_false_iff, decide_eq_false_iff_not, Bool.and_eq_false_iff]
  refine ⟨fun e => h e.symm, ?_⟩
  by_cases h9 : 9 ≤ ty
  · exact .inr fun h13 => h' ⟨h9, h13⟩
  · exact .inl h9

theorem above {ty k : UInt8} (h : k < ty) {j : UInt8} (hj : j ≤ k) : ty ≠ j := by
  rintro rfl
  exact absurd (UInt8.lt_of_lt_of_le h hj) (UInt8.lt_irrefl _)

/-- The members which can be read are passed by. -/
theorem readMembers_bad (fuel : Nat) (ms : List (Element Coord)) (hf : FitsAll ms) (hfuel : (writeMembers ms).length ≤ fuel) (k : Nat) (id : UInt64) (u : Bytes)
    (hu : readElementAux fuel u = .throw "domain_error") : readMembers (readElementAux fuel) (ms.length + (k + 1)) (writeMembers ms ++ (leBytes 8 id.toNat ++ u)) = .throw "domain_error" := by
  induction ms with
  | nil =>
    rw [List.length_nil, Nat.zero_add]
    simp only [writeMembers, List.nil_append, readMembers, readLe_write, hu]
  | cons m ms ih =>
    simp only [FitsAll] at hf
    have hl : (writeElement m).length ≤ fuel ∧ (writeMembers ms).length ≤ fuel := by
      simp only [writeMembers, List.length_append] at hfuel; omega
    have e : (m :: ms).length + (k + 1) = (ms.length + (k + 1)) + 1 := by simp only [List.length_cons]; omega
    have ih := ih hf.2 hl.2
    rw [e]
    generalize ms.length + (k + 1) = j at ih ⊢
    simp only [writeMembers, List.append_assoc, readMembers, readLe_write, readElementAux_write m hf.1 fuel hl.1, ih]

theorem bad_element {bs : Bytes} (h : BadElement bs) : ∀ fuel, bs.length ≤ fuel → readElementAux fuel bs = .throw "domain_error" := by
  induction h with
  | kind ty rest h1 h2 h3 =>
    intro fuel hf
    cases fuel with
    | zero => simp at hf
    | succ fuel =>
      simp only [readElementAux, dropWhile_type ty (no_space h1 h2)]
      rw [if_neg (above h3 (by decide)), if_neg (above h3 (by decide)), if_neg (above h3 (by decide)), if_neg (above h3 (by decide))]
  | member tags n ms id u ht hn hm hf _ ih =>
    intro fuel hl
    cases fuel with
    | zero => simp at hl
    | succ fuel =>
      simp only [List.length_cons, List.length_append, leBytes_length] at hl
      have h1 : n % 256 ^ 2 = n := Nat.mod_eq_of_lt (by omega)
      obtain ⟨k, rfl⟩ : ∃ k, n = ms.length + (k + 1) := ⟨n - ms.length - 1, by omega⟩
      simp only [readElementAux, dropWhile_type 3 (by decide), readVec_write _ _ readTag_write tags ht, readLe_write, h1, Option.bind_eq_bind, Option.bind_some,
        readMembers_bad fuel ms hf (by omega) k id u (ih fuel (by omega))]
      rfl

theorem readItems_bad (fc : FloatConv D) {u : Bytes} {e : String} (hu : BadRecord u e) (l : List (Item D)) (hl : ∀ i ∈ l, ItemFits i) (fuel : Nat) (hf : l.length < fuel)
    (budget : Option Nat) : readItems fc fuel budget (body fc l ++ u) =
      if (∀ n, budget = some n → l.length < n) then .throw e else .ok (cut budget (l.map (replayed fc))) := by
  induction l generalizing fuel budget with
  | nil =>
    cases fuel with
    | zero => simp at hf
    | succ fuel =>
      have main : ∀ budget : Option Nat, budget ≠ some 0 → readItems fc (fuel + 1) budget u = .throw e := by
        intro budget hb
        rw [readItems.eq_3 fc budget _ fuel hb]
        cases hu with
        | kind ty rest h1 h2 h3 =>
          simp only [drop_type ty (no_space h1 h2)]
          rw [if_neg (above h3 (by decide)), if_neg (above h3 (by decide))]
        | element id v hv =>
          simp only [drop_type 0 space0]
          rw [if_neg (by decide), if_pos trivial, readLe_write]
          simp only [readElement, bad_element hv _ (Nat.le_refl _), Outcome.bind]
      cases budget with
      | none => rw [if_pos (by simp)]; exact main none (by simp)
      | some n =>
        cases n with
        | zero => rw [if_neg (by simp)]; simp [readItems, cut]
        | succ n => rw [if_pos (by simp)]; exact main _ (by simp)
  | cons i l ih =>
    cases fuel with
    | zero => simp at hf
    | succ fuel =>
      have hrest := ih (fun j hj => hl j (by simp [hj])) fuel (by simpa using hf)
      have hbody : body fc (i :: l) ++ u = encode fc i ++ (body fc l ++ u) := by simp [body]
      have hi := hl i (by simp)
      have main : ∀ budget : Option Nat, budget ≠ some 0 → readItems fc (fuel + 1) budget (body fc (i :: l) ++ u) =
          (readItems fc fuel (budget.map (· - 1)) (body fc l ++ u)).bind fun l => .ok (replayed fc i :: l) := by
        intro budget hb
        rw [hbody, readItems.eq_3 fc budget _ fuel hb]
        cases i with
        | mesh m =>
          simp only [encode, List.cons_append, drop_type 1 space1, if_true]
          rw [C08_mesh_round_trip fc m hi]
          rfl
        | element e =>
          simp only [encode, List.cons_append, drop_type 0 space0, List.append_assoc]
          rw [if_neg (by decide), if_pos trivial, readLe_write]
          have hid : UInt64.ofNat (e.id.toNat % 256 ^ 8) = e.id := by
            rw [Nat.mod_eq_of_lt (by have := e.id.toNat_lt; simpa using this)]; simp
          simp only [hid, C07_element_round_trip_partial e hi, Outcome.bind]
          rfl
      cases budget with
      | none =>
        rw [main none (by simp), if_pos (by simp)]
        simp only [Option.map_none, hrest none]
        rw [if_pos (by simp)]; rfl
      | some n =>
        cases n with
        | zero => rw [if_neg (by simp)]; simp [readItems, cut]
        | succ n =>
          rw [main _ (by simp)]
          simp only [Option.map_some, Nat.add_sub_cancel, hrest (some n), Option.some.injEq, forall_eq', List.length_cons, Nat.add_lt_add_iff_right]
          split <;> simp [Outcome.bind, cut]

end StreamsDamagedProof
open StreamsDamagedProof MeshCacheProof

/-- C07: bytes of an element of unknown kind are refused with an exception, at any depth of relations. -/
theorem C07_refused (id : UInt64) {bs : Bytes} (h : BadElement bs) : readElement id bs = .throw "domain_error" := by
  simp only [readElement, bad_element h _ (Nat.le_refl _)]

/-- C23: a cache file with a damaged record is refused with an exception, unless reading is cancelled in front of the record: then the items in front of it are given. -/
theorem C23_damaged (fc : FloatConv D) (s : State) (p : Path) (g : UInt8) (budget : Option Nat) (l : List (Item D)) (hl : ∀ i ∈ l, ItemFits i) {u : Bytes} {e : String}
    (hu : BadRecord u e) (hs : s.caching.find p.2 = none) (hd : s.disk.find p = some (1 :: (l.flatMap (encode fc) ++ u))) :
    MeshCache.fetch fc s p g budget = if (∀ n, budget = some n → l.length < n) then .throw e else .ok (some (cut budget (l.map (replayed fc)))) := by
  have hg : ∀ bs, isGood g (1 :: bs) = true := fun bs => by simp only [isGood, drop_type 1 space1, decide_true]
  have hlen := body_length fc l
  simp only [MeshCache.fetch, isCacheHit, hs, hd, hg, if_true, Option.getD_some, readCache, drop_type 1 space1, List.drop_succ_cons, List.drop_zero]
  have := readItems_bad fc hu l hl (1 :: (l.flatMap (encode fc) ++ u)).length (by simp only [List.length_cons, List.length_append, body] at hlen ⊢; omega) budget
  rw [body] at this
  rw [this]
  split <;> rfl

/-- A relation whose second member is of kind 7. -/
theorem StreamsDamagedProof.relation_bad : BadElement (3 :: (writeVec writeTag [⟨1, 2⟩] ++ (leBytes 2 2 ++ (writeMembers [.node 5 [] ⟨0, 0⟩] ++ (leBytes 8 (6 : UInt64).toNat ++ [7, 0, 0]))))) :=
  .member _ 2 _ 6 _ (by decide) (by decide) (by decide) (by simp [FitsAll, Fits]) (.kind 7 _ (by decide) (by decide) (by decide))

example : readElement 1 (3 :: (writeVec writeTag [⟨1, 2⟩] ++ (leBytes 2 2 ++ (writeMembers [.node 5 [] ⟨0, 0⟩] ++ (leBytes 8 (6 : UInt64).toNat ++ [7, 0, 0]))))) = .throw "domain_error" :=
  C07_refused 1 relation_bad

/-- A cache file with an element, and a record with such a relation behind it. -/
example (fc : FloatConv D) (p : Path) : let s : State := ⟨[(p, 1 :: ([Item.element (.node 5 [] ⟨0, 0⟩)].flatMap (encode fc) ++ (0 :: (leBytes 8 (9 : UInt64).toNat ++
      (3 :: (writeVec writeTag [⟨1, 2⟩] ++ (leBytes 2 2 ++ (writeMembers [.node 5 [] ⟨0, 0⟩] ++ (leBytes 8 (6 : UInt64).toNat ++ [7, 0, 0])))))))))], []⟩
    MeshCache.fetch fc s p 0 none = .throw "domain_error" ∧ MeshCache.fetch fc s p 0 (some 1) = .ok (some [.element (.node 5 [] ⟨0, 0⟩)]) := by
  intro s
  have h := fun b => C23_damaged fc s p 0 b [.element (.node 5 [] ⟨0, 0⟩)] (by simp [ItemFits, Fits]) (.element 9 _ relation_bad) rfl (by simp only [s, Assoc.find, if_true])
  exact ⟨by rw [h]; simp, by rw [h]; simp [cut, replayed]⟩

end Verif.Props
