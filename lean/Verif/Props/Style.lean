import Verif.Props.StyleSpec
import Mathlib.Data.List.Basic

/-! # C28, C29, C30: styles -/
namespace Verif.Props
open Verif.Style Verif.StyleSpec

namespace StyleProof
variable {D : Type}

/-! ## Binary search -/

theorem findTag_sound (key : UInt32) (tags : List Tag) (t : Tag) (h : findTag key tags = some t) : t ∈ tags ∧ t.key = key := by
  induction tags using findTag.induct key with
  | case1 => simp [findTag] at h
  | case2 tags hne mid hmid t' hk =>
    rw [findTag, dif_neg hne] at h
    simp only at h
    rw [if_pos hk] at h
    cases h
    exact ⟨List.getElem_mem _, hk⟩
  | case3 tags hne mid hmid t' hk hlt ih =>
    rw [findTag, dif_neg hne] at h
    simp only at h
    rw [if_neg hk, if_pos hlt] at h
    obtain ⟨h1, h2⟩ := ih h
    exact ⟨List.mem_of_mem_take h1, h2⟩
  | case4 tags hne mid hmid t' hk hlt ih =>
    rw [findTag, dif_neg hne] at h
    simp only at h
    rw [if_neg hk, if_neg hlt] at h
    obtain ⟨h1, h2⟩ := ih h
    exact ⟨List.mem_of_mem_drop h1, h2⟩

theorem mem_split {α : Type} (l : List α) (n : Nat) (hn : n < l.length) (x : α) (h : x ∈ l) :
    x ∈ l.take n ∨ x = l[n] ∨ x ∈ l.drop (n + 1) := by
  obtain ⟨i, hi, rfl⟩ := List.mem_iff_getElem.1 h
  rcases Nat.lt_trichotomy i n with hlt | heq | hgt
  · left; exact List.mem_take_iff_getElem.2 ⟨i, by omega, rfl⟩
  · right; left; subst heq; rfl
  · right; right
    rw [List.mem_drop_iff_getElem]
    exact ⟨i - (n + 1), by omega, by congr 1; omega⟩

theorem findTag_unique (key : UInt32) (tags : List Tag) (hs : tags.Pairwise fun a b => a.key ≤ b.key) (t : Tag) (ht : t ∈ tags) (hk : t.key = key)
    (hu : ∀ u ∈ tags, u.key = key → u = t) :
    findTag key tags = some t := by
  induction tags using findTag.induct key with
  | case1 => simp at ht
  | case2 tags hne mid hmid t' hk' =>
    rw [findTag, dif_neg hne]
    simp only
    rw [if_pos hk']
    congr 1
    exact hu _ (List.getElem_mem _) hk'
  | case3 tags hne mid hmid t' hk' hlt ih =>
    rw [findTag, dif_neg hne]
    simp only
    rw [if_neg hk', if_pos hlt]
    refine ih (hs.sublist (List.take_sublist _ _)) ?_ fun u hu' => hu u (List.mem_of_mem_take hu')
    rcases mem_split tags mid hmid t ht with h | h | h
    · exact h
    · exact absurd (by rw [← hk, h]) hk'
    · exfalso
      obtain ⟨i, hi, rfl⟩ := List.mem_drop_iff_getElem.1 h
      have := List.pairwise_iff_getElem.1 hs mid (mid + 1 + i) hmid (by omega) (by omega)
      rw [hk] at this
      exact absurd (UInt32.lt_of_le_of_lt this hlt) (UInt32.lt_irrefl _)
  | case4 tags hne mid hmid t' hk' hlt ih =>
    rw [findTag, dif_neg hne]
    simp only
    rw [if_neg hk', if_neg hlt]
    refine ih (hs.sublist (List.drop_sublist _ _)) ?_ fun u hu' => hu u (List.mem_of_mem_drop hu')
    rcases mem_split tags mid hmid t ht with h | h | h
    · exfalso
      obtain ⟨i, hi, rfl⟩ := List.mem_take_iff_getElem.1 h
      have := List.pairwise_iff_getElem.1 hs i mid (by omega) hmid (by omega)
      rw [hk] at this
      rcases UInt32.lt_or_eq_of_le this with h' | h'
      · exact hlt h'
      · exact hk' h'.symm
    · exact absurd (by rw [← hk, h]) hk'
    · exact h

theorem findTag_complete (key : UInt32) (tags : List Tag) (hs : TagsSorted tags) (t : Tag) (ht : t ∈ tags) (hk : t.key = key) :
    findTag key tags = some t := by
  refine findTag_unique key tags (hs.imp fun h => UInt32.le_of_lt h) t ht hk fun u hu hku => ?_
  obtain ⟨i, hi, rfl⟩ := List.mem_iff_getElem.1 ht
  obtain ⟨j, hj, rfl⟩ := List.mem_iff_getElem.1 hu
  rcases Nat.lt_trichotomy i j with hlt | heq | hgt
  · have := List.pairwise_iff_getElem.1 hs i j hi hj hlt
    rw [hk, hku] at this; exact absurd this (UInt32.lt_irrefl _)
  · subst heq; rfl
  · have := List.pairwise_iff_getElem.1 hs j i hj hi hgt
    rw [hk, hku] at this; exact absurd this (UInt32.lt_irrefl _)

/-! ## Conditions -/

theorem matchTag_iff (env : Env D) (tags : List Tag) (P : Str → Prop) (hi : Interned env P tags) (t : Tag) (ht : t ∈ tags) (hne : env.getString t.key ≠ []) (htk : P (env.getString t.key)) (c : Condition) (op : OpType)
    (hop : opOf c.operation = some op) (hP : P c.key ∧ P c.value ∧ c.key ≠ []) (k : UInt32) :
    matchTag env t ⟨k, env.getId c.value, op⟩ = true ↔ Compare env c.operation (env.getString t.value) c.value := by
  have hv : t.value = env.getId c.value ↔ env.getString t.value = c.value := by
    constructor
    · intro h; rw [h, hi.back _ hP.2.1]
    · intro h; rw [← h, (hi.known t ht hne htk).2]
  unfold opOf at hop
  unfold Compare
  split at hop
  · rename_i h; cases hop; simp [matchTag, h]
  · split at hop
    · rename_i h; cases hop; simp [matchTag, h, hv]
    · split at hop
      · rename_i h; cases hop; simp [matchTag, h, hv]
      · split at hop
        · rename_i h; cases hop; simp [matchTag, h, hi.back _ hP.2.1]
        · split at hop
          · rename_i h; cases hop; simp [matchTag, h, hi.back _ hP.2.1]
          · cases hop

theorem matchTags_iff (env : Env D) (tags : List Tag) (P : Str → Prop) (hi : Interned env P tags) (hs : SortedFor env P tags) (c : Condition) (op : OpType)
    (hop : opOf c.operation = some op) (hP : P c.key ∧ P c.value ∧ c.key ≠ []) :
    matchTags env tags ⟨env.getId c.key, env.getId c.value, op⟩ = true ↔ Holds env tags c := by
  unfold matchTags Holds
  constructor
  · intro h
    split at h
    · cases h
    · rename_i t ht
      obtain ⟨h1, h2⟩ := findTag_sound _ _ _ ht
      have hkey : env.getString t.key = c.key := by rw [h2, hi.back _ hP.1]
      exact ⟨t, h1, hkey, (matchTag_iff env tags P hi t h1 (by rw [hkey]; exact hP.2.2) (by rw [hkey]; exact hP.1) c op hop hP _).1 h⟩
  · rintro ⟨t, ht, hk, hc⟩
    have htk : P (env.getString t.key) := by rw [hk]; exact hP.1
    have hne : env.getString t.key ≠ [] := by rw [hk]; exact hP.2.2
    have : t.key = env.getId c.key := by rw [← hk, (hi.known t ht hne htk).1]
    rw [findTag_unique _ tags hs.1 t ht this fun u hu hku => hs.2 _ hP.1 u hu t ht hku this]
    exact (matchTag_iff env tags P hi t ht hne htk c op hop hP _).2 hc

theorem addConditions_all (env : Env D) (tags : List Tag) (P : Str → Prop) (hi : Interned env P tags) (hs : SortedFor env P tags) (cs : List Condition)
    (l : List ConditionType) (h : addConditions env cs = .ok l) (hP : ∀ c ∈ cs, P c.key ∧ P c.value ∧ c.key ≠ []) :
    l.all (matchTags env tags) = true ↔ ∀ c ∈ cs, Holds env tags c := by
  induction cs generalizing l with
  | nil => simp only [addConditions, Outcome.ok.injEq] at h; subst h; simp
  | cons c cs ih =>
    unfold addConditions at h
    split at h
    · cases h
    · rename_i op hop
      cases hrest : addConditions env cs with
      | ok l' =>
        rw [hrest] at h
        simp only [Outcome.bind, Outcome.ok.injEq] at h
        subst h
        rw [List.all_cons, Bool.and_eq_true, ih l' hrest fun c hc => hP c (by simp [hc]), matchTags_iff env tags P hi hs c op hop (hP c (by simp))]
        simp
      | throw e => rw [hrest] at h; cases h
      | ub w => rw [hrest] at h; cases h

theorem all_sort (p : ConditionType → Bool) (l : List ConditionType) : (sortConditions l).all p = l.all p := by
  rw [Bool.eq_iff_iff, List.all_eq_true, List.all_eq_true]
  have := List.mergeSort_perm l (fun a b => decide (b.key ≤ a.key))
  constructor
  · intro h x hx; exact h x (this.symm.subset hx)
  · intro h x hx; exact h x (this.subset hx)

/-! ## Index construction -/

theorem mem_lods (z : Zoom) (lod : Nat) : lod ∈ lods z ↔ InZoom z lod := by
  unfold lods InZoom
  rw [List.mem_range'_1]
  omega

theorem nodup_lods (z : Zoom) : (lods z).Nodup := List.nodup_range'

def look {V : Type} (m : Assoc Nat (List V)) (lod : Nat) : List V := (m.find lod).getD []

theorem fold_look {V : Type} (g : List V → List V) (l : List Nat) (hl : l.Nodup) (m : Assoc Nat (List V)) (lod : Nat) :
    look (l.foldl (fun m i => m.set i (g ((m.find i).getD []))) m) lod = if lod ∈ l then g (look m lod) else look m lod := by
  induction l generalizing m with
  | nil => simp
  | cons i l ih =>
    obtain ⟨h1, h2⟩ := List.nodup_cons.1 hl
    rw [List.foldl_cons, ih h2]
    have hlook : look (m.set i (g ((m.find i).getD []))) lod = if lod = i then g (look m lod) else look m lod := by
      unfold look
      rw [Assoc.find_set]
      by_cases h : lod = i
      · simp [h]
      · simp [h]
    by_cases h : lod = i
    · subst h; simp [h1, hlook]
    · simp [hlook, h]

theorem foldOutcome_rel {α β γ : Type} (f : β → α → Outcome β) (h : α → List γ) (R : β → List γ → Prop)
    (l : List α) (hstep : ∀ b a b' L, a ∈ l → f b a = .ok b' → R b L → R b' (L ++ h a)) (b b' : β) (L : List γ)
    (hok : foldOutcome f b l = .ok b') (hR : R b L) : R b' (L ++ l.flatMap h) := by
  induction l generalizing b L with
  | nil => simp only [foldOutcome, Outcome.ok.injEq] at hok; subst hok; simpa using hR
  | cons a l ih =>
    unfold foldOutcome at hok
    cases hf : f b a with
    | ok b1 =>
      rw [hf] at hok
      have := ih (fun b a' b' L ha => hstep b a' b' L (by simp [ha])) b1 (L ++ h a) hok (hstep b a b1 L (by simp) hf hR)
      simpa using this
    | throw e => rw [hf] at hok; cases hok
    | ub w => rw [hf] at hok; cases hok

theorem build_rel {γ : Type} (env : Env D) (h : Rule → Selector → Str → List γ) (R : FilterCollection → List γ → Prop)
    (rules : List Rule) (hstep : ∀ fc r s n fc' L, r ∈ rules → s ∈ r.selectors → addName env fc r s n = .ok fc' → R fc L →
      R fc' (L ++ h r s n)) (fc : FilterCollection) (hok : build env rules = .ok fc) (h0 : R emptyFilters []) :
    R fc (rules.flatMap fun r => r.selectors.flatMap fun s => s.names.flatMap fun n => h r s n) := by
  have := foldOutcome_rel _ (fun r : Rule => r.selectors.flatMap fun s => s.names.flatMap fun n => h r s n) R rules
    (fun fc1 r fc2 L hr hf hR => foldOutcome_rel _ (fun s : Selector => s.names.flatMap fun n => h r s n) R r.selectors
      (fun fc3 s fc4 L hs hf hR => foldOutcome_rel _ (fun n => h r s n) R s.names
        (fun fc5 n fc6 L _ hf hR => hstep fc5 r s n fc6 L hr hs hf hR) _ _ _ hf hR)
      _ _ _ hf hR) emptyFilters fc [] hok h0
  simpa using this

theorem kindOf_name (n : Str) (k : Kind) : kindOf n = some k ↔ n = kindName k := by
  constructor
  · intro h
    unfold kindOf at h
    split_ifs at h <;> (cases h; assumption)
  · rintro rfl
    cases k <;> decide

def addDecl (env : Env D) (ds : List Declaration) : List StyleDeclaration := addDeclarations env ds

/-- The declaration blocks of the filters which match. -/
def matched (env : Env D) (tags : List Tag) (fs : List ConditionFilter) : List (List StyleDeclaration) :=
  (fs.filter fun f => f.conditions.all (matchTags env tags)).map (·.declarations)

open Classical in
theorem build_matched (env : Env D) (tags : List Tag) (P : Str → Prop) (hi : Interned env P tags) (hs : SortedFor env P tags) (rules : List Rule)
    (hm : Mentions rules P) (fc : FilterCollection) (hok : build env rules = .ok fc) (kind : Kind) (lod : Nat) :
    matched env tags (look (fc.filters kind) lod) = (applied env kind lod tags rules).map (addDeclarations env) := by
  refine build_rel env (fun r s n => if n = kindName kind ∧ Applies env lod tags s then [r.declarations] else [])
    (fun fc L => matched env tags (look (fc.filters kind) lod) = L.map (addDeclarations env)) rules ?_ fc hok ?_
  · intro fc r s n fc' L hr hsel hadd hR
    unfold addName at hadd
    split at hadd
    · rename_i k hk
      rw [kindOf_name] at hk
      unfold addConditionRule at hadd
      cases hc : addConditions env s.conditions with
      | ok cs =>
        rw [hc] at hadd
        simp only [Outcome.bind, Outcome.ok.injEq] at hadd
        subst hadd
        simp only
        by_cases hkk : kind = k
        · subst hkk
          rw [if_pos rfl]
          unfold addToFilterMap
          rw [fold_look (fun l => l ++ [({ conditions := sortConditions cs, declarations := addDeclarations env r.declarations } :
            ConditionFilter)]) _ (nodup_lods _)]
          rw [List.map_append, ← hR]
          have hall := addConditions_all env tags P hi hs _ _ hc ((hm.2 r hr).2 s hsel)
          by_cases hz : lod ∈ lods s.zoom
          · rw [if_pos hz]
            by_cases hap : ∀ c ∈ s.conditions, Holds env tags c
            · rw [if_pos ⟨hk, (mem_lods _ _).1 hz, hap⟩]
              simp [matched, all_sort, hall.2 hap]
            · rw [if_neg (fun h => hap h.2.2)]
              have : cs.all (matchTags env tags) = false := by
                rw [← Bool.not_eq_true, hall]; exact hap
              simp only [matched, List.filter_append, List.filter_cons, List.filter_nil, all_sort, this]
              simp
          · rw [if_neg hz, if_neg (fun h => hz ((mem_lods _ _).2 h.2.1))]
            simp
        · rw [if_neg hkk, if_neg]
          · simpa using hR
          · rintro ⟨h1, -⟩
            rw [hk] at h1
            apply hkk
            have := (kindOf_name (kindName k) k).2 rfl
            rw [h1] at this
            have h2 := (kindOf_name (kindName kind) kind).2 rfl
            rw [h2] at this; cases this; rfl
      | throw e => rw [hc] at hadd; cases hadd
      | ub w => rw [hc] at hadd; cases hadd
    · rename_i hk
      have hne : ¬ (n = kindName kind ∧ Applies env lod tags s) := by
        rintro ⟨h, -⟩
        rw [(kindOf_name n kind).2 h] at hk; cases hk
      rw [if_neg hne]
      split at hadd
      · have hf : fc'.filters = fc.filters := by
          unfold addIdentifierRule at hadd
          split at hadd
          · cases hadd; rfl
          · split at hadd
            · cases hadd
            · split at hadd
              · cases hadd
              · cases hadd; rfl
        rw [hf]; simpa using hR
      · cases hadd
  · simp [look, emptyFilters, Assoc.find, matched]

theorem build_ids (env : Env D) (rules : List Rule) (fc : FilterCollection) (hok : build env rules = .ok fc) (lod : Nat) (id : UInt64) :
    Assoc.find (look fc.elements lod) id = (idRules env lod id rules).head?.map (addDeclarations env) := by
  refine build_rel env (fun r s n => if n = "element".toList ∧ (s.zoom.first.toNat ≤ lod ∧ lod ≤ s.zoom.last.toNat) ∧
      r.declarations ≠ [] ∧ (s.conditions.head?.bind fun c => env.castId c.value) = some id then [r.declarations] else [])
    (fun fc L => Assoc.find (look fc.elements lod) id = L.head?.map (addDeclarations env)) rules ?_ fc hok ?_
  · intro fc r s n fc' L _ _ hadd hR
    unfold addName at hadd
    split at hadd
    · rename_i k hk
      have hne : n ≠ "element".toList := by
        rintro rfl
        have h0 : kindOf "element".toList = none := by decide
        rw [h0] at hk; cases hk
      have he : fc'.elements = fc.elements := by
        unfold addConditionRule at hadd
        cases hc : addConditions env s.conditions with
        | ok cs => rw [hc] at hadd; simp only [Outcome.bind, Outcome.ok.injEq] at hadd; subst hadd; rfl
        | throw e => rw [hc] at hadd; cases hadd
        | ub w => rw [hc] at hadd; cases hadd
      rw [he, if_neg (fun h => hne h.1)]
      simpa using hR
    · split at hadd
      · rename_i hn
        unfold addIdentifierRule at hadd
        split at hadd
        · rename_i hds
          cases hadd
          rw [if_neg (fun h => h.2.2.1 hds)]
          simpa using hR
        · rename_i hds
          split at hadd
          · cases hadd
          · rename_i c cs hcs
            split at hadd
            · cases hadd
            · rename_i id' hid
              cases hadd
              simp only
              rw [fold_look (fun l => Assoc.emplace l id' (addDeclarations env r.declarations)) _ (nodup_lods _)]
              by_cases hz : lod ∈ lods s.zoom
              · rw [if_pos hz, Assoc.find_emplace]
                by_cases hii : id = id'
                · subst hii
                  rw [if_pos rfl, if_pos ⟨hn, (mem_lods _ _).1 hz, hds, by simp [hcs, hid]⟩]
                  rw [hR]
                  cases L <;> simp
                · rw [if_neg hii, if_neg]
                  · simpa using hR
                  · rintro ⟨-, -, -, h⟩
                    simp [hcs, hid] at h
                    exact hii h.symm
              · rw [if_neg hz, if_neg (fun h => hz ((mem_lods _ _).2 h.2.1))]
                simpa using hR
      · cases hadd
  · simp [look, emptyFilters, Assoc.find]

/-! ## Declarations -/

theorem fold_put (env : Env D) (ds : List StyleDeclaration) (st : Style) :
    (∀ k, (ds.foldl (put env) st).declarations.find k =
      ((ds.reverse.find? (fun d => d.key = k)).map (·.value)).or (st.declarations.find k)) ∧
    (∀ b, b ∈ (ds.foldl (put env) st).builders ↔
      b ∈ st.builders ∨ ∃ d ∈ ds, d.key = env.getId "builder".toList ∧ d.value = b) ∧
    (st.builders.Nodup → (ds.foldl (put env) st).builders.Nodup) ∧
    ((ds.foldl (put env) st).declarations = [] ↔ st.declarations = [] ∧ ds = []) := by
  induction ds generalizing st with
  | nil => simp
  | cons d ds ih =>
    obtain ⟨h1, h2, h3, h4⟩ := ih (put env st d)
    refine ⟨fun k => ?_, fun b => ?_, fun hn => ?_, ?_⟩
    · rw [List.foldl_cons, h1 k, List.reverse_cons, List.find?_append]
      simp only [put, Assoc.find_set, List.find?_cons, List.find?_nil]
      cases (ds.reverse.find? fun d => decide (d.key = k)) with
      | some x => simp
      | none =>
        by_cases h : d.key = k
        · simp [h]
        · have : ¬ k = d.key := fun hh => h hh.symm
          simp [h, this]
    · rw [List.foldl_cons, h2 b]
      simp only [put, List.mem_cons, exists_eq_or_imp]
      split
      · rename_i hk
        split
        · rename_i hm
          constructor
          · rintro (h | h)
            · exact .inl h
            · exact .inr (.inr h)
          · rintro (h | ⟨-, rfl⟩ | h)
            · exact .inl h
            · exact .inl hm
            · exact .inr h
        · simp only [List.mem_append, List.mem_singleton, hk, true_and]
          constructor
          · rintro ((h | rfl) | h)
            · exact .inl h
            · exact .inr (.inl rfl)
            · exact .inr (.inr h)
          · rintro (h | rfl | h)
            · exact .inl (.inl h)
            · exact .inl (.inr rfl)
            · exact .inr h
      · rename_i hk
        constructor
        · rintro (h | h)
          · exact .inl h
          · exact .inr (.inr h)
        · rintro (h | ⟨h, -⟩ | h)
          · exact .inl h
          · exact absurd h hk
          · exact .inr h
    · rw [List.foldl_cons]
      apply h3
      simp only [put]
      split
      · split
        · exact hn
        · rename_i hm
          rw [List.nodup_append]
          refine ⟨hn, by simp, ?_⟩
          intro a ha c hc
          simp only [List.mem_singleton] at hc
          subst hc
          rintro rfl
          exact hm ha
      · exact hn
    · rw [List.foldl_cons, h4]
      simp [put, Assoc.set]

theorem buildFromCondition_eq (env : Env D) (tags : List Tag) (fs : List ConditionFilter) (r : Style × Bool) :
    fs.foldl (fun r f => if f.conditions.all (matchTags env tags) then (f.declarations.foldl (put env) r.1, true) else r) r =
      ((matched env tags fs).flatten.foldl (put env) r.1, r.2 || !(matched env tags fs).isEmpty) := by
  induction fs generalizing r with
  | nil => simp [matched]
  | cons f fs ih =>
    rw [List.foldl_cons, ih]
    by_cases h : f.conditions.all (matchTags env tags)
    · simp only [if_pos h]
      have : matched env tags (f :: fs) = f.declarations :: matched env tags fs := by simp only [matched, List.filter_cons, h]; rfl
      rw [this]
      simp
    · simp only [if_neg h]
      have : matched env tags (f :: fs) = matched env tags fs := by
        simp only [matched, List.filter_cons]; rw [if_neg h]
      rw [this]

theorem getId_inj (env : Env D) (P : Str → Prop) (hb : ∀ s, P s → env.getString (env.getId s) = s) (a b : Str) (ha : P a) (hbb : P b) :
    env.getId a = env.getId b ↔ a = b :=
  ⟨fun h => by rw [← hb a ha, h, hb b hbb], fun h => by rw [h]⟩

theorem last_map (env : Env D) (P : Str → Prop) (hb : ∀ s, P s → env.getString (env.getId s) = s) (ds : List Declaration)
    (hds : ∀ d ∈ ds, P d.key) (k : Str) (hk : P k) :
    (((addDeclarations env ds).reverse.find? (fun d => d.key = env.getId k)).map (·.value)) = lastValue ds k := by
  unfold addDeclarations lastValue
  rw [← List.map_reverse, List.find?_map]
  have : ∀ l : List Declaration, (∀ d ∈ l, P d.key) →
      l.find? ((fun d : StyleDeclaration => decide (d.key = env.getId k)) ∘ fun d : Declaration => ⟨env.getId d.key, d.value⟩) =
        l.find? fun d : Declaration => decide (d.key = k) := by
    intro l hl
    induction l with
    | nil => rfl
    | cons d l ih =>
      rw [List.find?_cons, List.find?_cons, ih fun d hd => hl d (by simp [hd])]
      simp [getId_inj env P hb _ _ (hl d (by simp)) hk]
  rw [this _ fun d hd => hds d (List.mem_reverse.1 hd)]
  cases ds.reverse.find? fun d => decide (d.key = k) <;> rfl

theorem addDeclarations_flatten (env : Env D) (L : List (List Declaration)) :
    (L.map (addDeclarations env)).flatten = addDeclarations env L.flatten := by
  simp [addDeclarations, List.map_flatten]
  rfl

theorem addDeclarations_eq_nil (env : Env D) (ds : List Declaration) : addDeclarations env ds = [] ↔ ds = [] := by
  simp [addDeclarations]

theorem mem_addDeclarations (env : Env D) (P : Str → Prop) (hb : ∀ s, P s → env.getString (env.getId s) = s) (ds : List Declaration)
    (hds : ∀ d ∈ ds, P d.key) (hbu : P "builder".toList) (b : Str) :
    (∃ d ∈ addDeclarations env ds, d.key = env.getId "builder".toList ∧ d.value = b) ↔ ⟨"builder".toList, b⟩ ∈ ds := by
  unfold addDeclarations
  constructor
  · rintro ⟨d, hd, hk, hv⟩
    obtain ⟨d', h1, rfl⟩ := List.mem_map.1 hd
    rw [getId_inj env P hb _ _ (hds d' h1) hbu] at hk
    have : d' = ⟨"builder".toList, b⟩ := by cases d'; simp_all
    rw [← this]; exact h1
  · intro h
    exact ⟨_, List.mem_map.2 ⟨_, h, rfl⟩, rfl, rfl⟩

theorem forElement_id (env : Env D) (rules : List Rule) (fc : FilterCollection) (hok : build env rules = .ok fc) {C : Type} (e : Element C)
    (lod : Nat) : buildFromIdentifier env fc e.id lod =
      (idRules env lod e.id rules).head?.map fun ds => (addDeclarations env ds).foldl (put env) emptyStyle := by
  have h := build_ids env rules fc hok lod e.id
  unfold buildFromIdentifier
  unfold look at h
  cases hf : fc.elements.find lod with
  | none =>
    rw [hf] at h
    simp only [Option.getD_none, Assoc.find] at h
    cases hh : (idRules env lod e.id rules).head? with
    | none => rfl
    | some x => rw [hh] at h; cases h
  | some m =>
    rw [hf] at h
    simp only [Option.getD_some] at h
    simp only
    rw [h]
    cases (idRules env lod e.id rules).head? <;> rfl

end StyleProof

open StyleProof
variable {D C : Type}

/-- A style which is exactly what these declarations say: for each key the last value; the builders are all values declared for `builder`. -/
def IsStyleOf (env : Env D) (P : Str → Prop) (st : Style) (ds : List Declaration) : Prop :=
  (∀ k, P k → st.declarations.find (env.getId k) = lastValue ds k) ∧ (∀ b, b ∈ st.builders ↔ ⟨"builder".toList, b⟩ ∈ ds) ∧
  st.builders.Nodup ∧ (st.declarations = [] ↔ ds = [])

theorem isStyleOf_fold (env : Env D) (P : Str → Prop) (hb : ∀ s, P s → env.getString (env.getId s) = s) (ds : List Declaration)
    (hds : ∀ d ∈ ds, P d.key) (hbu : P "builder".toList) :
    IsStyleOf env P ((addDeclarations env ds).foldl (put env) emptyStyle) ds := by
  obtain ⟨h1, h2, h3, h4⟩ := fold_put env (addDeclarations env ds) emptyStyle
  refine ⟨fun k hk => ?_, fun b => ?_, h3 (by simp [emptyStyle]), ?_⟩
  · rw [h1, last_map env P hb ds hds k hk]; simp [emptyStyle, Assoc.find]
  · rw [h2, mem_addDeclarations env P hb ds hds hbu]; simp [emptyStyle]
  · rw [h4, addDeclarations_eq_nil]; simp [emptyStyle]

/-- C28 (partial), rules with conditions: for every stylesheet which is accepted, every element with sorted tags and no rule for its id, the
style consists of the declarations of all rules which apply, the last one for a key winning. -/
theorem C28_cascade_partial (env : Env D) (rules : List Rule) (fc : FilterCollection) (hok : build env rules = .ok fc) (e : Element C)
    (lod : Nat) (P : Str → Prop) (hm : Mentions rules P) (hi : Interned env P e.tags) (hs : SortedFor env P e.tags) (hid : idRules env lod e.id rules = []) :
    IsStyleOf env P (forElement env fc e lod) (declared env (kindOfElement e) lod e.tags rules) := by
  unfold forElement
  rw [forElement_id env rules fc hok, hid]
  simp only [List.head?_nil, Option.map_none]
  unfold buildFromCondition
  rw [buildFromCondition_eq]
  have := build_matched env e.tags P hi hs rules hm fc hok (kindOfElement e) lod
  unfold look at this
  rw [this, addDeclarations_flatten]
  refine isStyleOf_fold env P hi.back _ (fun d hd => ?_) hm.1
  simp only [applied, List.mem_flatten, List.mem_flatMap] at hd
  obtain ⟨ds, ⟨r, hr, s, -, n, -, hds⟩, hd⟩ := hd
  split at hds
  · simp only [List.mem_singleton] at hds; subst hds; exact (hm.2 r hr).1 d hd
  · cases hds

/-- C28 (partial), rules for an explicit id: they take precedence over all rules with conditions, and the first one decides. Missing: the last one
should (`C28_violated_id_order`). -/
theorem C28_identifier_partial (env : Env D) (rules : List Rule) (fc : FilterCollection) (hok : build env rules = .ok fc) (e : Element C)
    (lod : Nat) (P : Str → Prop) (hm : Mentions rules P) (hb : ∀ s, P s → env.getString (env.getId s) = s) (ds : List Declaration) (rest : List (List Declaration))
    (hid : idRules env lod e.id rules = ds :: rest) : IsStyleOf env P (forElement env fc e lod) ds := by
  unfold forElement
  rw [forElement_id env rules fc hok, hid]
  refine isStyleOf_fold env P hb ds (fun d hd => ?_) hm.1
  have hmem : ds ∈ idRules env lod e.id rules := by rw [hid]; simp
  simp only [idRules, List.mem_flatMap] at hmem
  obtain ⟨r, hr, s, -, n, -, hds⟩ := hmem
  split at hds
  · simp only [List.mem_singleton] at hds; subst hds; exact (hm.2 r hr).1 d hd
  · cases hds

/-- An element has a style iff some rule applies to it. -/
theorem C28_hasStyle (env : Env D) (rules : List Rule) (fc : FilterCollection) (hok : build env rules = .ok fc) (e : Element C)
    (lod : Nat) (P : Str → Prop) (hm : Mentions rules P) (hi : Interned env P e.tags) (hs : SortedFor env P e.tags) :
    hasStyle env fc e lod = true ↔ idRules env lod e.id rules ≠ [] ∨ applied env (kindOfElement e) lod e.tags rules ≠ [] := by
  unfold hasStyle
  rw [forElement_id env rules fc hok]
  cases hid : idRules env lod e.id rules with
  | cons ds rest => simp
  | nil =>
    simp only [List.head?_nil, Option.map_none]
    have := build_matched env e.tags P hi hs rules hm fc hok (kindOfElement e) lod
    have h2 : applied env (kindOfElement e) lod e.tags rules ≠ [] ↔ matched env e.tags (look (fc.filters (kindOfElement e)) lod) ≠ [] := by
      rw [this]; simp
    rw [h2]
    unfold matched look
    simp

/-- The blocks of canvas rules at a lod, whatever their conditions. -/
theorem StyleProof.build_canvas (env : Env D) (rules : List Rule) (fc : FilterCollection) (hok : build env rules = .ok fc) (lod : Nat) :
    (look (fc.filters .canvas) lod).map (·.declarations) =
      (rules.flatMap fun r => r.selectors.flatMap fun s => s.names.flatMap fun n =>
        if n = kindName .canvas ∧ (s.zoom.first.toNat ≤ lod ∧ lod ≤ s.zoom.last.toNat) then [r.declarations] else []).map (addDeclarations env) := by
  refine build_rel env (fun r s n => if n = kindName .canvas ∧ (s.zoom.first.toNat ≤ lod ∧ lod ≤ s.zoom.last.toNat) then [r.declarations] else [])
    (fun fc L => (look (fc.filters .canvas) lod).map (·.declarations) = L.map (addDeclarations env)) rules ?_ fc hok ?_
  · intro fc r s n fc' L hr hsel hadd hR
    unfold addName at hadd
    split at hadd
    · rename_i k hk
      rw [kindOf_name] at hk
      unfold addConditionRule at hadd
      cases hc : addConditions env s.conditions with
      | ok cs =>
        rw [hc] at hadd
        simp only [Outcome.bind, Outcome.ok.injEq] at hadd
        subst hadd
        simp only
        by_cases hkk : Kind.canvas = k
        · subst hkk
          rw [if_pos rfl]
          unfold addToFilterMap
          rw [fold_look (fun l => l ++ [({ conditions := sortConditions cs, declarations := addDeclarations env r.declarations } :
            ConditionFilter)]) _ (nodup_lods _)]
          rw [List.map_append, ← hR]
          by_cases hz : lod ∈ lods s.zoom
          · rw [if_pos hz, if_pos ⟨hk, (mem_lods _ _).1 hz⟩]
            simp
          · rw [if_neg hz, if_neg (fun h => hz ((mem_lods _ _).2 h.2))]
            simp
        · rw [if_neg hkk, if_neg]
          · simpa using hR
          · rintro ⟨h1, -⟩
            rw [hk] at h1
            apply hkk
            have := (kindOf_name (kindName k) k).2 rfl
            rw [h1] at this
            have h2 := (kindOf_name (kindName .canvas) .canvas).2 rfl
            rw [h2] at this; cases this; rfl
      | throw e => rw [hc] at hadd; cases hadd
      | ub w => rw [hc] at hadd; cases hadd
    · rename_i hk
      rw [if_neg]
      · split at hadd
        · have hf : fc'.filters = fc.filters := by
            unfold addIdentifierRule at hadd
            split at hadd
            · cases hadd; rfl
            · split at hadd
              · cases hadd
              · split at hadd
                · cases hadd
                · cases hadd; rfl
          rw [hf]; simpa using hR
        · cases hadd
      · rintro ⟨h, -⟩
        rw [(kindOf_name n .canvas).2 h] at hk; cases hk
  · simp [look, emptyFilters, Assoc.find]

/-- C28 (partial), the canvas: if canvas selectors have no conditions, its style consists of the declarations of all canvas rules of the lod, the last
one for a key winning. Missing: canvas selectors with conditions (`C28_violated_canvas_condition`). -/
theorem C28_canvas_partial (env : Env D) (rules : List Rule) (fc : FilterCollection) (hok : build env rules = .ok fc) (lod : Nat) (P : Str → Prop)
    (hm : Mentions rules P) (hb : ∀ s, P s → env.getString (env.getId s) = s) (tags : List Tag)
    (hc : ∀ r ∈ rules, ∀ s ∈ r.selectors, "canvas".toList ∈ s.names → s.conditions = []) :
    IsStyleOf env P (forCanvas env fc lod) (declared env .canvas lod tags rules) := by
  have h := build_canvas env rules fc hok lod
  have hspec : (rules.flatMap fun r => r.selectors.flatMap fun s => s.names.flatMap fun n =>
        if n = kindName .canvas ∧ (s.zoom.first.toNat ≤ lod ∧ lod ≤ s.zoom.last.toNat) then [r.declarations] else []) =
      applied env .canvas lod tags rules := by
    unfold applied
    refine List.flatMap_congr fun r hr => List.flatMap_congr fun s hs => List.flatMap_congr fun n hn => ?_
    by_cases h1 : n = kindName .canvas
    · have hcs := hc r hr s hs (by subst h1; exact hn)
      simp only [Applies, InZoom, hcs, List.not_mem_nil, false_implies, implies_true, and_true]
    · simp [h1]
  rw [hspec] at h
  have hfold : ∀ (fs : List ConditionFilter) (st : Style),
      fs.foldl (fun st f => f.declarations.foldl (put env) st) st = (fs.map (·.declarations)).flatten.foldl (put env) st := by
    intro fs
    induction fs with
    | nil => intro st; rfl
    | cons f fs ih => intro st; rw [List.foldl_cons, ih]; simp
  unfold forCanvas
  rw [hfold]
  unfold look at h
  rw [h, addDeclarations_flatten]
  refine isStyleOf_fold env P hb _ (fun d hd => ?_) hm.1
  simp only [applied, List.mem_flatten, List.mem_flatMap] at hd
  obtain ⟨ds, ⟨r, hr, s, -, n, -, hds⟩, hd⟩ := hd
  split at hds
  · simp only [List.mem_singleton] at hds; subst hds; exact (hm.2 r hr).1 d hd
  · cases hds

/-- C28 is violated: of two rules for the same id the first one wins, for every key, and what only the second declares is ignored. -/
theorem C28_violated_id_order (env : Env D) (idText : Str) (id : UInt64) (hcast : env.castId idText = some id)
    (hb : ∀ s ∈ ["builder".toList, ['a'], ['b'], "id".toList, idText], env.getString (env.getId s) = s) (tags : List Tag) (c : C) :
    let sel : Selector := ⟨["element".toList], ⟨1, 1⟩, [⟨"id".toList, "=".toList, idText⟩]⟩
    let rules : List Rule := [⟨[sel], [⟨['a'], ['1']⟩]⟩, ⟨[sel], [⟨['a'], ['2']⟩, ⟨['b'], ['3']⟩]⟩]
    ∃ fc, build env rules = .ok fc ∧ (forElement env fc (.node id tags c) 1).declarations.find (env.getId ['a']) = some ['1'] ∧
      (forElement env fc (.node id tags c) 1).declarations.find (env.getId ['b']) = none := by
  intro sel rules
  have hk : kindOf "element".toList = none := by decide
  have hl : lods ⟨1, 1⟩ = [1] := by decide
  have hok : ∃ fc, build env rules = .ok fc := by
    simp only [build, foldOutcome, rules, sel, addName, hk, addIdentifierRule, hcast, Outcome.bind, if_true]
    exact ⟨_, rfl⟩
  obtain ⟨fc, hok⟩ := hok
  refine ⟨fc, hok, ?_⟩
  have hid : idRules env 1 id rules = [[⟨['a'], ['1']⟩], [⟨['a'], ['2']⟩, ⟨['b'], ['3']⟩]] := by
    simp [idRules, rules, sel, hcast]
  have h := C28_identifier_partial env rules fc hok (.node id tags c : Element C) 1
    (fun s => s ∈ ["builder".toList, ['a'], ['b'], "id".toList, idText]) (by simp [Mentions, rules, sel]) hb _ _ hid
  exact ⟨(h.1 ['a'] (by simp)).trans (by decide), (h.1 ['b'] (by simp)).trans (by decide)⟩

/-- The style of the canvas ignores conditions of canvas selectors. -/
theorem C28_violated_canvas_condition (env : Env D) :
    ∃ fc, build env [⟨[⟨["canvas".toList], ⟨1, 1⟩, [⟨['k'], "=".toList, ['v']⟩]⟩], [⟨['a'], ['1']⟩]⟩] = .ok fc ∧
      (forCanvas env fc 1).declarations.find (env.getId ['a']) = some ['1'] ∧
      declared env .canvas 1 [] [⟨[⟨["canvas".toList], ⟨1, 1⟩, [⟨['k'], "=".toList, ['v']⟩]⟩], [⟨['a'], ['1']⟩]⟩] = [] := by
  have hk : kindOf "canvas".toList = some .canvas := by decide
  have ho : opOf "=".toList = some .equals := by decide
  have hl : lods ⟨1, 1⟩ = [1] := by decide
  refine ⟨_, by simp only [build, foldOutcome, addName, hk, addConditionRule, addConditions, ho, Outcome.bind]; rfl, ?_, ?_⟩
  · simp [forCanvas, emptyFilters, addToFilterMap, hl, Assoc.find, Assoc.set, Assoc.erase, addDeclarations, put, emptyStyle]
  · simp [declared, applied, Applies, Holds]

/-! ## C29 -/

/-- C29 (partial): on sorted tags a condition matches iff some tag has its key and satisfies the comparison. Missing: elements whose tags are not sorted
(`C29_violated_unsorted`) or repeat a key (`C29_violated_repeated_key`). -/
theorem C29_match_partial (env : Env D) (tags : List Tag) (P : Str → Prop) (hi : Interned env P tags) (hs : SortedFor env P tags) (c : Condition)
    (l : List ConditionType) (hok : addConditions env [c] = .ok l) (hP : P c.key ∧ P c.value ∧ c.key ≠ []) :
    l.all (matchTags env tags) = true ↔ Holds env tags c := by
  rw [addConditions_all env tags P hi hs [c] l hok (by simpa using hP)]; simp

/-- The operators which are accepted. -/
theorem C29_operators (env : Env D) (c : Condition) :
    (∃ l, addConditions env [c] = .ok l) ↔ c.operation = [] ∨ c.operation = ['='] ∨ c.operation = ['!', '='] ∨ c.operation = ['<'] ∨
      c.operation = ['>'] := by
  unfold addConditions opOf
  constructor
  · rintro ⟨l, hl⟩
    split_ifs at hl with h1 h2 h3 h4 h5
    · exact .inl h1
    · exact .inr (.inl h2)
    · exact .inr (.inr (.inl h3))
    · exact .inr (.inr (.inr (.inl h4)))
    · exact .inr (.inr (.inr (.inr h5)))
  · rintro (h | h | h | h | h) <;> (rw [h]; exact ⟨_, rfl⟩)

/-- C29 is violated for elements added through the C API, whose tags stay in the order of the caller (core/shared/Storage.hpp:72-79): the condition
`[k]` does not match an element which has the tag `k`. -/
theorem C29_violated_unsorted (env : Env D) (k k' : Str) (hlt : env.getId k < env.getId k') (v : UInt32)
    (hb : env.getString (env.getId k') = k') :
    let tags := [⟨env.getId k', v⟩, ⟨env.getId k, v⟩]
    Holds env tags ⟨k', [], []⟩ ∧ ∃ l, addConditions env [⟨k', [], []⟩] = .ok l ∧ l.all (matchTags env tags) = false := by
  intro tags
  refine ⟨⟨⟨env.getId k', v⟩, by simp [tags], by simp [hb], .inl ⟨rfl, trivial⟩⟩, _, rfl, ?_⟩
  have hne : env.getId k ≠ env.getId k' := fun h => by rw [h] at hlt; exact absurd hlt (UInt32.lt_irrefl _)
  have hnl : ¬ env.getId k' < env.getId k := fun h => absurd (UInt32.lt_trans hlt h) (UInt32.lt_irrefl _)
  simp [matchTags, tags, findTag, hne, hnl]

/-- C29 is violated for elements which repeat a key: only one of the tags is looked at. -/
theorem C29_violated_repeated_key (env : Env D) (k : Str) (v v' : Str) (hne : v ≠ v')
    (hb : ∀ s ∈ [k, v, v'], env.getString (env.getId s) = s) :
    let tags := [⟨env.getId k, env.getId v⟩, ⟨env.getId k, env.getId v'⟩]
    Holds env tags ⟨k, ['='], v⟩ ∧ ∃ l, addConditions env [⟨k, ['='], v⟩] = .ok l ∧ l.all (matchTags env tags) = false := by
  intro tags
  refine ⟨⟨⟨env.getId k, env.getId v⟩, by simp [tags], hb k (by simp), .inr (.inl ⟨rfl, hb v (by simp)⟩)⟩, _, rfl, ?_⟩
  have hne' : ¬ env.getId v' = env.getId v := fun h => hne ((getId_inj env (· ∈ [k, v, v']) hb v' v (by simp) (by simp)).1 h).symm
  simp [matchTags, matchTag, tags, findTag, hne']

/-! ## C30 -/

/-- C30 is violated: a rule for nodes and the same rule for ways give the same tag, whatever the hash, although the styles differ. -/
theorem C30_violated_kind (env : Env D) (md5 : Str → Str) :
    let sheet (n : Str) : List Rule := [⟨[⟨[n], ⟨1, 1⟩, [⟨['k'], [], []⟩]⟩], [⟨['a'], ['1']⟩]⟩]
    ∃ fc fc', build env (sheet "node".toList) = .ok fc ∧ build env (sheet "way".toList) = .ok fc' ∧ hashTag md5 fc = hashTag md5 fc' ∧
      (∀ id (c : C), (forElement env fc (.node id [⟨env.getId ['k'], 0⟩] c) 1).declarations.find (env.getId ['a']) = some ['1']) ∧
      (∀ id (c : C), (forElement env fc' (.node id [⟨env.getId ['k'], 0⟩] c) 1).declarations = []) := by
  intro sheet
  have hk : kindOf "node".toList = some .node := by decide
  have hk' : kindOf "way".toList = some .way := by decide
  have ho : opOf [] = some .exists_ := by decide
  have hl : lods ⟨1, 1⟩ = [1] := by decide
  refine ⟨_, _, by simp only [sheet, build, foldOutcome, addName, hk, addConditionRule, addConditions, ho, Outcome.bind]; rfl,
    by simp only [sheet, build, foldOutcome, addName, hk', addConditionRule, addConditions, ho, Outcome.bind]; rfl, ?_, ?_, ?_⟩
  · simp [hashTag, hashText, emptyFilters, mapTag, idTag, addToFilterMap, hl, Assoc.find, Assoc.set, Assoc.erase]
  · intro id c
    simp [forElement, buildFromIdentifier, buildFromCondition, emptyFilters, kindOfElement, addToFilterMap, hl, Assoc.find, Assoc.set,
      Assoc.erase, addDeclarations, put, emptyStyle, sortConditions, matchTags, matchTag, findTag, Element.tags]
  · intro id c
    simp [forElement, buildFromIdentifier, buildFromCondition, emptyFilters, kindOfElement, Assoc.find, emptyStyle]

namespace StyleProof

/-- The second text is the first one with the word `v` replaced by `v'` at some places, at least one if the flag is set. -/
inductive Repl (v v' : Str) : Bool → Str → Str → Prop
  | nil : Repl v v' false [] []
  | same (x : Str) {b s s'} : Repl v v' b s s' → Repl v v' b (x ++ s) (x ++ s')
  | sub {b s s'} : Repl v v' b s s' → Repl v v' true (v ++ s) (v' ++ s')

theorem Repl.append {v v' : Str} {b c : Bool} {s s' t t' : Str} (h : Repl v v' b s s') (k : Repl v v' c t t') :
    Repl v v' (b || c) (s ++ t) (s' ++ t') := by
  induction h with
  | nil => simpa using k
  | same x _ ih => simpa [List.append_assoc] using Repl.same x ih
  | sub _ ih => simpa [List.append_assoc] using Repl.sub ih

theorem Repl.refl (v v' s : Str) : Repl v v' false s s := by simpa using Repl.same (v := v) (v' := v') s .nil

theorem Repl.length {v v' : Str} {b : Bool} {s s' : Str} (h : Repl v v' b s s') :
    (v.length < v'.length → s.length ≤ s'.length ∧ (b = true → s.length < s'.length)) ∧
    (v'.length < v.length → s'.length ≤ s.length ∧ (b = true → s'.length < s.length)) ∧
    (v.length = v'.length → s.length = s'.length) := by
  induction h with
  | nil => simp
  | same x _ ih => simp only [List.length_append]; refine ⟨fun h => ?_, fun h => ?_, fun h => ?_⟩ <;> grind
  | sub _ ih => simp only [List.length_append]; refine ⟨fun h => ?_, fun h => ?_, fun h => ?_⟩ <;> grind

/-- Replacing a word by a different one changes the text. -/
theorem Repl.ne {v v' : Str} (hv : v ≠ v') {b : Bool} {s s' : Str} (h : Repl v v' b s s') (hs : s = s') : b = false := by
  rcases Nat.lt_trichotomy v.length v'.length with hl | hl | hl
  · cases b with
    | false => rfl
    | true => have := (h.length.1 hl).2 rfl; rw [hs] at this; omega
  · induction h with
    | nil => rfl
    | same x _ ih => exact ih (List.append_cancel_left hs)
    | sub _ _ => exact absurd (List.append_inj hs hl).1 hv
  · cases b with
    | false => rfl
    | true => have := (h.length.2.1 hl).2 rfl; rw [hs] at this; omega

/-- Things related by `R` have texts related by replacements, and are equal if there is none. -/
def Good (v v' : Str) {α : Type} (R : α → α → Prop) (f : α → Str) : Prop :=
  ∀ x x', R x x' → ∃ b, Repl v v' b (f x) (f x') ∧ (b = false → x = x')

theorem Good.list {v v' : Str} {α : Type} {R : α → α → Prop} {f : α → Str} (h : Good v v' R f) :
    Good v v' (List.Forall₂ R) (fun l => l.flatMap f) := by
  intro l l' hl
  induction hl with
  | nil => exact ⟨false, .nil, fun _ => rfl⟩
  | cons ha _ ih =>
    obtain ⟨b, h1, h2⟩ := h _ _ ha
    obtain ⟨c, h3, h4⟩ := ih
    refine ⟨b || c, by simpa using h1.append h3, fun hbc => ?_⟩
    rw [Bool.or_eq_false_iff] at hbc
    rw [h2 hbc.1, h4 hbc.2]

def RDecl (v v' : Str) (d d' : StyleDeclaration) : Prop := d' = d ∨ (d.value = v ∧ d' = ⟨d.key, v'⟩)
def RFilter (v v' : Str) (f f' : ConditionFilter) : Prop := f'.conditions = f.conditions ∧ List.Forall₂ (RDecl v v') f.declarations f'.declarations
def RMap (v v' : Str) : ConditionFilterMap → ConditionFilterMap → Prop :=
  List.Forall₂ fun p p' => p'.1 = p.1 ∧ List.Forall₂ (RFilter v v') p.2 p'.2
def RIds (v v' : Str) : Assoc UInt64 (List StyleDeclaration) → Assoc UInt64 (List StyleDeclaration) → Prop :=
  List.Forall₂ fun p p' => p'.1 = p.1 ∧ List.Forall₂ (RDecl v v') p.2 p'.2
def RIdMap (v v' : Str) : IdentifierFilterMap → IdentifierFilterMap → Prop :=
  List.Forall₂ fun p p' => p'.1 = p.1 ∧ RIds v v' p.2 p'.2
structure RColl (v v' : Str) (fc fc' : FilterCollection) : Prop where
  filters : ∀ k, RMap v v' (fc.filters k) (fc'.filters k)
  elements : RIdMap v v' fc.elements fc'.elements

theorem good_decls (v v' : Str) : Good v v' (List.Forall₂ (RDecl v v')) declTag := by
  refine Good.list (f := fun d : StyleDeclaration => dec d.key.toNat ++ d.value) ?_
  rintro d d' (rfl | ⟨h1, rfl⟩)
  · exact ⟨false, .refl .., fun _ => rfl⟩
  · refine ⟨true, ?_, by simp⟩
    simp only [h1]
    refine .same _ ?_
    simpa using Repl.sub (v := v) (v' := v') .nil

theorem good_map (v v' : Str) : Good v v' (RMap v v') mapTag := by
  refine Good.list (f := fun p : Nat × List ConditionFilter => dec p.1 ++ p.2.flatMap fun f => f.conditions.flatMap condTag ++ declTag f.declarations) ?_
  rintro ⟨n, fs⟩ ⟨n', fs'⟩ ⟨h1, h2⟩
  simp only at h1 h2
  subst h1
  have hf : Good v v' (RFilter v v') fun f => f.conditions.flatMap condTag ++ declTag f.declarations := by
    rintro ⟨c, d⟩ ⟨c', d'⟩ ⟨h1, h2⟩
    simp only at h1 h2
    subst h1
    obtain ⟨b, h3, h4⟩ := good_decls v v' _ _ h2
    exact ⟨b, .same _ h3, fun hb => by rw [h4 hb]⟩
  obtain ⟨b, h3, h4⟩ := hf.list _ _ h2
  exact ⟨b, .same _ h3, fun hb => by rw [h4 hb]⟩

theorem good_ids (v v' : Str) : Good v v' (RIdMap v v') idTag := by
  refine Good.list (f := fun p : Nat × Assoc UInt64 (List StyleDeclaration) => dec p.1 ++ p.2.flatMap fun e => dec e.1.toNat ++ declTag e.2) ?_
  rintro ⟨n, fs⟩ ⟨n', fs'⟩ ⟨h1, h2⟩
  simp only at h1 h2
  subst h1
  have hf : Good v v' (fun p p' : UInt64 × List StyleDeclaration => p'.1 = p.1 ∧ List.Forall₂ (RDecl v v') p.2 p'.2)
      fun e => dec e.1.toNat ++ declTag e.2 := by
    rintro ⟨c, d⟩ ⟨c', d'⟩ ⟨h1, h2⟩
    simp only at h1 h2
    subst h1
    obtain ⟨b, h3, h4⟩ := good_decls v v' _ _ h2
    exact ⟨b, .same _ h3, fun hb => by rw [h4 hb]⟩
  obtain ⟨b, h3, h4⟩ := hf.list _ _ h2
  exact ⟨b, .same _ h3, fun hb => by rw [h4 hb]⟩

theorem good_coll {v v' : Str} (hv : v ≠ v') {fc fc' : FilterCollection} (h : RColl v v' fc fc') (ht : hashText fc = hashText fc') : fc = fc' := by
  obtain ⟨b1, h1, e1⟩ := good_map v v' _ _ (h.filters .node)
  obtain ⟨b2, h2, e2⟩ := good_map v v' _ _ (h.filters .way)
  obtain ⟨b3, h3, e3⟩ := good_map v v' _ _ (h.filters .area)
  obtain ⟨b4, h4, e4⟩ := good_map v v' _ _ (h.filters .relation)
  obtain ⟨b5, h5, e5⟩ := good_map v v' _ _ (h.filters .canvas)
  obtain ⟨b6, h6, e6⟩ := good_ids v v' _ _ h.elements
  have hb := (((((h1.append h2).append h3).append h4).append h5).append h6).ne hv ht
  simp only [Bool.or_eq_false_iff] at hb
  obtain ⟨⟨⟨⟨⟨hb1, hb2⟩, hb3⟩, hb4⟩, hb5⟩, hb6⟩ := hb
  obtain ⟨f, e⟩ := fc
  obtain ⟨f', e'⟩ := fc'
  have : f = f' := by
    funext k
    cases k
    · exact e1 hb1
    · exact e2 hb2
    · exact e3 hb3
    · exact e4 hb4
    · exact e5 hb5
  have he : e = e' := e6 hb6
  rw [this, he]

theorem forall₂_refl {α : Type} {R : α → α → Prop} (h : ∀ a, R a a) (l : List α) : List.Forall₂ R l l := by
  induction l with
  | nil => exact .nil
  | cons a l ih => exact .cons (h a) ih

/-- Association lists with the same keys and related values. -/
theorem assoc_find {K V : Type} [DecidableEq K] {R : V → V → Prop} {m m' : Assoc K V}
    (h : List.Forall₂ (fun p p' : K × V => p'.1 = p.1 ∧ R p.2 p'.2) m m') (k : K) :
    (m.find k = none ∧ m'.find k = none) ∨ ∃ x x', m.find k = some x ∧ m'.find k = some x' ∧ R x x' := by
  induction h with
  | nil => left; simp [Assoc.find]
  | @cons p p' l l' hp _ ih =>
    obtain ⟨k1, x⟩ := p
    obtain ⟨k2, x'⟩ := p'
    obtain ⟨rfl, hR⟩ := hp
    by_cases hk : k2 = k
    · right; exact ⟨x, x', by simp [Assoc.find, hk], by simp [Assoc.find, hk], hR⟩
    · have e1 : Assoc.find ((k2, x) :: l) k = Assoc.find l k := by simp [Assoc.find, hk]
      have e2 : Assoc.find ((k2, x') :: l') k = Assoc.find l' k := by simp [Assoc.find, hk]
      rw [e1, e2]; exact ih

theorem assoc_erase {K V : Type} [DecidableEq K] {R : V → V → Prop} {m m' : Assoc K V}
    (h : List.Forall₂ (fun p p' : K × V => p'.1 = p.1 ∧ R p.2 p'.2) m m') (k : K) :
    List.Forall₂ (fun p p' : K × V => p'.1 = p.1 ∧ R p.2 p'.2) (m.erase k) (m'.erase k) := by
  induction h with
  | nil => simp [Assoc.erase]
  | @cons p p' l l' hp _ ih =>
    obtain ⟨k1, x⟩ := p
    obtain ⟨k2, x'⟩ := p'
    obtain ⟨rfl, hR⟩ := hp
    simp only [Assoc.erase, List.filter_cons] at ih ⊢
    split
    · exact .cons ⟨rfl, hR⟩ ih
    · exact ih

theorem assoc_set {K V : Type} [DecidableEq K] {R : V → V → Prop} {m m' : Assoc K V}
    (h : List.Forall₂ (fun p p' : K × V => p'.1 = p.1 ∧ R p.2 p'.2) m m') (k : K) {x x' : V} (hx : R x x') :
    List.Forall₂ (fun p p' : K × V => p'.1 = p.1 ∧ R p.2 p'.2) (m.set k x) (m'.set k x') := by
  unfold Assoc.set
  exact .cons ⟨rfl, hx⟩ (assoc_erase h k)

theorem assoc_emplace {K V : Type} [DecidableEq K] {R : V → V → Prop} {m m' : Assoc K V}
    (h : List.Forall₂ (fun p p' : K × V => p'.1 = p.1 ∧ R p.2 p'.2) m m') (k : K) {x x' : V} (hx : R x x') :
    List.Forall₂ (fun p p' : K × V => p'.1 = p.1 ∧ R p.2 p'.2) (m.emplace k x) (m'.emplace k x') := by
  unfold Assoc.emplace
  rcases assoc_find h k with ⟨h1, h2⟩ | ⟨y, y', h1, h2, -⟩
  · rw [h1, h2]; exact .cons ⟨rfl, hx⟩ h
  · rw [h1, h2]; exact h

theorem rdecls {v v' : Str} (env : Env D) {ds ds' : List Declaration} (h : List.Forall₂ (Edited v v') ds ds') :
    List.Forall₂ (RDecl v v') (addDeclarations env ds) (addDeclarations env ds') := by
  induction h with
  | nil => exact .nil
  | cons hd _ ih =>
    refine .cons ?_ ih
    rcases hd with rfl | ⟨h1, rfl⟩
    · exact .inl rfl
    · exact .inr ⟨h1, rfl⟩

/-- The same failure, or related results. -/
def ROut {α : Type} (R : α → α → Prop) : Outcome α → Outcome α → Prop
  | .ok a, .ok a' => R a a'
  | .throw e, .throw e' => e = e'
  | .ub e, .ub e' => e = e'
  | _, _ => False

theorem ROut.bind {α β : Type} {R : α → α → Prop} {S : β → β → Prop} {o o' : Outcome α} {f f' : α → Outcome β} (h : ROut R o o')
    (hf : ∀ a a', R a a' → ROut S (f a) (f' a')) : ROut S (o.bind f) (o'.bind f') := by
  cases o <;> cases o' <;> simp only [ROut] at h <;> simp only [Outcome.bind]
  · exact hf _ _ h
  · exact h
  · exact h

theorem ROut.fold {α β : Type} {R : β → β → Prop} {Q : α → α → Prop} {f f' : β → α → Outcome β}
    (hf : ∀ b b' a a', R b b' → Q a a' → ROut R (f b a) (f' b' a')) {l l' : List α} (hl : List.Forall₂ Q l l') :
    ∀ {b b'}, R b b' → ROut R (foldOutcome f b l) (foldOutcome f' b' l') := by
  induction hl with
  | nil => intro b b' h; exact h
  | cons ha _ ih =>
    intro b b' h
    exact (hf _ _ _ _ h ha).bind fun _ _ hh => ih hh

theorem fold_rel {α β : Type} {R : β → β → Prop} {f f' : β → α → β} (hf : ∀ b b' a, R b b' → R (f b a) (f' b' a)) (l : List α) :
    ∀ {b b'}, R b b' → R (l.foldl f b) (l.foldl f' b') := by
  induction l with
  | nil => intro b b' h; exact h
  | cons a l ih => intro b b' h; exact ih (hf _ _ _ h)

theorem look_rel {K V : Type} [DecidableEq K] {R : V → V → Prop} {m m' : Assoc K (List V)}
    (h : List.Forall₂ (fun p p' : K × List V => p'.1 = p.1 ∧ List.Forall₂ R p.2 p'.2) m m') (k : K) :
    List.Forall₂ R ((m.find k).getD []) ((m'.find k).getD []) := by
  rcases assoc_find h k with ⟨h1, h2⟩ | ⟨x, x', h1, h2, h3⟩
  · rw [h1, h2]; exact .nil
  · rw [h1, h2]; exact h3

theorem addName_rel {v v' : Str} (env : Env D) (sel : Selector) (n : Str) {r r' : Rule} (hr : List.Forall₂ (Edited v v') r.declarations r'.declarations)
    {fc fc' : FilterCollection} (h : RColl v v' fc fc') : ROut (RColl v v') (addName env fc r sel n) (addName env fc' r' sel n) := by
  unfold addName
  cases kindOf n with
  | some k =>
    simp only [addConditionRule]
    refine ROut.bind (R := fun a a' => a = a') ?_ ?_
    · cases addConditions env sel.conditions <;> simp [ROut]
    · rintro cs _ rfl
      refine ⟨fun k' => ?_, h.elements⟩
      simp only
      split
      · unfold addToFilterMap
        refine fold_rel (R := RMap v v') (fun m m' i hm => ?_) _ (h.filters k)
        refine assoc_set hm i ?_
        exact List.rel_append (look_rel hm i) (.cons ⟨rfl, rdecls env hr⟩ .nil)
      · exact h.filters k'
  | none =>
    simp only
    split
    · unfold addIdentifierRule
      revert hr
      generalize r.declarations = ds
      generalize r'.declarations = ds'
      intro hr
      cases hr with
      | nil => exact h
      | @cons d d' l l' hd hl =>
        simp only
        cases sel.conditions with
        | nil => simp [ROut]
        | cons c cs =>
          simp only
          cases env.castId c.value with
          | none => simp [ROut]
          | some id =>
            refine ⟨h.filters, ?_⟩
            simp only
            refine fold_rel (R := RIdMap v v') (fun m m' i hm => ?_) _ h.elements
            refine assoc_set hm i ?_
            refine assoc_emplace (R := List.Forall₂ (RDecl v v')) (look_rel hm i) id ?_
            exact rdecls env (.cons hd hl)
    · simp [ROut]

theorem build_edited {v v' : Str} (env : Env D) {rules rules' : List Rule} (h : EditedSheet v v' rules rules') :
    ROut (RColl v v') (build env rules) (build env rules') := by
  unfold build
  refine ROut.fold (fun fc fc' r r' hfc hr => ?_) h ⟨fun _ => .nil, .nil⟩
  obtain ⟨hsel, hds⟩ := hr
  rw [hsel]
  refine ROut.fold (Q := Eq) (fun fc fc' s s' hfc hs => ?_) (forall₂_refl (fun _ => rfl) _) hfc
  subst hs
  refine ROut.fold (Q := Eq) (fun fc fc' n n' hfc hn => ?_) (forall₂_refl (fun _ => rfl) _) hfc
  subst hn
  exact addName_rel env s n hds hfc

end StyleProof

/-- C30 (partial): if a stylesheet is edited by replacing a value by another one in any of its declarations and the tag stays the same, the two
stylesheets are indistinguishable: all elements and the canvas have the same style at every lod. The hash must not collide on the two texts. Missing:
the texts of other pairs of stylesheets may coincide (`C30_violated_kind`), and hashes may collide. -/
theorem C30_value_change_partial (env : Env D) (md5 : Str → Str) (rules rules' : List Rule) (v v' : Str) (hv : v ≠ v')
    (hedit : EditedSheet v v' rules rules') (fc fc' : FilterCollection) (hok : build env rules = .ok fc) (hok' : build env rules' = .ok fc')
    (hmd5 : md5 (hashText fc) = md5 (hashText fc') → hashText fc = hashText fc') (htag : hashTag md5 fc = hashTag md5 fc') :
    (∀ (e : Element C) lod, forElement env fc e lod = forElement env fc' e lod) ∧ ∀ lod, forCanvas env fc lod = forCanvas env fc' lod := by
  have h := build_edited env hedit
  rw [hok, hok'] at h
  have := good_coll hv h (hmd5 htag)
  subst this
  exact ⟨fun _ _ => rfl, fun _ => rfl⟩

namespace StyleExample

/-- A rule for nodes and one for an id. -/
def sheet (idText v : Str) : List Rule := [⟨[⟨["node".toList], ⟨1, 2⟩, []⟩], [⟨['a'], v⟩]⟩,
  ⟨[⟨["element".toList], ⟨1, 1⟩, [⟨['i', 'd'], ['='], idText⟩]⟩], [⟨['a'], v⟩]⟩]

theorem sheet_ok (env : Env D) (idText v : Str) (hcast : env.castId idText = some 7) : ∃ fc, build env (sheet idText v) = .ok fc := by
  have hk : kindOf "node".toList = some .node := by decide
  have hk' : kindOf "element".toList = none := by decide
  simp only [sheet, build, foldOutcome, addName, hk, hk', addConditionRule, addConditions, addIdentifierRule, hcast, Outcome.bind, if_true]
  exact ⟨_, rfl⟩

theorem sheet_ids (env : Env D) (idText v : Str) (hcast : env.castId idText = some 7) : idRules env 1 7 (sheet idText v) = [[⟨['a'], v⟩]] := by
  simp [idRules, sheet, hcast]

theorem sheet_style (env : Env D) (idText v : Str) (hcast : env.castId idText = some 7) (fc : FilterCollection)
    (h : build env (sheet idText v) = .ok fc) : (forElement env fc (.node 7 [] 0 : Element Nat) 1).declarations = [(env.getId ['a'], v)] := by
  have h1 := forElement_id env _ fc h (.node 7 [] 0 : Element Nat) 1
  have h2 := sheet_ids env idText v hcast
  unfold forElement
  rw [h1]
  have h3 : (Element.node 7 [] 0 : Element Nat).id = 7 := rfl
  rw [h3, h2]
  simp [put, addDeclarations, emptyStyle, Assoc.set, Assoc.erase]

/-- A canvas sheet for `C28_canvas_partial`: two rules, the second one wins. -/
def canvasSheet : List Rule := [⟨[⟨["canvas".toList], ⟨1, 2⟩, []⟩], [⟨['a'], ['1']⟩]⟩, ⟨[⟨["canvas".toList], ⟨2, 3⟩, []⟩], [⟨['a'], ['2']⟩]⟩]

theorem canvas_ok (env : Env D) : ∃ fc, build env canvasSheet = .ok fc := by
  have hk : kindOf "canvas".toList = some .canvas := by decide
  simp only [canvasSheet, build, foldOutcome, addName, hk, addConditionRule, addConditions, Outcome.bind]
  exact ⟨_, rfl⟩

theorem canvas_declared (env : Env D) : lastValue (declared env .canvas 2 [] canvasSheet) ['a'] = some ['2'] := by
  have h : applied env .canvas 2 [] canvasSheet = [[⟨['a'], ['1']⟩], [⟨['a'], ['2']⟩]] := by
    have h1 : ∀ z : Zoom, InZoom z 2 → Applies env 2 [] ⟨["canvas".toList], z, []⟩ := fun z hz => ⟨hz, by simp⟩
    simp only [applied, canvasSheet, List.flatMap_cons, List.flatMap_nil, List.append_nil]
    rw [if_pos ⟨rfl, h1 _ (by simp [InZoom])⟩, if_pos ⟨rfl, h1 _ (by simp [InZoom])⟩]
    rfl
  rw [declared, h]
  decide

example (env : Env D) (hb : ∀ s ∈ ["builder".toList, ['a']], env.getString (env.getId s) = s) :
    ∃ fc, build env canvasSheet = .ok fc ∧ (forCanvas env fc 2).declarations.find (env.getId ['a']) = some ['2'] := by
  obtain ⟨fc, hok⟩ := canvas_ok env
  refine ⟨fc, hok, ?_⟩
  have h := C28_canvas_partial env canvasSheet fc hok 2 (· ∈ ["builder".toList, ['a']]) (by simp [Mentions, canvasSheet]) hb [] (by simp [canvasSheet])
  exact (h.1 ['a'] (by simp)).trans (canvas_declared env)

/-- A case: the sheet edited in both rules; the tags differ, because the styles do. -/
example (env : Env D) (idText : Str) (hcast : env.castId idText = some 7) : EditedSheet ['1'] ['2'] (sheet idText ['1']) (sheet idText ['2']) ∧
    ∃ fc fc', build env (sheet idText ['1']) = .ok fc ∧ build env (sheet idText ['2']) = .ok fc' ∧ hashTag id fc ≠ hashTag id fc' := by
  have hedit : EditedSheet ['1'] ['2'] (sheet idText ['1']) (sheet idText ['2']) := by simp [EditedSheet, Edited, sheet]
  obtain ⟨fc, h1⟩ := sheet_ok env idText ['1'] hcast
  obtain ⟨fc', h1'⟩ := sheet_ok env idText ['2'] hcast
  refine ⟨hedit, fc, fc', h1, h1', fun ht => ?_⟩
  have := (C30_value_change_partial (C := Nat) env id _ _ _ _ (by decide) hedit fc fc' h1 h1' (fun h => h) ht).1 (.node 7 [] 0) 1
  have h2 := sheet_style env idText _ hcast fc h1
  rw [this, sheet_style env idText _ hcast fc' h1'] at h2
  simp at h2

end StyleExample

/-! ## A concrete case -/

namespace StyleExample

/-- A string table with these strings. -/
def table : List Str := ["builder".toList, ['k'], ['5'], ['7'], [], ['a'], ['x']]

def env : Env Nat where
  getId s := UInt32.ofNat (table.idxOf s)
  getString i := table.getD i.toNat []
  num s := s.foldl (fun n c => 10 * n + (c.toNat - 48)) 0
  lt a b := decide (a < b)
  castId s := if s = ['5'] then some 5 else none

/-- `node|z1-3[k<7] { a: 1; }  node|z2[k] { a: 2; builder: x; }  element|z2[id=5] {a: 3;}` -/
def rules : List Rule :=
  [⟨[⟨["node".toList], ⟨1, 3⟩, [⟨['k'], ['<'], ['7']⟩]⟩], [⟨['a'], ['1']⟩]⟩,
   ⟨[⟨["node".toList], ⟨2, 2⟩, [⟨['k'], [], []⟩]⟩], [⟨['a'], ['2']⟩, ⟨"builder".toList, ['x']⟩]⟩,
   ⟨[⟨["element".toList], ⟨2, 2⟩, [⟨['k'], ['='], ['5']⟩]⟩], [⟨['a'], ['3']⟩]⟩]

/-- A node with `k=5`. -/
def node : Element Nat := .node 1 [⟨1, 2⟩] 0

theorem interned : Interned env (· ∈ table) node.tags :=
  ⟨by decide, by decide⟩

theorem mentions : Mentions rules (· ∈ table) := by
  refine ⟨by decide, ?_⟩
  decide

theorem sorted : SortedFor env (· ∈ table) node.tags := ⟨by simp [node, Element.tags], by simp [node, Element.tags]⟩

/-- The hypotheses of the cascade theorem are met and the result is not trivial. -/
example : ∃ fc, build env rules = .ok fc ∧ IsStyleOf env (· ∈ table) (forElement env fc node 2)
    [⟨['a'], ['1']⟩, ⟨['a'], ['2']⟩, ⟨"builder".toList, ['x']⟩] ∧
    (forElement env fc node 2).declarations.find (env.getId ['a']) = some ['2'] := by
  have hok : ∃ fc, build env rules = .ok fc := ⟨_, rfl⟩
  obtain ⟨fc, hok⟩ := hok
  refine ⟨fc, hok, ?_⟩
  have h := C28_cascade_partial env rules fc hok node 2 (· ∈ table) mentions interned sorted (by decide)
  have h1 : Holds env node.tags ⟨['k'], ['<'], ['7']⟩ :=
    ⟨⟨1, 2⟩, by simp [node, Element.tags], by decide, .inr (.inr (.inr (.inl ⟨rfl, by decide⟩)))⟩
  have h2 : Holds env node.tags ⟨['k'], [], []⟩ :=
    ⟨⟨1, 2⟩, by simp [node, Element.tags], by decide, .inl ⟨rfl, trivial⟩⟩
  have hd : declared env (kindOfElement node) 2 node.tags rules = [⟨['a'], ['1']⟩, ⟨['a'], ['2']⟩, ⟨"builder".toList, ['x']⟩] := by
    have a1 : Applies env 2 node.tags ⟨["node".toList], ⟨1, 3⟩, [⟨['k'], ['<'], ['7']⟩]⟩ :=
      ⟨⟨by decide, by decide⟩, by intro c hc; rw [List.mem_singleton.1 hc]; exact h1⟩
    have a2 : Applies env 2 node.tags ⟨["node".toList], ⟨2, 2⟩, [⟨['k'], [], []⟩]⟩ :=
      ⟨⟨by decide, by decide⟩, by intro c hc; rw [List.mem_singleton.1 hc]; exact h2⟩
    have hne : ¬ "element".toList = kindName (kindOfElement node) := by decide
    unfold declared applied rules
    simp only [List.flatMap_cons, List.flatMap_nil]
    rw [if_pos ⟨rfl, a1⟩, if_pos ⟨rfl, a2⟩, if_neg (fun h => hne h.1)]
    rfl
  rw [hd] at h
  exact ⟨h, (h.1 ['a'] (by decide)).trans (by decide)⟩

/-- A node with an id rule. -/
example : idRules env 2 5 rules = [[⟨['a'], ['3']⟩]] := by decide

/-- The hypotheses of the violations are met. -/
example : env.castId ['5'] = some 5 ∧ (∀ s ∈ ["builder".toList, ['a'], ['x'], ['k'], ['5']], env.getString (env.getId s) = s) ∧
    env.getId ['k'] < env.getId ['a'] := by decide

end StyleExample

end Verif.Props
