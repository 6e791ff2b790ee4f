import Verif.Props.StyleTagSpec
import Verif.Props.Style

/-! # C28 and C30 continued: names of elements, edits of conditions -/
namespace Verif.Props
open Verif.Style Verif.StyleSpec Verif.StyleTagSpec

variable {C D : Type}

/-- C28: the rules for an element are those which have the name of its kind. -/
theorem C28_kind (e : Element C) : kindName (kindOfElement e) = nameOf e := by cases e <;> rfl

namespace StyleTagProof
open StyleProof

theorem dec_inj {m n : Nat} (h : dec m = dec n) : m = n := by
  have := congrArg (fun s => Nat.ofDigitChars 10 s 0) h
  simpa only [dec, Nat.ofDigitChars_toDigits (by decide : 1 < 10) (by decide : 10 ≤ 10)] using this

/-- Operation and value are read off the text. -/
theorem tail_inj {a b : OpType} {m n : Nat} (h : opTag a ++ dec m = opTag b ++ dec n) : a = b ∧ m = n := by
  cases a <;> cases b <;> simp [opTag] at h <;> exact ⟨rfl, dec_inj h⟩

/-- The compiled condition `x` is replaced by `y`. -/
def RCond (x y c c' : ConditionType) : Prop := c' = c ∨ (c = x ∧ c' = y)
def RFilter (x y : ConditionType) (f f' : ConditionFilter) : Prop := List.Forall₂ (RCond x y) f.conditions f'.conditions ∧ f'.declarations = f.declarations
def RMap (x y : ConditionType) : ConditionFilterMap → ConditionFilterMap → Prop := List.Forall₂ fun p p' => p'.1 = p.1 ∧ List.Forall₂ (RFilter x y) p.2 p'.2
structure RColl (x y : ConditionType) (fc fc' : FilterCollection) : Prop where
  filters : ∀ k, RMap x y (fc.filters k) (fc'.filters k)
  elements : fc'.elements = fc.elements

/-- The part of the text which changes. -/
def word (x : ConditionType) : Str := opTag x.type ++ dec x.value.toNat

theorem word_inj {x y : ConditionType} (hk : y.key = x.key) (h : word x = word y) : x = y := by
  obtain ⟨h1, h2⟩ := tail_inj h
  obtain ⟨k, v, o⟩ := x
  obtain ⟨k', v', o'⟩ := y
  simp only at hk h1 h2
  rw [hk, h1, UInt32.toNat_inj.1 h2]

theorem good_map {x y : ConditionType} (hk : y.key = x.key) : Good (word x) (word y) (RMap x y) mapTag := by
  refine Good.list (f := fun p : Nat × List ConditionFilter => dec p.1 ++ p.2.flatMap fun f => f.conditions.flatMap condTag ++ declTag f.declarations) ?_
  rintro ⟨n, fs⟩ ⟨n', fs'⟩ ⟨h1, h2⟩
  simp only at h1 h2
  subst h1
  have hc : Good (word x) (word y) (RCond x y) condTag := by
    rintro c c' (rfl | ⟨rfl, rfl⟩)
    · exact ⟨false, .refl .., fun _ => rfl⟩
    · refine ⟨true, ?_, by simp⟩
      have e1 : condTag c = dec c.key.toNat ++ (word c ++ []) := by simp [condTag, word]
      have e2 : condTag c' = dec c.key.toNat ++ (word c' ++ []) := by simp [condTag, word, hk]
      rw [e1, e2]
      exact .same _ (.sub .nil)
  have hf : Good (word x) (word y) (RFilter x y) fun f => f.conditions.flatMap condTag ++ declTag f.declarations := by
    rintro ⟨c, d⟩ ⟨c', d'⟩ ⟨h1, h2⟩
    simp only at h1 h2
    subst h2
    obtain ⟨b, h3, h4⟩ := hc.list _ _ h1
    exact ⟨b || false, h3.append (.refl ..), fun hb => by rw [h4 (by simpa using hb)]⟩
  obtain ⟨b, h3, h4⟩ := hf.list _ _ h2
  exact ⟨b, .same _ h3, fun hb => by rw [h4 hb]⟩

theorem good_coll {x y : ConditionType} (hk : y.key = x.key) (hne : x ≠ y) {fc fc' : FilterCollection} (h : RColl x y fc fc') (ht : hashText fc = hashText fc') : fc = fc' := by
  obtain ⟨b1, h1, e1⟩ := good_map hk _ _ (h.filters .node)
  obtain ⟨b2, h2, e2⟩ := good_map hk _ _ (h.filters .way)
  obtain ⟨b3, h3, e3⟩ := good_map hk _ _ (h.filters .area)
  obtain ⟨b4, h4, e4⟩ := good_map hk _ _ (h.filters .relation)
  obtain ⟨b5, h5, e5⟩ := good_map hk _ _ (h.filters .canvas)
  unfold hashText at ht
  rw [h.elements] at ht
  have hb := ((((h1.append h2).append h3).append h4).append h5).ne (fun he => hne (word_inj hk he)) (List.append_cancel_right ht)
  simp only [Bool.or_eq_false_iff] at hb
  obtain ⟨⟨⟨⟨hb1, hb2⟩, hb3⟩, hb4⟩, hb5⟩ := hb
  obtain ⟨f, e⟩ := fc
  obtain ⟨f', e'⟩ := fc'
  have hf : f = f' := by
    funext k
    cases k
    · exact e1 hb1
    · exact e2 hb2
    · exact e3 hb3
    · exact e4 hb4
    · exact e5 hb5
  have he : e' = e := h.elements
  rw [hf, he]

/-- If nothing is changed by an edit, the collections are the same. -/
theorem coll_refl {x : ConditionType} {fc fc' : FilterCollection} (h : RColl x x fc fc') : fc = fc' := by
  have hc : ∀ {l l' : List ConditionType}, List.Forall₂ (RCond x x) l l' → l = l' := by
    intro l l' h
    induction h with
    | nil => rfl
    | cons h _ ih =>
      rcases h with rfl | ⟨rfl, rfl⟩ <;> rw [ih]
  have hf : ∀ {l l' : List ConditionFilter}, List.Forall₂ (RFilter x x) l l' → l = l' := by
    intro l l' h
    induction h with
    | nil => rfl
    | @cons f f' _ _ h _ ih =>
      obtain ⟨c, d⟩ := f
      obtain ⟨c', d'⟩ := f'
      obtain ⟨h1, h2⟩ := h
      simp only at h1 h2
      rw [ih, hc h1, h2]
  have hm : ∀ {l l' : ConditionFilterMap}, RMap x x l l' → l = l' := by
    intro l l' h
    unfold RMap at h
    induction h with
    | nil => rfl
    | @cons p p' _ _ h _ ih =>
      obtain ⟨n, fs⟩ := p
      obtain ⟨n', fs'⟩ := p'
      obtain ⟨h1, h2⟩ := h
      simp only at h1 h2
      rw [ih, hf h2, h1]
  obtain ⟨f, e⟩ := fc
  obtain ⟨f', e'⟩ := fc'
  have h1 : f = f' := funext fun k => hm (h.filters k)
  have h2 : e' = e := h.elements
  rw [h1, h2]

theorem sort_rel {x y : ConditionType} (hk : y.key = x.key) {l l' : List ConditionType} (h : List.Forall₂ (RCond x y) l l') :
    List.Forall₂ (RCond x y) (sortConditions l) (sortConditions l') := by
  obtain ⟨ps, h1, h2, h3⟩ : ∃ ps : List (ConditionType × ConditionType), ps.map Prod.fst = l ∧ ps.map Prod.snd = l' ∧ ∀ p ∈ ps, RCond x y p.1 p.2 := by
    induction h with
    | nil => exact ⟨[], rfl, rfl, by simp⟩
    | @cons a b _ _ hab _ ih =>
      obtain ⟨ps, h1, h2, h3⟩ := ih
      refine ⟨(a, b) :: ps, by rw [List.map_cons, h1], by rw [List.map_cons, h2], fun p hp => ?_⟩
      rcases List.mem_cons.1 hp with rfl | hp
      · exact hab
      · exact h3 p hp
  have hkey : ∀ p ∈ ps, p.2.key = p.1.key := by
    intro p hp
    rcases h3 p hp with h | ⟨ha, hb⟩
    · rw [h]
    · rw [ha, hb, hk]
  unfold sortConditions
  rw [← h1, ← h2, ← List.map_mergeSort (r := fun p q : ConditionType × ConditionType => decide (q.1.key ≤ p.1.key)) (fun _ _ _ _ => rfl),
    ← List.map_mergeSort (r := fun p q : ConditionType × ConditionType => decide (q.1.key ≤ p.1.key)) (fun p hp q hq => by simp only [hkey p hp, hkey q hq])]
  rw [List.forall₂_map_left_iff, List.forall₂_map_right_iff]
  exact List.forall₂_same.2 fun p hp => h3 p ((List.mergeSort_perm ps _).subset hp)

theorem conditions_rel (env : Env D) {a b : Condition} {oa ob : OpType} (ha : opOf a.operation = some oa) (hb : opOf b.operation = some ob) {cs cs' : List Condition}
    (h : List.Forall₂ (EditedCondition a b) cs cs') :
    ROut (List.Forall₂ (RCond ⟨env.getId a.key, env.getId a.value, oa⟩ ⟨env.getId b.key, env.getId b.value, ob⟩)) (addConditions env cs) (addConditions env cs') := by
  induction h with
  | nil => exact .nil
  | @cons c c' l l' hc _ ih =>
    unfold addConditions
    rcases hc with rfl | ⟨rfl, rfl⟩
    · cases opOf c'.operation with
      | none => simp [ROut]
      | some o =>
        simp only
        exact ih.bind fun _ _ hl => .cons (.inl rfl) hl
    · rw [ha, hb]
      simp only
      exact ih.bind fun _ _ hl => .cons (.inr ⟨rfl, rfl⟩) hl

theorem build_edited (env : Env D) {a b : Condition} {oa ob : OpType} (ha : opOf a.operation = some oa) (hb : opOf b.operation = some ob) (hk : b.key = a.key)
    {rules rules' : List Rule} (h : EditedConditions a b rules rules') :
    ROut (RColl ⟨env.getId a.key, env.getId a.value, oa⟩ ⟨env.getId b.key, env.getId b.value, ob⟩) (build env rules) (build env rules') := by
  have hkey : (⟨env.getId b.key, env.getId b.value, ob⟩ : ConditionType).key = (⟨env.getId a.key, env.getId a.value, oa⟩ : ConditionType).key := by simp only [hk]
  unfold build
  refine ROut.fold (fun fc fc' r r' hfc hr => ?_) h ⟨fun _ => .nil, rfl⟩
  obtain ⟨hsel, hds⟩ := hr
  refine ROut.fold (fun fc fc' s s' hfc hs => ?_) hsel hfc
  obtain ⟨hn, hz, hc, he⟩ := hs
  rw [hn]
  have hmem : ∀ names : List Str, (∀ n ∈ names, n ∈ s.names) → List.Forall₂ (fun n n' => n = n' ∧ n ∈ s.names) names names := by
    intro names hsub
    exact List.forall₂_same.2 fun n hn => ⟨rfl, hsub n hn⟩
  refine ROut.fold (fun fc fc' n n' hfc hn => ?_) (hmem _ fun _ h => h) hfc
  obtain ⟨rfl, hn⟩ := hn
  unfold addName
  cases kindOf n with
  | some k =>
    simp only [addConditionRule]
    refine (conditions_rel env ha hb hc).bind fun cs cs' hcs => ⟨fun k' => ?_, hfc.elements⟩
    simp only
    split
    · unfold addToFilterMap
      rw [hz]
      refine fold_rel (R := RMap _ _) (fun m m' i hm => ?_) _ (hfc.filters k)
      refine assoc_set hm i ?_
      exact List.rel_append (look_rel hm i) (.cons ⟨sort_rel hkey hcs, by simp only [hds]⟩ .nil)
    · exact hfc.filters k'
  | none =>
    simp only
    split
    · rename_i hel
      rw [he (hel ▸ hn), hds]
      unfold addIdentifierRule
      cases r.declarations with
      | nil => exact hfc
      | cons d ds =>
        simp only
        cases s.conditions with
        | nil => simp [ROut]
        | cons c cs =>
          simp only
          cases env.castId c.value with
          | none => simp [ROut]
          | some id => exact ⟨hfc.filters, by simp only [hfc.elements]⟩
    · simp [ROut]

theorem opOf_some {o : Str} (h : o ∈ operations) : ∃ x, opOf o = some x := by
  simp only [operations, List.mem_cons, List.not_mem_nil, or_false] at h
  rcases h with rfl | rfl | rfl | rfl | rfl
  exacts [⟨.exists_, by decide⟩, ⟨.equals, by decide⟩, ⟨.notEquals, by decide⟩, ⟨.less, by decide⟩, ⟨.greater, by decide⟩]

end StyleTagProof
open StyleTagProof StyleProof

/-- C30 (partial): if a stylesheet is edited by giving a condition another operation or value, in any of its selectors, and the tag stays the same, then all elements and the canvas have the
same style at every lod. The hash must not collide on the two texts. Missing: conditions on other keys, conditions which are added or removed, selectors for ids, other hashes. -/
theorem C30_condition_partial (env : Env D) (md5 : Str → Str) (rules rules' : List Rule) (a b : Condition) (ha : a.operation ∈ operations) (hb : b.operation ∈ operations)
    (hk : b.key = a.key) (hedit : EditedConditions a b rules rules') (fc fc' : FilterCollection) (hok : build env rules = .ok fc) (hok' : build env rules' = .ok fc')
    (hmd5 : md5 (hashText fc) = md5 (hashText fc') → hashText fc = hashText fc') (htag : hashTag md5 fc = hashTag md5 fc') :
    (∀ (e : Element C) lod, forElement env fc e lod = forElement env fc' e lod) ∧ ∀ lod, forCanvas env fc lod = forCanvas env fc' lod := by
  obtain ⟨oa, ha⟩ := opOf_some ha
  obtain ⟨ob, hb⟩ := opOf_some hb
  have h := build_edited env ha hb hk hedit
  rw [hok, hok'] at h
  have hfc : fc = fc' := by
    by_cases hne : (⟨env.getId a.key, env.getId a.value, oa⟩ : ConditionType) = ⟨env.getId b.key, env.getId b.value, ob⟩
    · have h' : RColl (⟨env.getId a.key, env.getId a.value, oa⟩ : ConditionType) ⟨env.getId b.key, env.getId b.value, ob⟩ fc fc' := h
      rw [← hne] at h'
      exact coll_refl h'
    · exact StyleTagProof.good_coll (by simp only [hk]) hne h (hmd5 htag)
  subst hfc
  exact ⟨fun _ _ => rfl, fun _ => rfl⟩

/-- `node|z1-2[k<5] { a: 1; }` becomes `node|z1-2[k>7] { a: 1; }`; both are accepted. -/
example (env : Env D) : let sheet (c : Condition) : List Rule := [⟨[⟨["node".toList], ⟨1, 2⟩, [c]⟩], [⟨['a'], ['1']⟩]⟩]
    EditedConditions ⟨['k'], ['<'], ['5']⟩ ⟨['k'], ['>'], ['7']⟩ (sheet ⟨['k'], ['<'], ['5']⟩) (sheet ⟨['k'], ['>'], ['7']⟩) ∧
      (∃ fc, build env (sheet ⟨['k'], ['<'], ['5']⟩) = .ok fc) ∧ ∃ fc, build env (sheet ⟨['k'], ['>'], ['7']⟩) = .ok fc := by
  intro sheet
  have hk : kindOf "node".toList = some .node := by decide
  have h1 : opOf ['<'] = some .less := by decide
  have h2 : opOf ['>'] = some .greater := by decide
  refine ⟨.cons ⟨.cons ⟨rfl, rfl, .cons (.inr ⟨rfl, rfl⟩) .nil, fun h => absurd h (by decide)⟩ .nil, rfl⟩ .nil, ?_, ?_⟩
  · simp only [sheet, build, foldOutcome, addName, hk, addConditionRule, addConditions, h1, Outcome.bind]
    exact ⟨_, rfl⟩
  · simp only [sheet, build, foldOutcome, addName, hk, addConditionRule, addConditions, h2, Outcome.bind]
    exact ⟨_, rfl⟩

end Verif.Props
