import Verif.Props.StyleEvalSpec
import Verif.Props.Style

/-! # C31: style expressions -/
namespace Verif.Props
open Verif.Style Verif.StyleSpec
open Verif.StyleEval Verif.StyleEvalSpec

namespace StyleEvalProof
variable {D : Type}

theorem skip_blank (b s : Str) (h : Blank b) : skip (b ++ s) = skip s := by
  induction b with
  | nil => rfl
  | cons c b ih =>
    have hc : StyleEval.isSpace c = true := by
      rcases h c (by simp) with rfl | rfl <;> rfl
    rw [List.cons_append, skip, List.dropWhile_cons_of_pos hc]
    exact ih fun d hd => h d (by simp [hd])

theorem skip_solid (c : Char) (s : Str) (h : StyleEval.isSpace c = false) : skip (c :: s) = c :: s := by
  simp [skip, h]

theorem lit_append (p s : Str) : lit p (p ++ s) = some s := by
  simp [lit]

theorem quoted_append (s r : Str) (h : Quotable s) : quoted (s ++ '\'' :: r) = some (s, '\'' :: r) := by
  have hq : ∀ c ∈ s, isQuoted c = true := by
    intro c hc
    obtain ⟨h1, h2⟩ := h.2 c hc
    simp [isQuoted, h1, h2]
  have h0 : isQuoted '\'' = false := rfl
  have ht : (s ++ '\'' :: r).takeWhile isQuoted = s := by
    rw [List.takeWhile_append_of_pos hq]; simp [h0]
  have hd : (s ++ '\'' :: r).dropWhile isQuoted = '\'' :: r := by
    rw [List.dropWhile_append_of_pos hq]; simp [h0]
  rw [quoted, ht, hd]
  obtain ⟨hne, -⟩ := h
  cases s with
  | nil => exact absurd rfl hne
  | cons c s => rfl

/-- The operand which the parser makes of a literal. -/
inductive Parsed (ar : Arith D) : Lit → Operand D → Prop
  | numeral {w v} : IsNumeral ar w v → Parsed ar (.numeral w) (.num v)
  | text {s} : Parsed ar (.text s) (.str s)
  | tag {k} : Parsed ar (.tag k) (.tag k)

theorem parsed_exists (ar : Arith D) (l : Lit) (h : l.Valid ar) : ∃ o, Parsed ar l o := by
  cases l with
  | numeral w => obtain ⟨v, hv⟩ := h; exact ⟨_, .numeral hv⟩
  | text s => exact ⟨_, .text⟩
  | tag k => exact ⟨_, .tag⟩

theorem parseOperand_render (ar : Arith D) (hs : Sane ar) (b rest : Str) (hb : Blank b) (l : Lit) (hl : l.Valid ar)
    (hr : Delimited rest) (o : Operand D) (ho : Parsed ar l o) :
    parseOperand ar (b ++ (l.render ++ rest)) = some (o, rest) := by
  cases ho with
  | @numeral w v hv =>
    obtain ⟨⟨c, r, hw, hc⟩, hp⟩ := hv
    have : skip (b ++ (w ++ rest)) = w ++ rest := by
      rw [skip_blank b _ hb, hw, List.cons_append, skip_solid _ _ hc]
    simp only [parseOperand, Lit.render, this, hp rest hr]
  | @text s =>
    have h1 : skip (b ++ ((Lit.text s).render ++ rest)) = '\'' :: (s ++ '\'' :: rest) := by
      rw [skip_blank b _ hb]
      simp only [Lit.render, List.cons_append, List.append_assoc, List.nil_append]
      exact skip_solid _ _ rfl
    have h2 : parseTag (b ++ ((Lit.text s).render ++ rest)) = none := by
      rw [parseTag, h1]; rfl
    have h3 : parseString (b ++ ((Lit.text s).render ++ rest)) = some (s, rest) := by
      rw [parseString, h1]
      have := lit_append ['\''] (s ++ '\'' :: rest)
      have h5 := lit_append ['\''] rest
      simp only [show ['\''] = ['\''] from rfl, List.cons_append, List.nil_append] at this h5 ⊢
      simp [this, quoted_append s rest hl, h5]
    rw [parseOperand, h1, (hs _).1, h2]
    simp only [h3]
    rfl
  | @tag k =>
    have h1 : skip (b ++ ((Lit.tag k).render ++ rest)) = ['t', 'a', 'g', '(', '\''] ++ (k ++ '\'' :: ')' :: rest) := by
      rw [skip_blank b _ hb]
      simp only [Lit.render, List.append_assoc]
      exact skip_solid _ _ rfl
    have h2 : parseTag (b ++ ((Lit.tag k).render ++ rest)) = some (k, rest) := by
      rw [parseTag, h1, lit_append]
      have h5 := lit_append ['\'', ')'] rest
      simp only [show ['\'', ')'] = ['\'', ')'] from rfl, List.cons_append, List.nil_append] at h5 ⊢
      simp [quoted_append k _ hl, h5]
    rw [parseOperand, h1]
    rw [show ['t', 'a', 'g', '(', '\''] ++ (k ++ '\'' :: ')' :: rest) = 't' :: (['a', 'g', '(', '\''] ++ (k ++ '\'' :: ')' :: rest)) from rfl, (hs _).2, h2]

theorem delimited_tail (ts : List Term) (h : ∀ t ∈ ts, Blank t.before ∧ t.operator ∈ ['+', '-', '*', '/']) (a : Str) (ha : Blank a) :
    Delimited (ts.flatMap Term.render ++ (a ++ ['"', ')'])) := by
  have key : ∀ (b : Str) (c : Char) (r : Str), Blank b → c ∈ [' ', '\t', '+', '-', '*', '/', '"'] → Delimited (b ++ c :: r) := by
    intro b c r hb hc
    cases b with
    | nil => exact ⟨c, r, rfl, hc⟩
    | cons d b => exact ⟨d, _, rfl, by rcases hb d (by simp) with rfl | rfl <;> simp⟩
  cases ts with
  | nil => exact key a '"' [')'] ha (by simp)
  | cons t ts =>
    obtain ⟨hb, ho⟩ := h t (by simp)
    simp only [List.flatMap_cons, Term.render, List.append_assoc, List.cons_append]
    exact key t.before _ _ hb (by simp at ho ⊢; tauto)

inductive ParsedAll (ar : Arith D) : List Term → List (Operation D) → Prop
  | nil : ParsedAll ar [] []
  | cons {t ts o os} : Parsed ar t.operand o → ParsedAll ar ts os → ParsedAll ar (t :: ts) (⟨t.operator, o⟩ :: os)

theorem isSpace_op {c : Char} (h : c ∈ ['+', '-', '*', '/']) : StyleEval.isSpace c = false := by
  simp at h
  rcases h with rfl | rfl | rfl | rfl <;> rfl

theorem parseOperation_render (ar : Arith D) (hs : Sane ar) (t : Term) (rest : Str) (hb : Blank t.before) (ha : Blank t.after)
    (ho : t.operator ∈ ['+', '-', '*', '/']) (hl : t.operand.Valid ar) (hr : Delimited rest) (o : Operand D)
    (hp : Parsed ar t.operand o) : parseOperation ar (t.render ++ rest) = some (⟨t.operator, o⟩, rest) := by
  have h1 : skip (t.render ++ rest) = t.operator :: (t.after ++ (t.operand.render ++ rest)) := by
    simp only [Term.render, List.append_assoc, List.cons_append]
    rw [skip_blank _ _ hb, skip_solid _ _ (isSpace_op ho)]
  rw [parseOperation, h1]
  have : (t.operator = '+' || t.operator = '-' || t.operator = '/' || t.operator = '*') = true := by
    simp at ho ⊢; tauto
  simp only [this, if_true]
  rw [parseOperand_render ar hs _ _ ha _ hl hr o hp]
  rfl

theorem parseOperations_render (ar : Arith D) (hs : Sane ar) (a : Str) (ha : Blank a) (ts : List Term) :
    (∀ t ∈ ts, Blank t.before ∧ Blank t.after ∧ t.operator ∈ ['+', '-', '*', '/'] ∧ t.operand.Valid ar) →
    ∀ os, ParsedAll ar ts os → ∀ n, ts.length ≤ n →
    parseOperations ar n (ts.flatMap Term.render ++ (a ++ ['"', ')'])) = (os, a ++ ['"', ')']) := by
  induction ts with
  | nil =>
    intro _ os hos n _
    cases hos
    have : parseOperation ar (a ++ ['"', ')']) = none := by
      rw [parseOperation, skip_blank _ _ ha]; rfl
    cases n with
    | zero => rfl
    | succ n => simp only [List.flatMap_nil, List.nil_append, parseOperations, this]
  | cons t ts ih =>
    intro h os hos n hn
    cases hos with
    | @cons _ _ o os hp hps =>
    obtain ⟨n, rfl⟩ : ∃ m, n = m + 1 := ⟨n - 1, by simp at hn; omega⟩
    obtain ⟨hb, hf, ho, hl⟩ := h t (by simp)
    have hd := delimited_tail ts (fun u hu => ⟨(h u (by simp [hu])).1, (h u (by simp [hu])).2.2.1⟩) a ha
    rw [List.flatMap_cons, List.append_assoc, parseOperations, parseOperation_render ar hs t _ hb hf ho hl hd o hp]
    simp only [ih (fun u hu => h u (by simp [hu])) os hps n (by simpa using hn)]

theorem length_le_flatMap (ts : List Term) : ts.length ≤ (ts.flatMap Term.render).length := by
  induction ts with
  | nil => simp
  | cons t ts ih =>
    have h1 : 1 ≤ t.render.length := by simp [Term.render]; omega
    rw [List.flatMap_cons, List.length_append, List.length_cons]
    omega

theorem parse_render (ar : Arith D) (hs : Sane ar) (e : Expr) (he : e.Valid ar) (o : Operand D) (os : List (Operation D))
    (ho : Parsed ar e.first o) (hos : ParsedAll ar e.rest os) : parse ar e.render = some ⟨o, os⟩ := by
  obtain ⟨hb, ha, hf, hr⟩ := he
  have h0 : skip e.render = ['e', 'v', 'a', 'l', '(', '"'] ++ (e.before ++ (e.first.render ++ (e.rest.flatMap Term.render ++ (e.after ++ ['"', ')'])))) := by
    rw [Expr.render]
    simp only [List.append_assoc]
    rw [show ['e', 'v', 'a', 'l', '(', '"'] = 'e' :: ['v', 'a', 'l', '(', '"'] from rfl, List.cons_append]
    exact skip_solid _ _ rfl
  have hd := delimited_tail e.rest (fun u hu => ⟨(hr u hu).1, (hr u hu).2.2.1⟩) e.after ha
  have h1 := parseOperand_render ar hs e.before _ hb e.first hf hd o ho
  have h2 := parseOperations_render ar hs e.after ha e.rest hr os hos
    (e.rest.flatMap Term.render ++ (e.after ++ ['"', ')'])).length
    (by have := length_le_flatMap e.rest; rw [List.length_append]; omega)
  have h3 : skip (e.after ++ ['"', ')']) = ['"', ')'] ++ [] := by
    rw [skip_blank _ _ ha]; rfl
  rw [parse, h0, lit_append]
  simp only [Option.bind_eq_bind, Option.bind_some, h1, h2, h3, lit_append]
  rfl

theorem parsedAll_exists (ar : Arith D) (ts : List Term) (h : ∀ t ∈ ts, t.operand.Valid ar) : ∃ os, ParsedAll ar ts os := by
  induction ts with
  | nil => exact ⟨_, .nil⟩
  | cons t ts ih =>
    obtain ⟨o, ho⟩ := parsed_exists ar _ (h t (by simp))
    obtain ⟨os, hos⟩ := ih fun u hu => h u (by simp [hu])
    exact ⟨_, .cons ho hos⟩

theorem tagString_of (env : Env D) (tags : List Tag) (hs : TagsSorted tags) (value : Str → Str) (k : Str)
    (h : HasTags env tags value (.tag k)) : tagString env tags k = .ok (value k) := by
  obtain ⟨t, ht, hk, hv, hg⟩ := h
  rw [tagString, StyleProof.findTag_complete _ tags hs t ht hk]
  simp only [if_neg hv, hg]

theorem numeral_unique (ar : Arith D) (w : Str) (v v' : D) (h : IsNumeral ar w v) (h' : IsNumeral ar w v') : v = v' := by
  have hd : Delimited [' '] := ⟨' ', [], rfl, by simp⟩
  have := (h.2 _ hd).symm.trans (h'.2 _ hd)
  simpa using this

theorem evalOperand_of (ar : Arith D) (env : Env D) (tags : List Tag) (hs : TagsSorted tags) (value : Str → Str) (l : Lit)
    (h : HasTags env tags value l) (o : Operand D) (ho : Parsed ar l o) (v : D) (hv : Means ar env.num value l v) :
    evalOperand ar env tags o = .ok v := by
  cases hv with
  | numeral hn => cases ho with | numeral hn' => rw [numeral_unique ar _ _ _ hn hn']; rfl
  | text => cases ho; rfl
  | tag => cases ho; simp only [evalOperand, tagString_of env tags hs value _ h]; rfl

theorem strOperand_of (ar : Arith D) (env : Env D) (tags : List Tag) (hs : TagsSorted tags) (value : Str → Str) (l : Lit)
    (h : HasTags env tags value l) (o : Operand D) (ho : Parsed ar l o) (v : Str) (hv : Spells ar value l v) :
    strOperand ar env tags o = .ok v := by
  cases hv with
  | numeral hn => cases ho with | numeral hn' => rw [numeral_unique ar _ _ _ hn hn']; rfl
  | text => cases ho; rfl
  | tag => cases ho; simp only [strOperand, tagString_of env tags hs value _ h]

theorem applyOp_of (ar : Arith D) (c : Char) (a b r : D) (h : Applied ar c a b r) : applyOp ar c a b = r := by
  cases h <;> rfl

theorem eval_rest (ar : Arith D) (env : Env D) (tags : List Tag) (hs : TagsSorted tags) (value : Str → Str) (ts : List Term)
    (h : ∀ t ∈ ts, HasTags env tags value t.operand) :
    ∀ os, ParsedAll ar ts os → ∀ v r, LeftToRight ar env.num value v ts r →
    foldOutcome (fun v (o : Operation D) => (evalOperand ar env tags o.operand).bind fun w => .ok (applyOp ar o.operator v w)) v os
      = .ok r := by
  induction ts with
  | nil => intro os hos v r hr; cases hos; cases hr; rfl
  | cons t ts ih =>
    intro os hos v r hr
    cases hos with
    | cons hp hps =>
    cases hr with
    | step hm ha hl =>
    rw [foldOutcome, evalOperand_of ar env tags hs value _ (h t (by simp)) _ hp _ hm]
    simp only [Outcome.bind, applyOp_of ar _ _ _ _ ha]
    exact ih (fun u hu => h u (by simp [hu])) _ hps _ _ hl

theorem string_rest (ar : Arith D) (env : Env D) (tags : List Tag) (hs : TagsSorted tags) (value : Str → Str) (ts : List Term)
    (h : ∀ t ∈ ts, HasTags env tags value t.operand) (hplus : ∀ t ∈ ts, t.operator = '+') :
    ∀ os, ParsedAll ar ts os → ∀ ws, List.Forall₂ (fun t w => Spells ar value t.operand w) ts ws → ∀ v : Str,
    foldOutcome (fun v (o : Operation D) => (strOperand ar env tags o.operand).bind fun w =>
      if o.operator = '+' then .ok (v ++ w) else .throw "domain_error") v os = .ok (v ++ ws.flatten) := by
  induction ts with
  | nil => intro os hos ws hw v; cases hos; cases hw; simp [foldOutcome]
  | cons t ts ih =>
    intro os hos ws hw v
    cases hos with
    | cons hp hps =>
    cases hw with
    | cons hm hw =>
    rw [foldOutcome, strOperand_of ar env tags hs value _ (h t (by simp)) _ hp _ hm]
    have := ih (fun u hu => h u (by simp [hu])) (fun u hu => hplus u (by simp [hu])) _ hps _ hw
    rw [hplus t (by simp)]
    exact (this _).trans (by simp)

theorem string_bad (ar : Arith D) (env : Env D) (tags : List Tag) (hs : TagsSorted tags) (value : Str → Str) (ts : List Term)
    (h : ∀ t ∈ ts, HasTags env tags value t.operand) (hv : ∀ t ∈ ts, t.operand.Valid ar) (hbad : ∃ t ∈ ts, t.operator ≠ '+') :
    ∀ os, ParsedAll ar ts os → ∀ v : Str,
    foldOutcome (fun v (o : Operation D) => (strOperand ar env tags o.operand).bind fun w =>
      if o.operator = '+' then .ok (v ++ w) else .throw "domain_error") v os = .throw "domain_error" := by
  induction ts with
  | nil => simp at hbad
  | cons t ts ih =>
    intro os hos v
    cases hos with
    | @cons _ _ o os hp hps =>
    obtain ⟨w, hw⟩ : ∃ w, Spells ar value t.operand w := by
      have := hv t (by simp)
      revert this
      cases t.operand with
      | numeral w => rintro ⟨v, hv⟩; exact ⟨_, .numeral hv⟩
      | text s => intro _; exact ⟨_, .text⟩
      | tag k => intro _; exact ⟨_, .tag⟩
    rw [foldOutcome, strOperand_of ar env tags hs value _ (h t (by simp)) _ hp _ hw]
    by_cases hc : t.operator = '+'
    · simp only [Outcome.bind, hc, if_true]
      refine ih (fun u hu => h u (by simp [hu])) (fun u hu => hv u (by simp [hu])) ?_ _ hps _
      obtain ⟨u, hu, hne⟩ := hbad
      rcases List.mem_cons.1 hu with rfl | hu
      · exact absurd hc hne
      · exact ⟨u, hu, hne⟩
    · simp only [Outcome.bind, hc, if_false]

theorem render_last (e : Expr) : e.render.getLast? = some ')' := by
  rw [Expr.render, List.getLast?_append, show ['"', ')'] = ['"', ')'] from rfl]; rfl

end StyleEvalProof

open StyleEvalProof
variable {D : Type}

/-- C31, numeric: the style value of a declared expression is the result of its operators applied from left to right. Partial: the
element has every tag the expression names, see `C31_violated_missing_tag`. -/
theorem C31_numeric_partial (ar : Arith D) (hs : Sane ar) (env : Env D) (tags : List Tag) (ht : TagsSorted tags) (value : Str → Str)
    (e : Expr) (he : e.Valid ar) (h0 : HasTags env tags value e.first) (h1 : ∀ t ∈ e.rest, HasTags env tags value t.operand)
    (v r : D) (hv : Means ar env.num value e.first v) (hr : LeftToRight ar env.num value v e.rest r)
    (st : Style) (key : Str) (hk : st.declarations.find (env.getId key) = some e.render) (percent : D → D) (offset : Option (D → D)) :
    StyleEval.getValue ar env tags st key percent offset = .ok r := by
  obtain ⟨o, ho⟩ := parsed_exists ar _ he.2.2.1
  obtain ⟨os, hos⟩ := parsedAll_exists ar e.rest fun t ht => (he.2.2.2 t ht).2.2.2
  rw [StyleEval.getValue, hk]
  simp only [render_last]
  rw [if_neg (by decide), if_neg (by decide), parse_render ar hs e he o os ho hos]
  simp only [evalDouble, evalOperand_of ar env tags ht value _ h0 o ho v hv]
  exact eval_rest ar env tags ht value e.rest h1 os hos v r hr

/-- Every valid expression has exactly one such result. -/
theorem C31_numeric_total (ar : Arith D) (num : Str → D) (value : Str → Str) (e : Expr) (he : e.Valid ar) :
    ∃ v r, Means ar num value e.first v ∧ LeftToRight ar num value v e.rest r := by
  have hm : ∀ l : Lit, l.Valid ar → ∃ v, Means ar num value l v := by
    intro l hl
    cases l with
    | numeral w => obtain ⟨v, hv⟩ := hl; exact ⟨_, .numeral hv⟩
    | text s => exact ⟨_, .text⟩
    | tag k => exact ⟨_, .tag⟩
  obtain ⟨v, hv⟩ := hm _ he.2.2.1
  have : ∀ ts : List Term, (∀ t ∈ ts, t.operator ∈ ['+', '-', '*', '/'] ∧ t.operand.Valid ar) → ∀ v, ∃ r, LeftToRight ar num value v ts r := by
    intro ts
    induction ts with
    | nil => intro _ v; exact ⟨v, .done⟩
    | cons t ts ih =>
      intro h v
      obtain ⟨ho, hl⟩ := h t (by simp)
      obtain ⟨w, hw⟩ := hm _ hl
      obtain ⟨u, hu⟩ : ∃ u, Applied ar t.operator v w u := by
        simp at ho
        rcases ho with ho | ho | ho | ho <;> rw [ho]
        exacts [⟨_, .add⟩, ⟨_, .sub⟩, ⟨_, .mul⟩, ⟨_, .div⟩]
      obtain ⟨r, hr⟩ := ih (fun x hx => h x (by simp [hx])) u
      exact ⟨r, .step hw hu hr⟩
  obtain ⟨r, hr⟩ := this e.rest (fun t ht => ⟨(he.2.2.2 t ht).2.2.1, (he.2.2.2 t ht).2.2.2⟩) v
  exact ⟨v, r, hv, hr⟩

/-- C31, text: a sum of operands is the concatenation of their texts. -/
theorem C31_concatenates_partial (ar : Arith D) (hs : Sane ar) (env : Env D) (tags : List Tag) (ht : TagsSorted tags)
    (value : Str → Str) (e : Expr) (he : e.Valid ar) (h0 : HasTags env tags value e.first)
    (h1 : ∀ t ∈ e.rest, HasTags env tags value t.operand) (hp : ∀ t ∈ e.rest, t.operator = '+')
    (w : Str) (ws : List Str) (hw : Spells ar value e.first w) (hws : List.Forall₂ (fun t w => Spells ar value t.operand w) e.rest ws)
    (st : Style) (key : Str) (hk : st.declarations.find (env.getId key) = some e.render) :
    StyleEval.getString ar env tags st key = .ok (w ++ ws.flatten) := by
  obtain ⟨o, ho⟩ := parsed_exists ar _ he.2.2.1
  obtain ⟨os, hos⟩ := parsedAll_exists ar e.rest fun t ht => (he.2.2.2 t ht).2.2.2
  rw [StyleEval.getString, hk]
  simp only [parse_render ar hs e he o os ho hos]
  simp only [evalString, strOperand_of ar env tags ht value _ h0 o ho w hw]
  exact string_rest ar env tags ht value e.rest h1 hp os hos ws hws w

/-- C31, errors: any other operator in a text expression is reported. -/
theorem C31_unsupported_reported_partial (ar : Arith D) (hs : Sane ar) (env : Env D) (tags : List Tag) (ht : TagsSorted tags)
    (value : Str → Str) (e : Expr) (he : e.Valid ar) (h0 : HasTags env tags value e.first)
    (h1 : ∀ t ∈ e.rest, HasTags env tags value t.operand) (hp : ∃ t ∈ e.rest, t.operator ≠ '+')
    (st : Style) (key : Str) (hk : st.declarations.find (env.getId key) = some e.render) :
    StyleEval.getString ar env tags st key = .throw "domain_error" := by
  obtain ⟨o, ho⟩ := parsed_exists ar _ he.2.2.1
  obtain ⟨os, hos⟩ := parsedAll_exists ar e.rest fun t ht => (he.2.2.2 t ht).2.2.2
  obtain ⟨w, hw⟩ : ∃ w, Spells ar value e.first w := by
    have := he.2.2.1
    revert this
    cases e.first with
    | numeral w => rintro ⟨v, hv⟩; exact ⟨_, .numeral hv⟩
    | text s => intro _; exact ⟨_, .text⟩
    | tag k => intro _; exact ⟨_, .tag⟩
  rw [StyleEval.getString, hk]
  simp only [parse_render ar hs e he o os ho hos]
  simp only [evalString, strOperand_of ar env tags ht value _ h0 o ho w hw]
  exact string_bad ar env tags ht value e.rest h1 (fun t ht => (he.2.2.2 t ht).2.2.2) hp os hos w

/-! ## No undefined behaviour -/

namespace StyleEvalProof

def NoUb {α : Type} (o : Outcome α) : Prop := ∀ w, o ≠ .ub w

theorem noUb_bind {α β : Type} (o : Outcome α) (f : α → Outcome β) (ho : NoUb o) (hf : ∀ a, NoUb (f a)) : NoUb (o.bind f) := by
  cases o with
  | ok a => exact hf a
  | throw e => intro w; simp [Outcome.bind]
  | ub w => exact absurd rfl (ho w)

theorem noUb_fold {α β : Type} (f : β → α → Outcome β) (hf : ∀ b a, NoUb (f b a)) (l : List α) : ∀ b, NoUb (foldOutcome f b l) := by
  induction l with
  | nil => intro b w; simp [foldOutcome]
  | cons a l ih => intro b; rw [foldOutcome]; exact noUb_bind _ _ (hf b a) ih

theorem noUb_tagString (env : Env D) (tags : List Tag) (k : Str) : NoUb (tagString env tags k) := by
  intro w; unfold tagString; split
  · split <;> simp
  · simp

theorem noUb_evalOperand (ar : Arith D) (env : Env D) (tags : List Tag) (o : Operand D) : NoUb (evalOperand ar env tags o) := by
  induction o with
  | nil => intro w; simp [evalOperand]
  | num d => intro w; simp [evalOperand]
  | str s => intro w; simp [evalOperand]
  | tag k => rw [evalOperand]; exact noUb_bind _ _ (noUb_tagString env tags k) fun a w => by simp
  | signed c o ih => rw [evalOperand]; exact noUb_bind _ _ ih fun a w => by simp

theorem noUb_strOperand (ar : Arith D) (env : Env D) (tags : List Tag) (o : Operand D) : NoUb (strOperand ar env tags o) := by
  cases o with
  | tag k => exact noUb_tagString env tags k
  | _ => intro w; simp [strOperand]

end StyleEvalProof

/-- C31, memory: reading any declared value, expression or not, stays inside it, except for the empty text as a number. -/
theorem C31_no_ub_partial (ar : Arith D) (env : Env D) (tags : List Tag) (st : Style) (key : Str) (percent : D → D)
    (offset : Option (D → D)) :
    (∀ w, StyleEval.getString ar env tags st key ≠ .ub w) ∧
    (st.declarations.find (env.getId key) ≠ some [] → ∀ w, StyleEval.getValue ar env tags st key percent offset ≠ .ub w) := by
  have hd : ∀ t, NoUb (evalDouble ar env tags t) := fun t =>
    noUb_bind _ _ (noUb_evalOperand ar env tags _) fun v =>
      noUb_fold _ (fun b a => noUb_bind _ _ (noUb_evalOperand ar env tags _) fun u w => by simp) _ _
  have hst : ∀ t, NoUb (evalString ar env tags t) := fun t =>
    noUb_bind _ _ (noUb_strOperand ar env tags _) fun v =>
      noUb_fold _ (fun b a => noUb_bind _ _ (noUb_strOperand ar env tags _) fun u w => by split <;> simp) _ _
  constructor
  · intro w
    unfold StyleEval.getString
    split
    · simp
    · split
      · exact hst _ w
      · simp
  · intro hne w
    unfold StyleEval.getValue
    split
    · simp
    · rename_i raw hraw
      split
      · rename_i hl
        rw [List.getLast?_eq_none_iff] at hl
        exact absurd (by rw [hraw, hl]) hne
      · split
        · simp
        · split
          · simp
          · split
            · exact hd _ w
            · simp

/-- C31 is false for the empty text: its last character is read although there is none (Style.hpp:140). -/
theorem C31_violated_empty_value (ar : Arith D) (env : Env D) (tags : List Tag) (st : Style) (key : Str) (percent : D → D)
    (offset : Option (D → D)) (h : st.declarations.find (env.getId key) = some []) :
    ∃ w, StyleEval.getValue ar env tags st key percent offset = .ub w := by
  refine ⟨"rawValue[-1]", ?_⟩
  rw [StyleEval.getValue, h]; rfl

/-- C31 is false for absent tags: the exception of utils/ElementUtils.hpp:87-88 is never raised for them, the operand silently has the
value of the string with the largest id. -/
theorem C31_violated_missing_tag (ar : Arith D) (hs : Sane ar) (env : Env D) (tags : List Tag) (k : Str) (hk : Quotable k)
    (hmiss : ∀ t ∈ tags, t.key ≠ env.getId k) (st : Style) (key : Str)
    (hd : st.declarations.find (env.getId key) = some (Expr.render ⟨[], .tag k, [], []⟩)) (percent : D → D) (offset : Option (D → D)) :
    StyleEval.getValue ar env tags st key percent offset = .ok (env.num (env.getString 0xFFFFFFFF)) := by
  have hv : Expr.Valid ar ⟨[], .tag k, [], []⟩ := ⟨by simp [Blank], by simp [Blank], hk, by simp⟩
  have hf : findTag (env.getId k) tags = none := by
    cases h : findTag (env.getId k) tags with
    | none => rfl
    | some t => obtain ⟨h1, h2⟩ := StyleProof.findTag_sound _ _ _ h; exact absurd h2 (hmiss t h1)
  rw [StyleEval.getValue, hd]
  simp only [render_last]
  rw [if_neg (by decide), if_neg (by decide), parse_render ar hs _ hv _ _ .tag .nil]
  simp only [evalDouble, evalOperand, tagString, hf]
  rfl

/-! ## A concrete case: `eval("2 + tag('h')* 3")` with `h=7` is 27 -/

namespace StyleEvalExample

/-- Unsigned integers in place of doubles. -/
def nat (s : Str) : Nat := s.foldl (fun n c => 10 * n + (c.toNat - 48)) 0

def ar : Arith Nat where
  zero := 0
  add := (· + ·)
  sub := (· - ·)
  mul := (· * ·)
  div := (· / ·)
  neg := fun _ => 0
  toStr := fun _ => ['n']
  double_ := fun s => match s.takeWhile Char.isDigit with
    | [] => none
    | w => some (nat w, s.dropWhile Char.isDigit)

theorem sane : Sane ar := fun _ => ⟨rfl, rfl⟩

theorem digit (c : Char) (hd : c.isDigit = true) (hs : StyleEval.isSpace c = false) : IsNumeral ar [c] (nat [c]) := by
  refine ⟨⟨c, [], rfl, hs⟩, ?_⟩
  rintro rest ⟨d, r, rfl, hd'⟩
  have h0 : d.isDigit = false := by
    simp at hd'
    rcases hd' with rfl | rfl | rfl | rfl | rfl | rfl | rfl <;> rfl
  simp [ar, hd, h0]

def env : Env Nat where
  getId := fun s => if s = ['h'] then 1 else 2
  getString := fun n => if n = 5 then ['7'] else []
  num := nat
  lt := fun a b => decide (a < b)
  castId := fun _ => none

def expr : Expr := ⟨[], .numeral ['2'], [⟨[' '], '+', [' '], .tag ['h']⟩, ⟨[], '*', [' '], .numeral ['3']⟩], []⟩

theorem valid : expr.Valid ar := by
  refine ⟨by simp [expr, Blank], by simp [expr, Blank], ⟨_, digit '2' rfl rfl⟩, ?_⟩
  intro t ht
  simp [expr] at ht
  rcases ht with rfl | rfl
  · exact ⟨by simp [Blank], by simp [Blank], by simp, by simp, by simp⟩
  · exact ⟨by simp [Blank], by simp [Blank], by simp, ⟨_, digit '3' rfl rfl⟩⟩

theorem has (t : Lit) (ht : t = .tag ['h'] ∨ ∀ k, t ≠ .tag k) : HasTags env [⟨1, 5⟩] (fun _ => ['7']) t := by
  rcases ht with rfl | ht
  · exact ⟨⟨1, 5⟩, by simp, by simp [env], by decide, by simp [env]⟩
  · cases t with
    | tag k => exact absurd rfl (ht k)
    | _ => trivial

example (st : Style) (h : st.declarations.find 2 = some expr.render) (p : Nat → Nat) (o : Option (Nat → Nat)) :
    StyleEval.getValue ar env [⟨1, 5⟩] st ['w'] p o = .ok 27 := by
  refine C31_numeric_partial ar sane env _ (by simp [TagsSorted]) (fun _ => ['7']) expr valid (has _ (.inr (by simp [expr]))) ?_ 2 27
    (.numeral (digit '2' rfl rfl)) ?_ st ['w'] h p o
  · intro t ht
    simp [expr] at ht
    rcases ht with rfl | rfl
    · exact has _ (.inl rfl)
    · exact has _ (.inr (by simp))
  · exact .step .tag .add (.step (.numeral (digit '3' rfl rfl)) .mul .done)

example : expr.render = "eval(\"2 + tag('h')* 3\")".toList := by with_unfolding_all decide +kernel

end StyleEvalExample

end Verif.Props
