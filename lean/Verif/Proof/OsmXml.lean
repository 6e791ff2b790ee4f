import Verif.Props.OsmXmlSpec
import Verif.Proof.Atlas

/-! # Lemmas about OSM files in XML -/
namespace Verif.OsmXmlProof
open Verif.OsmXml Verif.OsmXmlSpec
open Verif.AtlasSpec (Blank)
open Verif.AtlasProof (blank_iff)
open Verif.MapCss (Res Parser dropPrefix many many1 unsigned isSpace digit)
open Verif.MapCssProof (ok_andThen ok_expect Progress NoDigit dropPrefix_append dropPrefix_eq dropPrefix_none)
open Verif.LsysText (decimal isAlpha)
open Verif.LsysTextSpec (PrintsReal Letter)
open Verif.LsysTextProof (Chain many_iff decimal_sound decimal_ok NumberEnd unsigned_sound unsigned_ok isAlpha_iff digits_head)

/-! ## The skipper -/

theorem alnum_iff (c : Char) : Alnum c ↔ isAlnum c = true := by
  unfold Alnum isAlnum
  rw [Bool.or_eq_true, isAlpha_iff, Bool.and_eq_true, decide_eq_true_eq, decide_eq_true_eq]

theorem takeWhile_stop {p : Char → Bool} {w : List Char} {c : Char} {r : List Char} (hw : ∀ x ∈ w, p x = true) (hc : p c = false) :
    (w ++ c :: r).takeWhile p = w ∧ (w ++ c :: r).dropWhile p = c :: r := by
  rw [List.takeWhile_append_of_pos hw, List.dropWhile_append_of_pos hw]
  simp [hc]

theorem key_eq {k w r x : List Char} (hk : ∀ c ∈ k, isAlnum c = true) (hw : ∀ c ∈ w, isAlnum c = true) (h : k ++ '=' :: x = w ++ '=' :: r) : k = w := by
  have h1 := (takeWhile_stop (r := x) hk (show isAlnum '=' = false by decide)).1
  rw [h, (takeWhile_stop (r := r) hw (show isAlnum '=' = false by decide)).1] at h1
  exact h1.symm

theorem known_iff (w r : List Char) (hw : ∀ c ∈ w, isAlnum c = true) :
    known (w ++ '=' :: r) = true ↔ w ∈ ["id".toList, "lat".toList, "lon".toList] := by
  have key : ∀ k : List Char, (∀ c ∈ k, isAlnum c = true) → ((dropPrefix (k ++ ['=']) (w ++ '=' :: r)).isSome = true ↔ w = k) := by
    intro k hk
    constructor
    · intro h
      obtain ⟨x, hx⟩ := Option.isSome_iff_exists.1 h
      have := dropPrefix_eq hx
      rw [List.append_assoc] at this
      exact (key_eq hk hw this.symm).symm
    · rintro rfl
      have : w ++ '=' :: r = (w ++ ['=']) ++ r := by simp
      rw [this, dropPrefix_append]
      rfl
  have h1 := key ['i', 'd'] (by decide)
  have h2 := key ['l', 'a', 't'] (by decide)
  have h3 := key ['l', 'o', 'n'] (by decide)
  simp only [List.cons_append, List.nil_append] at h1 h2 h3
  unfold known
  rw [Bool.or_eq_true, Bool.or_eq_true, h1, h2, h3]
  simp [or_assoc]

theorem isText_iff (c : Char) : isText c = true ↔ c ≠ '"' := by simp [isText]

theorem otherAttribute_iff (t r : List Char) : otherAttribute t = some r ↔ ∃ a, Attribute a ∧ t = a ++ r := by
  constructor
  · intro h
    unfold otherAttribute at h
    split_ifs at h with h1 h2
    obtain ⟨u, hu, h⟩ := Option.bind_eq_some_iff.1 h
    split_ifs at h with h3
    have e1 := dropPrefix_eq hu
    have e2 := dropPrefix_eq h
    have hk : ∀ c ∈ t.takeWhile isAlnum, isAlnum c = true := fun c hc => List.all_eq_true.1 List.all_takeWhile c hc
    have hv : ∀ c ∈ u.takeWhile isText, isText c = true := fun c hc => List.all_eq_true.1 List.all_takeWhile c hc
    have et : t = t.takeWhile isAlnum ++ '=' :: '"' :: u := by
      conv_lhs => rw [← List.takeWhile_append_dropWhile (p := isAlnum) (l := t), e1]
      rfl
    have eu : u = u.takeWhile isText ++ '"' :: r := by
      conv_lhs => rw [← List.takeWhile_append_dropWhile (p := isText) (l := u), e2]
      rfl
    refine ⟨_, .mk (t.takeWhile isAlnum) (u.takeWhile isText) h2 (fun c hc => (alnum_iff c).2 (hk c hc)) ?_ h3 ?_, ?_⟩
    · intro hm
      apply h1
      rw [et]
      exact (known_iff _ _ hk).2 hm
    · intro hq
      exact (isText_iff _).1 (hv _ hq) rfl
    · conv_lhs => rw [et, eu]
      simp
  · rintro ⟨a, ha, rfl⟩
    cases ha with
    | mk key value hk ha hn hv hq =>
      have ha' : ∀ c ∈ key, isAlnum c = true := fun c hc => (alnum_iff c).1 (ha c hc)
      have hq' : ∀ c ∈ value, isText c = true := fun c hc => (isText_iff c).2 (fun e => hq (e ▸ hc))
      have e : key ++ ('=' :: '"' :: (value ++ ['"'])) ++ r = key ++ '=' :: ('"' :: (value ++ '"' :: r)) := by simp
      rw [e]
      obtain ⟨e1, e2⟩ := takeWhile_stop (r := '"' :: (value ++ '"' :: r)) ha' (show isAlnum '=' = false by decide)
      obtain ⟨e3, e4⟩ := takeWhile_stop (r := r) hq' (show isText '"' = false by decide)
      unfold otherAttribute
      rw [if_neg (by rw [known_iff _ _ ha']; exact hn), e1, if_neg hk, e2]
      simp only [dropPrefix, if_true, Option.bind_some, e3, if_neg hv, e4]

theorem attribute_head {a : List Char} (h : Attribute a) : ∃ c w, a = c :: w ∧ Alnum c := by
  cases h with
  | mk key value hk ha hn hv hq =>
    cases key with
    | nil => exact absurd rfl hk
    | cons c key => exact ⟨c, _, rfl, ha c (by simp)⟩

theorem alnum_space {c : Char} (h : Alnum c) : isSpace c = false := by
  rw [alnum_iff] at h
  by_contra hc
  rw [Bool.not_eq_false, ← blank_iff] at hc
  simp only [Blank, List.mem_cons, List.not_mem_nil, or_false] at hc
  rcases hc with rfl | rfl | rfl | rfl | rfl | rfl <;> revert h <;> decide

theorem skipOne_length {t r : List Char} (h : skipOne t = some r) : r.length < t.length := by
  cases t with
  | nil => simp [skipOne] at h
  | cons c t =>
    simp only [skipOne] at h
    split_ifs at h with hc
    · cases h; simp
    · obtain ⟨a, ha, e⟩ := (otherAttribute_iff _ _).1 h
      obtain ⟨d, w, rfl, -⟩ := attribute_head ha
      rw [e]; simp

theorem skipOne_blank {c : Char} (h : Blank c) (t : List Char) : skipOne (c :: t) = some t := by
  simp [skipOne, (blank_iff c).1 h]

theorem skipOne_attribute {a : List Char} (h : Attribute a) (t : List Char) : skipOne (a ++ t) = some t := by
  have := (otherAttribute_iff (a ++ t) t).2 ⟨a, h, rfl⟩
  obtain ⟨c, w, rfl, hc⟩ := attribute_head h
  simp only [List.cons_append, skipOne, alnum_space hc] at this ⊢
  simpa using this

/-- Begins with neither a blank nor an attribute. -/
def Firm (t : List Char) : Prop := skipOne t = none

theorem skipLoop_spec (n : Nat) (t : List Char) (hn : t.length ≤ n) : ∃ g, Gap g ∧ t = g ++ skipLoop n t ∧ Firm (skipLoop n t) := by
  induction n generalizing t with
  | zero =>
    have : t = [] := List.length_eq_zero_iff.1 (by omega)
    subst this
    exact ⟨[], .nil, rfl, rfl⟩
  | succ n ih =>
    cases h : skipOne t with
    | none => exact ⟨[], .nil, by simp [skipLoop, h], by simp only [skipLoop, h]; exact h⟩
    | some r =>
      have hl := skipOne_length h
      obtain ⟨g, hg, e, hf⟩ := ih r (by omega)
      simp only [skipLoop, h]
      cases t with
      | nil => simp [skipOne] at h
      | cons c t =>
        simp only [skipOne] at h
        split_ifs at h with hc
        · cases h
          exact ⟨c :: g, .blank c g ((blank_iff c).2 hc) hg, by rw [List.cons_append, ← e], hf⟩
        · obtain ⟨a, ha, e'⟩ := (otherAttribute_iff _ _).1 h
          exact ⟨a ++ g, .other a g ha hg, by rw [e', List.append_assoc, ← e], hf⟩

theorem skip_spec (t : List Char) : ∃ g, Gap g ∧ t = g ++ skip t ∧ Firm (skip t) := skipLoop_spec _ t (Nat.le_refl _)

theorem skipLoop_gap {g : List Char} (hg : Gap g) {r : List Char} (hr : Firm r) (n : Nat) (hn : (g ++ r).length ≤ n) : skipLoop n (g ++ r) = r := by
  induction n generalizing g with
  | zero =>
    have h : g ++ r = [] := List.length_eq_zero_iff.1 (by omega)
    rw [h]
    exact (List.append_eq_nil_iff.1 h).2.symm
  | succ n ih =>
    cases hg with
    | nil => simp only [List.nil_append, skipLoop, show skipOne r = none from hr]
    | blank c g hc hg =>
      rw [List.cons_append, skipLoop, skipOne_blank hc]
      exact ih hg (by simp at hn ⊢; omega)
    | other a g ha hg =>
      have h := skipOne_attribute ha (g ++ r)
      have hl := skipOne_length h
      rw [List.append_assoc] at hn ⊢
      rw [skipLoop, h]
      exact ih hg (by omega)

theorem skip_gap {g : List Char} (hg : Gap g) {r : List Char} (hr : Firm r) : skip (g ++ r) = r := skipLoop_gap hg hr _ (Nat.le_refl _)

theorem firm_head {c : Char} (h1 : isSpace c = false) (h2 : isAlnum c = false) (t : List Char) : Firm (c :: t) := by
  unfold Firm
  rw [skipOne, if_neg (by simp [h1]), otherAttribute]
  simp [h2]

theorem firm_known {t : List Char} {c : Char} (h1 : isSpace c = false) (h : known (c :: t) = true) : Firm (c :: t) := by
  unfold Firm
  rw [skipOne, if_neg (by simp [h1]), otherAttribute, if_pos h]

theorem firm_space {c : Char} {t : List Char} (h : Firm (c :: t)) : isSpace c = false := by
  unfold Firm at h
  rw [skipOne] at h
  split_ifs at h with hc
  simpa using hc

theorem gap_append {g h : List Char} (hg : Gap g) (hh : Gap h) : Gap (g ++ h) := by
  induction hg with
  | nil => exact hh
  | blank c g hc _ ih => exact .blank c _ hc ih
  | other a g ha _ ih => rw [List.append_assoc]; exact .other a _ ha ih

theorem gap_blanks {b : List Char} (h : Blanks b) : Gap b := by
  induction b with
  | nil => exact .nil
  | cons c b ih => exact .blank c b (h c (by simp)) (ih fun x hx => h x (List.mem_cons_of_mem _ hx))

theorem skipBlanks_spec (t : List Char) : ∃ b, Blanks b ∧ t = b ++ skipBlanks t ∧ ∀ c ∈ (skipBlanks t).head?, isSpace c = false := by
  obtain ⟨g, hg, e, h⟩ := AtlasProof.skip_spec t
  refine ⟨g, hg, e, fun c hc => ?_⟩
  have := h c hc
  rw [blank_iff] at this
  simpa using this

theorem skipBlanks_gap {b : List Char} (hb : Blanks b) {r : List Char} (hr : ∀ c ∈ r.head?, isSpace c = false) : skipBlanks (b ++ r) = r :=
  AtlasProof.skip_gap hb r fun c hc => by rw [blank_iff, hr c hc]; simp

theorem skipBlanks_firm {r : List Char} (h : Firm r) : skipBlanks r = r := by
  refine skipBlanks_gap (b := []) (by simp [Blanks]) ?_
  cases r with
  | nil => simp
  | cons c r => intro d hd; simp at hd; subst hd; exact firm_space h

/-! ## Parsers and texts -/

/-- A text of this kind is the begin of `t`, and `r` is behind it. -/
def Match (P : List Char → Prop) (t r : List Char) : Prop := ∃ w, P w ∧ t = w ++ r

/-- The parser reads exactly the texts of this kind. -/
def Exact {α : Type} (p : Parser α) (P : α → List Char → Prop) : Prop := ∀ t a r, p t = .ok a r ↔ Match (P a) t r

theorem match_seq {P Q : List Char → Prop} {t r : List Char} : Match (Seq P Q) t r ↔ ∃ u, Match P t u ∧ Match Q u r := by
  constructor
  · rintro ⟨_, ⟨u, v, hu, hv, rfl⟩, rfl⟩
    exact ⟨v ++ r, ⟨u, hu, by simp⟩, v, hv, rfl⟩
  · rintro ⟨_, ⟨u, hu, rfl⟩, v, hv, rfl⟩
    exact ⟨u ++ v, ⟨u, v, hu, hv, rfl⟩, by simp⟩

theorem andThen_ok {α β : Type} {x : Res α} {f : α → List Char → Res β} {b : β} {r : List Char} :
    x.andThen f = .ok b r ↔ ∃ a u, x = .ok a u ∧ f a u = .ok b r := by
  constructor
  · exact ok_andThen
  · rintro ⟨a, u, rfl, h⟩; exact h

theorem expect_ok {α : Type} {x : Res α} {a : α} {r : List Char} : x.expect = .ok a r ↔ x = .ok a r := by
  cases x <;> simp [Res.expect]

theorem lit_ok {s t : List Char} {u : Unit} {r : List Char} : lit s t = .ok u r ↔ t = s ++ r := by
  unfold lit
  cases h : dropPrefix s t with
  | none =>
    simp only [reduceCtorEq, false_iff]
    rintro rfl
    rw [dropPrefix_append] at h
    cases h
  | some v =>
    have := dropPrefix_eq h
    subst this
    simp

theorem lit_fail {s t : List Char} : lit s t = .fail ↔ ¬ s <+: t := by
  unfold lit
  cases h : dropPrefix s t with
  | none =>
    simp only [true_iff]
    rintro ⟨r, rfl⟩
    rw [dropPrefix_append] at h
    cases h
  | some v =>
    have := dropPrefix_eq h
    subst this
    simp

/-- Texts which may stand behind attributes. -/
def Hard (s : List Char) : Prop := ∀ r, Firm (s ++ r)

/-- Texts which may stand behind blanks. -/
def Solid (s : List Char) : Prop := ∃ c w, s = c :: w ∧ isSpace c = false

theorem token_ok {s : List Char} (hs : Hard s) {t : List Char} {u : Unit} {r : List Char} : token s t = .ok u r ↔ Match (Token s) t r := by
  unfold token
  rw [lit_ok]
  constructor
  · intro h
    obtain ⟨g, hg, e, -⟩ := skip_spec t
    exact ⟨g ++ s, ⟨g, hg, rfl⟩, by rw [e, h]; simp⟩
  · rintro ⟨_, ⟨g, hg, rfl⟩, rfl⟩
    rw [List.append_assoc, skip_gap hg (hs r)]

theorem word_ok {s : List Char} (hs : Solid s) {t : List Char} {u : Unit} {r : List Char} : word s t = .ok u r ↔ Match (Word s) t r := by
  unfold word
  rw [lit_ok]
  constructor
  · intro h
    obtain ⟨g, hg, e, -⟩ := skipBlanks_spec t
    exact ⟨g ++ s, ⟨g, hg, rfl⟩, by rw [e, h]; simp⟩
  · rintro ⟨_, ⟨g, hg, rfl⟩, rfl⟩
    obtain ⟨c, w, rfl, hc⟩ := hs
    rw [List.append_assoc, skipBlanks_gap hg (by simpa using hc)]

theorem word_skip (s t : List Char) : word s (skip t) = token s t := by
  obtain ⟨g, hg, e, hf⟩ := skip_spec t
  unfold word token
  rw [skipBlanks_firm hf]

theorem word_skipBlanks (s t : List Char) : word s (skipBlanks t) = word s t := by
  obtain ⟨g, hg, e, hf⟩ := skipBlanks_spec t
  unfold word
  have := skipBlanks_gap (b := []) (by simp [Blanks]) hf
  rw [List.nil_append] at this
  rw [this]

/-! ## Values -/

theorem solid_of {c : Char} {w : List Char} (h : isSpace c = false) : Solid (c :: w) := ⟨c, w, rfl, h⟩

theorem hard_of {c : Char} {w : List Char} (h1 : isSpace c = false) (h2 : isAlnum c = false) : Hard (c :: w) := fun _ => firm_head h1 h2 _

theorem hard_id : Hard ['i', 'd', '=', '"'] := fun _ => firm_known (by decide) (by simp [known, dropPrefix])

theorem hard_lat : Hard ['l', 'a', 't', '='] := fun _ => firm_known (by decide) (by simp [known, dropPrefix])

theorem hard_lon : Hard ['l', 'o', 'n', '='] := fun _ => firm_known (by decide) (by simp [known, dropPrefix])

theorem string_exact : Exact stringValue Quoted := by
  intro t s r
  unfold stringValue
  simp only [andThen_ok, expect_ok, word_ok (solid_of (show isSpace '"' = false by decide)), lit_ok, Res.ok.injEq]
  constructor
  · rintro ⟨-, u, ⟨_, ⟨b, hb, rfl⟩, rfl⟩, -, v, hv, rfl, rfl⟩
    refine ⟨b ++ ('"' :: (u.takeWhile isText ++ ['"'])), ⟨?_, b, hb, rfl⟩, ?_⟩
    · intro h
      exact (isText_iff _).1 (List.all_eq_true.1 List.all_takeWhile _ h) rfl
    · have := List.takeWhile_append_dropWhile (p := isText) (l := u)
      rw [hv] at this
      conv_lhs => rw [← this]
      simp
  · rintro ⟨_, ⟨hs, b, hb, rfl⟩, rfl⟩
    have hs' : ∀ c ∈ s, isText c = true := fun c hc => (isText_iff c).2 (fun e => hs (e ▸ hc))
    obtain ⟨e1, e2⟩ := takeWhile_stop (r := r) hs' (show isText '"' = false by decide)
    exact ⟨(), s ++ '"' :: r, ⟨b ++ ['"'], ⟨b, hb, rfl⟩, by simp⟩, (), r, by rw [e2]; rfl, e1, rfl⟩

theorem quote_end (r : List Char) : NumberEnd ('"' :: r) := by
  refine ⟨?_, ?_⟩
  · intro c t e
    cases e
    decide
  · intro c hc
    simp at hc
    subst hc
    decide

theorem double_exact : Exact doubleValue QuotedReal := by
  intro t q r
  unfold doubleValue
  simp only [andThen_ok, word_ok (solid_of (show isSpace '"' = false by decide))]
  constructor
  · rintro ⟨-, u, ⟨_, ⟨b, hb, rfl⟩, rfl⟩, h⟩
    cases e : decimal u with
    | none => rw [e] at h; cases h
    | some x =>
      obtain ⟨q', v⟩ := x
      rw [e] at h
      simp only [andThen_ok, expect_ok, lit_ok, Res.ok.injEq] at h
      obtain ⟨-, x, rfl, rfl, rfl⟩ := h
      obtain ⟨d, hd, rfl⟩ := decimal_sound e
      exact ⟨_, ⟨b, d, hb, hd, rfl⟩, by simp⟩
  · rintro ⟨_, ⟨b, d, hb, hd, rfl⟩, rfl⟩
    refine ⟨(), d ++ '"' :: r, ⟨b ++ ['"'], ⟨b, hb, rfl⟩, by simp⟩, ?_⟩
    rw [decimal_ok hd _ (quote_end r)]
    simp only [andThen_ok, expect_ok, lit_ok, Res.ok.injEq]
    exact ⟨(), r, rfl, trivial, rfl⟩

theorem blank_noDigit {c : Char} (h : isSpace c = true) : digit c = none := by
  rw [← blank_iff] at h
  simp only [Blank, List.mem_cons, List.not_mem_nil, or_false] at h
  rcases h with rfl | rfl | rfl | rfl | rfl | rfl <;> decide

theorem ulong_quote {t : List Char} {n : Nat} {r : List Char} :
    (∃ u, ulong t = .ok n u ∧ ∃ x, word ['"'] u = .ok x r) ↔ Match (Id n) t r := by
  constructor
  · rintro ⟨u, h, x, hx⟩
    obtain ⟨b, hb, e, -⟩ := skipBlanks_spec t
    rw [word_ok (solid_of (show isSpace '"' = false by decide))] at hx
    obtain ⟨_, ⟨c, hc, rfl⟩, rfl⟩ := hx
    unfold ulong at h
    split at h
    · rename_i m v hm
      simp only [Res.ok.injEq] at h
      obtain ⟨rfl, rfl⟩ := h
      obtain ⟨d, hd, hn, e'⟩ := unsigned_sound hm
      exact ⟨_, ⟨b, d, c, hb, hd, by norm_num; omega, hc, rfl⟩, by rw [e, e']; simp⟩
    · cases h
  · rintro ⟨_, ⟨b, d, c, hb, hd, hn, hc, rfl⟩, rfl⟩
    refine ⟨c ++ '"' :: r, ?_, (), (word_ok (solid_of (by decide))).2 ⟨c ++ ['"'], ⟨c, hc, rfl⟩, by simp⟩⟩
    have hd' : NoDigit (c ++ '"' :: r) := by
      intro x y e
      cases c with
      | nil => simp at e; rw [← e.1]; decide
      | cons z c => simp at e; rw [← e.1]; exact blank_noDigit ((blank_iff z).1 (hc z (by simp)))
    have hu := unsigned_ok (l := 18446744073709551615) hd (by norm_num at hn; omega) hd'
    have e : b ++ (d ++ (c ++ ['"'])) ++ r = b ++ (d ++ (c ++ '"' :: r)) := by simp
    unfold ulong
    rw [e, skipBlanks_gap hb, hu]
    obtain ⟨x, y, z, rfl, hx⟩ := digits_head hd
    intro k hk
    simp at hk
    subst hk
    by_contra hk
    rw [Bool.not_eq_false] at hk
    rw [blank_noDigit hk] at hx
    cases hx

theorem idValue_ok {key : List Char} {t : List Char} {n : Nat} {r : List Char} :
    idValue key t = .ok n r ↔ ∃ x u, word key t = .ok x u ∧ Match (Id n) u r := by
  unfold idValue
  simp only [andThen_ok, expect_ok, Res.ok.injEq, ← ulong_quote]
  constructor
  · rintro ⟨x, u, h, m, v, h1, y, w, h2, rfl, rfl⟩
    exact ⟨x, u, h, v, h1, y, h2⟩
  · rintro ⟨x, u, h, v, h1, y, h2⟩
    exact ⟨x, u, h, n, v, h1, y, r, h2, rfl, rfl⟩

theorem id_exact : Exact OsmXml.id fun n => Seq (Token "id=\"".toList) (Id n) := by
  intro t n r
  unfold OsmXml.id
  rw [idValue_ok, match_seq]
  simp only [word_skip, idKey, token_ok hard_id]
  simp

theorem ref_exact : Exact ref fun n => Seq (Word "ref=\"".toList) (Id n) := by
  intro t n r
  unfold ref
  rw [idValue_ok, match_seq]
  simp only [word_skipBlanks, refKey, word_ok (solid_of (show isSpace 'r' = false by decide))]
  simp

theorem keyed_exact {α : Type} {key : List Char} (hk : Solid key) {p : Parser α} {P : α → List Char → Prop} (hp : Exact p P) :
    Exact (keyed key p) fun a => Seq (Word key) (P a) := by
  intro t a r
  unfold keyed
  simp only [andThen_ok, expect_ok, word_ok hk, match_seq, hp _ _ _]
  simp

theorem coordinate_exact {key : List Char} (hk : Hard key) : Exact (coordinate key) fun q => Seq (Token key) (QuotedReal q) := by
  intro t a r
  unfold coordinate keyed
  simp only [andThen_ok, expect_ok, word_skip, token_ok hk, match_seq, double_exact _ _ _]
  simp

/-! ## Repetition -/

theorem match_nil {t r : List Char} : Match (fun w => w = []) t r ↔ t = r := by simp [Match]

theorem each_nil {α : Type} {P : α → List Char → Prop} {w : List Char} : Each P [] w ↔ w = [] :=
  ⟨fun h => by cases h; rfl, fun h => h ▸ .nil⟩

theorem match_each_nil {α : Type} {P : α → List Char → Prop} {t r : List Char} : Match (Each P []) t r ↔ t = r := by
  simp [Match, each_nil]

theorem match_each_cons {α : Type} {P : α → List Char → Prop} {a : α} {as : List α} {t r : List Char} :
    Match (Each P (a :: as)) t r ↔ ∃ u, Match (P a) t u ∧ Match (Each P as) u r := by
  constructor
  · rintro ⟨_, h, rfl⟩
    cases h with
    | cons _ _ w v ha has => exact ⟨v ++ r, ⟨w, ha, by simp⟩, v, has, rfl⟩
  · rintro ⟨_, ⟨w, ha, rfl⟩, v, has, rfl⟩
    exact ⟨w ++ v, .cons a as w v ha has, by simp⟩

theorem chain_each {α : Type} {p : Parser α} {P : α → List Char → Prop} (hp : Exact p P) (as : List α) (t r : List Char) :
    Chain p as t r ↔ Match (Each P as) t r := by
  induction as generalizing t with
  | nil =>
    rw [match_each_nil]
    exact ⟨fun h => by cases h; rfl, fun h => h ▸ .nil _⟩
  | cons a as ih =>
    rw [match_each_cons]
    constructor
    · intro h
      cases h with
      | cons _ _ _ u _ h hs => exact ⟨u, (hp _ _ _).1 h, (ih u).1 hs⟩
    · rintro ⟨u, h, hs⟩
      exact .cons _ _ _ u _ ((hp _ _ _).2 h) ((ih u).2 hs)

theorem exact_progress {α : Type} {p : Parser α} {P : α → List Char → Prop} (hp : Exact p P) (hn : ∀ a, ¬ P a []) : Progress p := by
  intro t a r h
  obtain ⟨w, hw, rfl⟩ := (hp _ _ _).1 h
  cases w with
  | nil => exact absurd hw (hn a)
  | cons c w => simp

theorem many_each {α : Type} {p : Parser α} {P : α → List Char → Prop} (hp : Exact p P) (hn : ∀ a, ¬ P a []) (h0 : p [] = .fail) {t : List Char}
    {as : List α} {r : List Char} : many p t.length t = .ok as r ↔ Match (Each P as) t r ∧ p r = .fail := by
  rw [many_iff p (exact_progress hp hn) h0 _ t (Nat.le_refl _), chain_each hp]

theorem many1_each {α : Type} {p : Parser α} {P : α → List Char → Prop} (hp : Exact p P) (hn : ∀ a, ¬ P a []) (h0 : p [] = .fail) {t : List Char}
    {as : List α} {r : List Char} : many1 p t = .ok as r ↔ as ≠ [] ∧ Match (Each P as) t r ∧ p r = .fail := by
  unfold many1
  simp only [andThen_ok, many_each hp hn h0, Res.ok.injEq, hp _ _ _]
  constructor
  · rintro ⟨a, u, h, bs, v, ⟨h1, h2⟩, rfl, rfl⟩
    exact ⟨by simp, match_each_cons.2 ⟨u, h, h1⟩, h2⟩
  · rintro ⟨h, h1, h2⟩
    cases as with
    | nil => exact absurd rfl h
    | cons a as =>
      obtain ⟨u, h3, h4⟩ := match_each_cons.1 h1
      exact ⟨a, u, h3, as, r, ⟨h4, h2⟩, rfl, rfl⟩

theorem seq_nil {P Q : List Char → Prop} (h : ¬ P []) : ¬ Seq P Q [] := by
  rintro ⟨u, v, hu, hv, e⟩
  rw [(List.append_eq_nil_iff.1 e.symm).1] at hu
  exact h hu

theorem word_nil {s : List Char} (h : s ≠ []) : ¬ Word s [] := by
  rintro ⟨b, hb, e⟩
  exact h (List.append_eq_nil_iff.1 e.symm).2

theorem token_nil {s : List Char} (h : s ≠ []) : ¬ Token s [] := by
  rintro ⟨b, hb, e⟩
  exact h (List.append_eq_nil_iff.1 e.symm).2

/-! ## What is ahead -/

/-- A gap, `<`, and one of these characters. -/
def Ahead (cs : List Char) (u : List Char) : Prop := ∃ g c v, Gap g ∧ c ∈ cs ∧ u = g ++ '<' :: c :: v

theorem ahead_word {d : Char} {k cs u : List Char} (h : Ahead cs u) (hd : d ∉ cs) : word ('<' :: d :: k) u = .fail := by
  obtain ⟨g, c, v, hg, hc, rfl⟩ := h
  have hne : d ≠ c := fun e => hd (e ▸ hc)
  unfold word
  rw [lit_fail]
  induction hg with
  | nil =>
    rw [List.nil_append, skipBlanks_firm (firm_head (by decide) (by decide) _)]
    rintro ⟨r, hr⟩
    simp at hr
    exact hne hr.1
  | blank x g hx _ ih =>
    have : skipBlanks (x :: g ++ '<' :: c :: v) = skipBlanks (g ++ '<' :: c :: v) := by simp [skipBlanks, (blank_iff x).1 hx]
    rw [this]
    exact ih
  | other a g ha _ ih =>
    obtain ⟨x, w, rfl, hx⟩ := attribute_head ha
    have : skipBlanks (x :: w ++ g ++ '<' :: c :: v) = x :: w ++ g ++ '<' :: c :: v := by simp [skipBlanks, alnum_space hx]
    rw [this]
    rintro ⟨r, hr⟩
    simp at hr
    rw [alnum_iff, ← hr.1] at hx
    revert hx
    decide

theorem ahead_token {d : Char} {k cs u : List Char} (h : Ahead cs u) (hd : d ∉ cs) : token ('<' :: d :: k) u = .fail := by
  obtain ⟨g, c, v, hg, hc, rfl⟩ := h
  have hne : d ≠ c := fun e => hd (e ▸ hc)
  unfold token
  rw [skip_gap hg (firm_head (by decide) (by decide) _), lit_fail]
  rintro ⟨r, hr⟩
  simp at hr
  exact hne hr.1

theorem ahead_mono {cs ds u : List Char} (h : Ahead cs u) (hs : cs ⊆ ds) : Ahead ds u := by
  obtain ⟨g, c, v, hg, hc, e⟩ := h
  exact ⟨g, c, v, hg, hs hc, e⟩

theorem token_ahead {c : Char} {s t r : List Char} (h : Match (Token ('<' :: c :: s)) t r) : Ahead [c] t := by
  obtain ⟨_, ⟨g, hg, rfl⟩, rfl⟩ := h
  exact ⟨g, c, s ++ r, hg, by simp, by simp⟩

theorem word_ahead {c : Char} {s t r : List Char} (h : Match (Word ('<' :: c :: s)) t r) : Ahead [c] t := by
  obtain ⟨_, ⟨g, hg, rfl⟩, rfl⟩ := h
  exact ⟨g, c, s ++ r, gap_blanks hg, by simp, by simp⟩

theorem each_ahead {α : Type} {P : α → List Char → Prop} {cs : List Char} (hP : ∀ a t r, Match (P a) t r → Ahead cs t) {as : List α} {t u : List Char}
    (h : Match (Each P as) t u) (hu : Ahead cs u) : Ahead cs t := by
  cases as with
  | nil => rw [match_each_nil.1 h]; exact hu
  | cons a as =>
    obtain ⟨v, hv, -⟩ := match_each_cons.1 h
    exact hP _ _ _ hv

/-! ## Elements -/

theorem tag_exact : Exact tag PrintsTag := by
  intro t a r
  unfold tag PrintsTag
  simp only [andThen_ok, expect_ok, match_seq, word_ok (solid_of (show isSpace '<' = false by decide)), endText,
    word_ok (solid_of (show isSpace '/' = false by decide)), keyed_exact (solid_of (show isSpace 'k' = false by decide)) string_exact _ _ _,
    keyed_exact (solid_of (show isSpace 'v' = false by decide)) string_exact _ _ _, Res.ok.injEq]
  constructor
  · rintro ⟨-, u, h1, k, u2, ⟨u3, h2, h3⟩, v, u4, ⟨u5, h4, h5⟩, -, u6, h6, rfl, rfl⟩
    exact ⟨u, h1, u2, ⟨u3, h2, h3⟩, u4, ⟨u5, h4, h5⟩, h6⟩
  · rintro ⟨u, h1, u2, h2, u4, h4, h6⟩
    exact ⟨(), u, h1, a.key, u2, h2, a.value, u4, h4, (), r, h6, rfl, rfl⟩

theorem tag_nil (a : Tag) : ¬ PrintsTag a [] := seq_nil (word_nil (by decide))

theorem tag_fail {u : List Char} {cs : List Char} (h : Ahead cs u) (hc : 't' ∉ cs) : tag u = .fail := by
  unfold tag
  rw [ahead_word h hc]
  rfl

theorem tags_ok {t : List Char} {as : List Tag} {r : List Char} : tags t = .ok as r ↔ Match (Each PrintsTag as) t r ∧ tag r = .fail :=
  many_each tag_exact tag_nil rfl

theorem tag_ahead (a : Tag) (t r : List Char) (h : Match (PrintsTag a) t r) : Ahead ['t'] t := by
  obtain ⟨u, h, -⟩ := match_seq.1 h
  exact word_ahead h

/-- The tags and the closing text -/
theorem tags_close {s t : List Char} {as : List Tag} {r : List Char} :
    (∃ u, tags t = .ok as u ∧ Match (Token ('<' :: '/' :: s)) u r) ↔ Match (Seq (Each PrintsTag as) (Token ('<' :: '/' :: s))) t r := by
  rw [match_seq]
  simp only [tags_ok]
  constructor
  · rintro ⟨u, ⟨h, -⟩, h2⟩
    exact ⟨u, h, h2⟩
  · rintro ⟨u, h, h2⟩
    exact ⟨u, ⟨h, tag_fail (token_ahead h2) (by decide)⟩, h2⟩

theorem close_ahead {s t : List Char} {as : List Tag} {r : List Char} (h : Match (Seq (Each PrintsTag as) (Token ('<' :: '/' :: s))) t r) :
    Ahead ['t', '/'] t := by
  obtain ⟨u, h1, h2⟩ := match_seq.1 h
  exact each_ahead (fun a t r h => ahead_mono (tag_ahead a t r h) (by simp)) h1 (ahead_mono (token_ahead h2) (by simp))

theorem lit_no_error (s t : List Char) : lit s t ≠ .error := by
  unfold lit
  split <;> simp

theorem match_or {P Q : List Char → Prop} {t r : List Char} : Match (fun w => P w ∨ Q w) t r ↔ Match P t r ∨ Match Q t r := by
  unfold Match
  constructor
  · rintro ⟨w, h | h, e⟩
    · exact .inl ⟨w, h, e⟩
    · exact .inr ⟨w, h, e⟩
  · rintro (⟨w, h, e⟩ | ⟨w, h, e⟩)
    · exact ⟨w, .inl h, e⟩
    · exact ⟨w, .inr h, e⟩

theorem match_and {p : Prop} {P : List Char → Prop} {t r : List Char} : Match (fun w => p ∧ P w) t r ↔ p ∧ Match P t r := by
  unfold Match
  constructor
  · rintro ⟨w, ⟨h, h'⟩, e⟩; exact ⟨h, w, h', e⟩
  · rintro ⟨h, w, h', e⟩; exact ⟨w, ⟨h, h'⟩, e⟩

theorem nodeEnd_exact : Exact nodeEnd NodeEnd := by
  intro t ts r
  have hgt : Hard ['>'] := hard_of (by decide) (by decide)
  have hsl : Hard ['/', '>'] := hard_of (by decide) (by decide)
  have hlt : Hard ['<', '/', 'n', 'o', 'd', 'e', '>'] := hard_of (by decide) (by decide)
  have e1 : Match (NodeEnd ts) t r ↔ (∃ u, Match (Token ['>']) t u ∧ Match (Seq (Each PrintsTag ts) (Token ['<', '/', 'n', 'o', 'd', 'e', '>'])) u r) ∨
      (ts = [] ∧ Match (Token ['/', '>']) t r) := by
    rw [← match_seq, ← match_and, ← match_or]
    rfl
  rw [e1]
  unfold nodeEnd
  cases h : token ['>'] t with
  | error => exact absurd h (lit_no_error _ _)
  | ok x u =>
    have h' := (token_ok hgt).1 h
    simp only [andThen_ok, expect_ok, token_ok hlt, Res.ok.injEq]
    constructor
    · rintro ⟨as, v, h1, -, w, h2, rfl, rfl⟩
      exact .inl ⟨u, h', tags_close.1 ⟨v, h1, h2⟩⟩
    · rintro (⟨v, h1, h2⟩ | ⟨rfl, h1⟩)
      · have := (token_ok (u := x) hgt).2 h1
        rw [h] at this
        cases this
        obtain ⟨w, h3, h4⟩ := tags_close.2 h2
        exact ⟨ts, w, h3, (), r, h4, rfl, rfl⟩
      · obtain ⟨_, ⟨g, hg, rfl⟩, rfl⟩ := h1
        unfold token at h
        rw [lit_ok, List.append_assoc, skip_gap hg (hsl r)] at h
        simp at h
  | fail =>
    simp only [andThen_ok, expect_ok, endText, token_ok hsl, Res.ok.injEq]
    constructor
    · rintro ⟨-, v, h1, rfl, rfl⟩
      exact .inr ⟨rfl, h1⟩
    · rintro (⟨v, h1, -⟩ | ⟨rfl, h1⟩)
      · have := (token_ok (u := ()) hgt).2 h1
        rw [h] at this
        cases this
      · exact ⟨(), r, h1, rfl, rfl⟩

theorem node_exact : Exact node PrintsNode := by
  intro t a r
  unfold node PrintsNode
  simp only [andThen_ok, expect_ok, match_seq, token_ok (hard_of (show isSpace '<' = false by decide) (by decide)), id_exact _ _ _,
    coordinate_exact hard_lat _ _ _, coordinate_exact hard_lon _ _ _, nodeEnd_exact _ _ _, Res.ok.injEq]
  constructor
  · rintro ⟨-, u, h1, i, u2, h2, x, u3, h3, y, u4, h4, ts, u5, h5, rfl, rfl⟩
    exact ⟨u, h1, u2, h2, u3, h3, u4, h4, h5⟩
  · rintro ⟨u, h1, u2, h2, u3, h3, u4, h4, h5⟩
    exact ⟨(), u, h1, a.id, u2, h2, a.lat, u3, h3, a.lon, u4, h4, a.tags, r, h5, rfl, rfl⟩

theorem ref_node_exact : Exact nodeRef PrintsRef := by
  intro t a r
  unfold nodeRef PrintsRef
  simp only [andThen_ok, expect_ok, match_seq, word_ok (solid_of (show isSpace '<' = false by decide)), endText,
    word_ok (solid_of (show isSpace '/' = false by decide)), ref_exact _ _ _, Res.ok.injEq]
  constructor
  · rintro ⟨-, u, h1, i, u2, h2, -, u3, h3, rfl, rfl⟩
    exact ⟨u, h1, u2, h2, h3⟩
  · rintro ⟨u, h1, u2, h2, h3⟩
    exact ⟨(), u, h1, a, u2, h2, (), r, h3, rfl, rfl⟩

theorem member_exact : Exact member PrintsMember := by
  intro t a r
  unfold member PrintsMember
  simp only [andThen_ok, expect_ok, match_seq, word_ok (solid_of (show isSpace '<' = false by decide)), endText,
    word_ok (solid_of (show isSpace '/' = false by decide)), keyed_exact (solid_of (show isSpace 't' = false by decide)) string_exact _ _ _,
    keyed_exact (solid_of (show isSpace 'r' = false by decide)) string_exact _ _ _, ref_exact _ _ _, Res.ok.injEq]
  constructor
  · rintro ⟨-, u, h1, i, u2, h2, x, u3, h3, y, u4, h4, -, u5, h5, rfl, rfl⟩
    exact ⟨u, h1, u2, h2, u3, h3, u4, h4, h5⟩
  · rintro ⟨u, h1, u2, h2, u3, h3, u4, h4, h5⟩
    exact ⟨(), u, h1, a.type, u2, h2, a.ref, u3, h3, a.role, u4, h4, (), r, h5, rfl, rfl⟩

theorem ref_nil (a : Nat) : ¬ PrintsRef a [] := seq_nil (word_nil (by decide))
theorem member_nil (a : Member) : ¬ PrintsMember a [] := seq_nil (word_nil (by decide))
theorem node_nil (a : Node) : ¬ PrintsNode a [] := seq_nil (token_nil (by decide))
theorem way_nil (a : Way) : ¬ PrintsWay a [] := fun h => seq_nil (token_nil (by decide)) h.2
theorem relation_nil (a : Relation) : ¬ PrintsRelation a [] := fun h => seq_nil (token_nil (by decide)) h.2

theorem way_exact : Exact way PrintsWay := by
  intro t a r
  have hgt : Hard ['>'] := hard_of (by decide) (by decide)
  have e1 : Match (PrintsWay a) t r ↔ a.refs ≠ [] ∧ Match (Seq (Token "<way".toList) (Seq (Seq (Token "id=\"".toList) (Id a.id)) (Seq (Token ">".toList)
      (Seq (Each PrintsRef a.refs) (Seq (Each PrintsTag a.tags) (Token "</way>".toList)))))) t r := match_and
  rw [e1, match_seq]
  simp only [match_seq (P := Seq (Token "id=\"".toList) (Id a.id)), match_seq (P := Token ">".toList), match_seq (P := Each PrintsRef a.refs)]
  unfold way
  simp only [andThen_ok, expect_ok, token_ok (hard_of (show isSpace '<' = false by decide) (by decide)), id_exact _ _ _, token_ok hgt,
    many1_each ref_node_exact ref_nil rfl, Res.ok.injEq]
  constructor
  · rintro ⟨-, u, h1, i, u2, h2, -, u3, h3, rs, u4, ⟨h4, h5, -⟩, ts, u5, h6, -, u6, h7, rfl, rfl⟩
    exact ⟨h4, u, h1, u2, h2, u3, h3, u4, h5, tags_close.1 ⟨u5, h6, h7⟩⟩
  · rintro ⟨h4, u, h1, u2, h2, u3, h3, u4, h5, h6⟩
    have hf : nodeRef u4 = .fail := by
      unfold nodeRef
      rw [ahead_word (close_ahead h6) (by decide)]
      rfl
    obtain ⟨u5, h6, h7⟩ := tags_close.2 h6
    exact ⟨(), u, h1, a.id, u2, h2, (), u3, h3, a.refs, u4, ⟨h4, h5, hf⟩, a.tags, u5, h6, (), r, h7, rfl, rfl⟩

theorem relation_exact : Exact relation PrintsRelation := by
  intro t a r
  have hgt : Hard ['>'] := hard_of (by decide) (by decide)
  have e1 : Match (PrintsRelation a) t r ↔ a.members ≠ [] ∧ Match (Seq (Token "<relation".toList) (Seq (Seq (Token "id=\"".toList) (Id a.id))
      (Seq (Token ">".toList) (Seq (Each PrintsMember a.members) (Seq (Each PrintsTag a.tags) (Token "</relation>".toList)))))) t r := match_and
  rw [e1, match_seq]
  simp only [match_seq (P := Seq (Token "id=\"".toList) (Id a.id)), match_seq (P := Token ">".toList), match_seq (P := Each PrintsMember a.members)]
  unfold relation
  simp only [andThen_ok, expect_ok, token_ok (hard_of (show isSpace '<' = false by decide) (by decide)), id_exact _ _ _, token_ok hgt,
    many1_each member_exact member_nil rfl, Res.ok.injEq]
  constructor
  · rintro ⟨-, u, h1, i, u2, h2, -, u3, h3, rs, u4, ⟨h4, h5, -⟩, ts, u5, h6, -, u6, h7, rfl, rfl⟩
    exact ⟨h4, u, h1, u2, h2, u3, h3, u4, h5, tags_close.1 ⟨u5, h6, h7⟩⟩
  · rintro ⟨h4, u, h1, u2, h2, u3, h3, u4, h5, h6⟩
    have hf : member u4 = .fail := by
      unfold member
      rw [ahead_word (close_ahead h6) (by decide)]
      rfl
    obtain ⟨u5, h6, h7⟩ := tags_close.2 h6
    exact ⟨(), u, h1, a.id, u2, h2, (), u3, h3, a.members, u4, ⟨h4, h5, hf⟩, a.tags, u5, h6, (), r, h7, rfl, rfl⟩

/-! ## Bounds -/

theorem key_text (s : Side) : s.key = sideText s := by cases s <;> rfl

theorem key_solid (s : Side) : Solid s.key := by cases s <;> exact solid_of (by decide)

theorem keyed_side (s : Side) {t : List Char} {q : ℚ} {r : List Char} : keyed s.key doubleValue t = .ok q r ↔ Match (PrintsSide (s, q)) t r := by
  rw [keyed_exact (key_solid s) double_exact, key_text]
  rfl

theorem key_other {s s' : Side} (h : s' ≠ s) {t r : List Char} (ht : Match (Word s.key) t r) : word s'.key t = .fail := by
  obtain ⟨_, ⟨b, hb, rfl⟩, rfl⟩ := ht
  unfold word
  rw [lit_fail, List.append_assoc, skipBlanks_gap hb (by cases s <;> simp [Side.key] <;> decide)]
  rintro ⟨v, hv⟩
  revert hv
  cases s <;> cases s' <;> simp [Side.key] at h ⊢

theorem side_sound {left : List Side} {t : List Char} {p : Side × ℚ} {r : List Char} (h : side left t = .ok p r) : p.1 ∈ left ∧ Match (PrintsSide p) t r := by
  induction left with
  | nil => simp [side] at h
  | cons s ss ih =>
    rw [side] at h
    cases e : keyed s.key doubleValue t with
    | ok q u =>
      rw [e] at h
      cases h
      exact ⟨by simp, (keyed_side s).1 e⟩
    | fail =>
      rw [e] at h
      obtain ⟨h1, h2⟩ := ih h
      exact ⟨List.mem_cons_of_mem _ h1, h2⟩
    | error => rw [e] at h; cases h

theorem side_ok {left : List Side} {t : List Char} {p : Side × ℚ} {r : List Char} (hp : p.1 ∈ left) (h : Match (PrintsSide p) t r) : side left t = .ok p r := by
  induction left with
  | nil => simp at hp
  | cons s ss ih =>
    rw [side]
    by_cases hs : s = p.1
    · subst hs
      rw [(keyed_side p.1).2 h]
    · obtain ⟨u, hu, -⟩ := match_seq.1 h
      rw [← key_text] at hu
      have : keyed s.key doubleValue t = .fail := by
        unfold keyed
        rw [key_other hs hu]
        rfl
      rw [this]
      exact ih (by simpa [Ne.symm hs] using hp)

theorem side_fail {left : List Side} {t r : List Char} (h : Match (Word ['/', '>']) t r) : side left t = .fail := by
  induction left with
  | nil => rfl
  | cons s ss ih =>
    have : keyed s.key doubleValue t = .fail := by
      obtain ⟨_, ⟨b, hb, rfl⟩, rfl⟩ := h
      unfold keyed word
      have : lit s.key (skipBlanks (b ++ ['/', '>'] ++ r)) = .fail := by
        rw [lit_fail, List.append_assoc, skipBlanks_gap hb (by simp; decide)]
        rintro ⟨v, hv⟩
        cases s <;> simp [Side.key] at hv
      rw [this]
      rfl
    rw [side, this]
    exact ih

theorem sides_sound {n : Nat} {left : List Side} (hl : left.Nodup) {t : List Char} {ps : List (Side × ℚ)} {r : List Char} (h : sides n left t = .ok ps r) :
    Match (Each PrintsSide ps) t r ∧ (ps.map (·.1)).Nodup ∧ ∀ p ∈ ps, p.1 ∈ left := by
  induction n generalizing left t ps with
  | zero =>
    simp only [sides, Res.ok.injEq] at h
    obtain ⟨rfl, rfl⟩ := h
    exact ⟨match_each_nil.2 rfl, by simp, by simp⟩
  | succ n ih =>
    rw [sides] at h
    cases e : side left t with
    | ok p u =>
      rw [e] at h
      simp only [andThen_ok, Res.ok.injEq] at h
      obtain ⟨qs, v, h1, rfl, rfl⟩ := h
      obtain ⟨h2, h3, h4⟩ := ih (hl.erase _) h1
      obtain ⟨h5, h6⟩ := side_sound e
      refine ⟨match_each_cons.2 ⟨u, h6, h2⟩, ?_, ?_⟩
      · rw [List.map_cons, List.nodup_cons]
        refine ⟨?_, h3⟩
        intro hm
        obtain ⟨q, hq, e'⟩ := List.mem_map.1 hm
        have := (hl.mem_erase_iff).1 (h4 q hq)
        exact this.1 e'
      · intro q hq
        rcases List.mem_cons.1 hq with rfl | hq
        · exact h5
        · exact List.mem_of_mem_erase (h4 q hq)
    | fail =>
      rw [e] at h
      simp only [Res.ok.injEq] at h
      obtain ⟨rfl, rfl⟩ := h
      exact ⟨match_each_nil.2 rfl, by simp, by simp⟩
    | error => rw [e] at h; cases h

theorem sides_ok {n : Nat} {left : List Side} (hl : left.Nodup) (hn : left.length ≤ n) {t : List Char} {ps : List (Side × ℚ)} {r v : List Char}
    (h : Match (Each PrintsSide ps) t r) (hp : (ps.map (·.1)).Nodup) (hm : ∀ p ∈ ps, p.1 ∈ left) (hr : Match (Word ['/', '>']) r v) :
    sides n left t = .ok ps r := by
  induction n generalizing left t ps with
  | zero =>
    have : left = [] := List.length_eq_zero_iff.1 (by omega)
    subst this
    cases ps with
    | nil => rw [match_each_nil.1 h]; rfl
    | cons p ps => exact absurd (hm p (by simp)) (by simp)
  | succ n ih =>
    rw [sides]
    cases ps with
    | nil => rw [match_each_nil.1 h, side_fail hr]
    | cons p ps =>
      obtain ⟨u, h1, h2⟩ := match_each_cons.1 h
      have hpl := hm p (by simp)
      rw [side_ok hpl h1]
      rw [List.map_cons, List.nodup_cons] at hp
      have := ih (hl.erase p.1) (by rw [List.length_erase_of_mem hpl]; omega) h2 hp.2 (fun q hq => (hl.mem_erase_iff).2
        ⟨fun e => hp.1 (e ▸ List.mem_map_of_mem hq), hm q (List.mem_cons_of_mem _ hq)⟩)
      simp only [this]
      rfl

theorem allSides_mem (s : Side) : s ∈ allSides := by cases s <;> simp [allSides]

theorem bounds_exact : Exact bounds PrintsBounds := by
  intro t ps r
  have e1 : Match (PrintsBounds ps) t r ↔ ps ≠ [] ∧ (ps.map (·.1)).Nodup ∧ ∃ u, Match (Token ['<', 'b', 'o', 'u', 'n', 'd', 's']) t u ∧
      ∃ v, Match (Each PrintsSide ps) u v ∧ Match (Word ['/', '>']) v r := by
    simp only [← match_seq]
    rw [← match_and, ← match_and]
    rfl
  rw [e1]
  unfold bounds
  simp only [andThen_ok, word_skip, token_ok (hard_of (show isSpace '<' = false by decide) (by decide))]
  have hn : allSides.Nodup := by decide
  constructor
  · rintro ⟨-, u, h1, h⟩
    split at h
    · cases h
    · rename_i ps' v hne e
      simp only [andThen_ok, expect_ok, endText, word_ok (solid_of (show isSpace '/' = false by decide)), Res.ok.injEq] at h
      obtain ⟨-, w, h2, rfl, rfl⟩ := h
      obtain ⟨h3, h4, -⟩ := sides_sound hn e
      refine ⟨?_, h4, u, h1, v, h3, h2⟩
      rintro rfl
      exact hne rfl
    · cases h
  · rintro ⟨h1, h2, u, h3, v, h4, h5⟩
    refine ⟨(), u, h3, ?_⟩
    rw [sides_ok hn (by decide) h4 h2 (fun p _ => allSides_mem p.1) h5]
    cases ps with
    | nil => exact absurd rfl h1
    | cons p ps =>
      simp only [andThen_ok, expect_ok, endText, word_ok (solid_of (show isSpace '/' = false by decide)), Res.ok.injEq]
      exact ⟨(), r, h5, trivial, rfl⟩

theorem valueOf_number {ps : List (Side × ℚ)} (h : (ps.map (·.1)).Nodup) (s : Side) : valueOf ps s = number ps s := by
  induction ps with
  | nil => simp [valueOf, number]
  | cons p ps ih =>
    rw [List.map_cons, List.nodup_cons] at h
    have ih := ih h.2
    unfold number at ih ⊢
    rw [valueOf]
    by_cases hs : p.1 = s
    · have : (ps.filter fun q => q.1 = s) = [] := by
        rw [List.filter_eq_nil_iff]
        intro q hq
        simp only [decide_eq_true_eq]
        intro e
        exact h.1 (List.mem_map.2 ⟨q, hq, by rw [e, hs]⟩)
      simp [hs, this]
    · simp [hs, ih]

theorem onBounds_eq {ps : List (Side × ℚ)} (h : (ps.map (·.1)).Nodup) :
    onBounds ps = .bounds (number ps .minLat) (number ps .minLon) (number ps .maxLat) (number ps .maxLon) := by
  simp [onBounds, valueOf_number h]

theorem onRelation_eq (r : Relation) : onRelation r = .relation ⟨r.id, r.members.map fun m => ⟨short m.type, m.ref, m.role⟩, r.tags⟩ := rfl

/-! ## The loops -/

theorem loop_spec {α : Type} {p : Parser α} {P : α → List Char → Prop} (hp : Exact p P) (hn : ∀ a, ¬ P a []) (h0 : p [] = .fail) (n : Nat) (t : List Char)
    (h : t.length ≤ n) : ∃ r, Match (Each P (loop p n t).1) t r ∧ (((loop p n t).2 = .ok () r ∧ p r = .fail) ∨ ((loop p n t).2 = .error ∧ p r = .error)) := by
  induction n generalizing t with
  | zero =>
    have : t = [] := List.length_eq_zero_iff.1 (by omega)
    subst this
    exact ⟨[], match_each_nil.2 rfl, .inl ⟨rfl, h0⟩⟩
  | succ n ih =>
    rw [loop]
    cases e : p t with
    | ok a u =>
      have := exact_progress hp hn _ _ _ e
      obtain ⟨r, h1, h2⟩ := ih u (by omega)
      exact ⟨r, match_each_cons.2 ⟨u, (hp _ _ _).1 e, h1⟩, h2⟩
    | fail => exact ⟨t, match_each_nil.2 rfl, .inl ⟨rfl, e⟩⟩
    | error => exact ⟨t, match_each_nil.2 rfl, .inr ⟨rfl, e⟩⟩

theorem loop_stop {α : Type} {p : Parser α} {P : α → List Char → Prop} (hp : Exact p P) (hn : ∀ a, ¬ P a []) (h0 : p [] = .fail) (n : Nat) {t : List Char}
    (h : t.length ≤ n) {as : List α} {r : List Char} (hm : Match (Each P as) t r) :
    (p r = .fail → loop p n t = (as, .ok () r)) ∧ (p r = .error → loop p n t = (as, .error)) := by
  induction n generalizing t as with
  | zero =>
    have : t = [] := List.length_eq_zero_iff.1 (by omega)
    subst this
    cases as with
    | nil =>
      have := match_each_nil.1 hm
      subst this
      exact ⟨fun _ => rfl, fun e => by rw [h0] at e; cases e⟩
    | cons a as =>
      obtain ⟨u, ⟨w, hw, e⟩, -⟩ := match_each_cons.1 hm
      rw [(List.append_eq_nil_iff.1 e.symm).1] at hw
      exact absurd hw (hn a)
  | succ n ih =>
    rw [loop]
    cases as with
    | nil =>
      have := match_each_nil.1 hm
      subst this
      constructor <;> intro e <;> rw [e]
    | cons a as =>
      obtain ⟨u, h1, h2⟩ := match_each_cons.1 hm
      have e := (hp _ _ _).2 h1
      have := exact_progress hp hn _ _ _ e
      obtain ⟨i1, i2⟩ := ih (by omega) h2
      rw [e]
      constructor <;> intro e'
      · simp only [i1 e']
      · simp only [i2 e']

theorem node_ahead (a : Node) (t r : List Char) (h : Match (PrintsNode a) t r) : Ahead ['n'] t := token_ahead (match_seq.1 h).choose_spec.1
theorem way_ahead (a : Way) (t r : List Char) (h : Match (PrintsWay a) t r) : Ahead ['w'] t := token_ahead (match_seq.1 (match_and.1 h).2).choose_spec.1
theorem relation_ahead (a : Relation) (t r : List Char) (h : Match (PrintsRelation a) t r) : Ahead ['r'] t :=
  token_ahead (match_seq.1 (match_and.1 h).2).choose_spec.1

theorem bounds_fail {cs u : List Char} (h : Ahead cs u) (hc : 'b' ∉ cs) : bounds u = .fail := by
  unfold bounds
  rw [word_skip, ahead_token h hc]
  rfl

theorem node_fail {cs u : List Char} (h : Ahead cs u) (hc : 'n' ∉ cs) : node u = .fail := by
  unfold node
  rw [ahead_token h hc]
  rfl

theorem way_fail {cs u : List Char} (h : Ahead cs u) (hc : 'w' ∉ cs) : way u = .fail := by
  unfold way
  rw [ahead_token h hc]
  rfl

theorem relation_fail {cs u : List Char} (h : Ahead cs u) (hc : 'r' ∉ cs) : relation u = .fail := by
  unfold relation
  rw [ahead_token h hc]
  rfl

theorem followed_ok {es : List Event} {u : Unit} {r : List Char} {f : List Char → List Event × Res Unit} :
    followed (es, .ok u r) f = (es ++ (f r).1, (f r).2) := rfl

theorem followed_error {es : List Event} {f : List Char → List Event × Res Unit} : followed (es, .error) f = (es, .error) := rfl

/-- The bounds, if there are some -/
theorem boundsPart_ok {b : Option (List (Side × ℚ))} {t r : List Char} (h : Match (Each PrintsBounds b.toList) t r) (hr : b = none → bounds r = .fail) :
    boundsPart t = ((b.toList.map fun b => .bounds (number b .minLat) (number b .minLon) (number b .maxLat) (number b .maxLon)), .ok () r) := by
  cases b with
  | none =>
    have := match_each_nil.1 h
    subst this
    unfold boundsPart
    rw [hr rfl]
    rfl
  | some ps =>
    obtain ⟨u, h1, h2⟩ := match_each_cons.1 h
    have := match_each_nil.1 h2
    subst this
    unfold boundsPart
    rw [(bounds_exact _ _ _).2 h1]
    obtain ⟨w, hw, -⟩ := h1
    simp [onBounds_eq hw.2.1]

theorem boundsPart_spec (t : List Char) : ∃ (b : Option (List (Side × ℚ))) (r : List Char), Match (Each PrintsBounds b.toList) t r ∧
    (boundsPart t).1 = (b.toList.map fun b => .bounds (number b .minLat) (number b .minLon) (number b .maxLat) (number b .maxLon)) ∧
    ((boundsPart t).2 = .ok () r ∨ (boundsPart t).2 = .error) := by
  unfold boundsPart
  cases e : bounds t with
  | ok ps r =>
    have h := (bounds_exact _ _ _).1 e
    obtain ⟨w, hw, -⟩ := h
    exact ⟨some ps, r, match_each_cons.2 ⟨r, (bounds_exact _ _ _).1 e, match_each_nil.2 rfl⟩, by simp [onBounds_eq hw.2.1], .inl rfl⟩
  | fail => exact ⟨none, t, match_each_nil.2 rfl, rfl, .inl rfl⟩
  | error => exact ⟨none, t, match_each_nil.2 rfl, rfl, .inr rfl⟩

theorem hard_osm : Hard ['<', '/', 'o', 's', 'm', '>'] := hard_of (by decide) (by decide)

theorem elements_ok {d : Doc} {t r : List Char} (h : Match (PrintsBody d) t r) : elements t = (events d, .ok () r) := by
  obtain ⟨t1, h1, h⟩ := match_seq.1 h
  obtain ⟨t2, h2, h⟩ := match_seq.1 h
  obtain ⟨t3, h3, h⟩ := match_seq.1 h
  obtain ⟨t4, h4, h5⟩ := match_seq.1 h
  have a4 : Ahead ['/'] t4 := token_ahead h5
  have a3 : Ahead ['r', '/'] t3 := each_ahead (fun a t r h => ahead_mono (relation_ahead a t r h) (by simp)) h4 (ahead_mono a4 (by simp))
  have a2 : Ahead ['w', 'r', '/'] t2 := each_ahead (fun a t r h => ahead_mono (way_ahead a t r h) (by simp)) h3 (ahead_mono a3 (by simp))
  have a1 : Ahead ['n', 'w', 'r', '/'] t1 := each_ahead (fun a t r h => ahead_mono (node_ahead a t r h) (by simp)) h2 (ahead_mono a2 (by simp))
  unfold elements
  rw [boundsPart_ok h1 (fun _ => bounds_fail a1 (by decide)), followed_ok]
  simp only [(loop_stop node_exact node_nil rfl _ (Nat.le_refl _) h2).1 (node_fail a2 (by decide)), followed_ok,
    (loop_stop way_exact way_nil rfl _ (Nat.le_refl _) h3).1 (way_fail a3 (by decide)),
    (loop_stop relation_exact relation_nil rfl _ (Nat.le_refl _) h4).1 (relation_fail a4 (by decide)), (token_ok (u := ()) hard_osm).2 h5]
  simp [events, Res.expect, onRelation_eq]

theorem seq_match {P Q : List Char → Prop} {t u r : List Char} (h : Match P t u) (h' : Match Q u r) : Match (Seq P Q) t r := match_seq.2 ⟨u, h, h'⟩

/-- What is told is what is written; if there is no error, then to the end. -/
theorem elements_spec (t : List Char) : ∃ (d : Doc) (u : List Char), Match (PrintsElements d) t u ∧ (elements t).1 = events d ∧
    ∀ r, (elements t).2 = .ok () r → Match (PrintsBody d) t r := by
  obtain ⟨b, t1, h1, e1, o1⟩ := boundsPart_spec t
  unfold elements
  rcases hb : boundsPart t with ⟨x, y⟩
  rw [hb] at e1 o1
  simp only at e1 o1
  subst e1
  rcases o1 with rfl | rfl
  swap
  · refine ⟨⟨b, [], [], []⟩, t1, seq_match h1 (seq_match (match_each_nil.2 rfl) (seq_match (match_each_nil.2 rfl) (match_each_nil.2 rfl))), ?_, ?_⟩
    · simp [followed, events]
    · simp [followed]
  simp only [followed_ok]
  obtain ⟨t2, h2, o2⟩ := loop_spec node_exact node_nil rfl t1.length t1 (Nat.le_refl _)
  rcases o2 with ⟨o2, -⟩ | ⟨o2, -⟩
  swap
  · refine ⟨⟨b, _, [], []⟩, t2, seq_match h1 (seq_match h2 (seq_match (match_each_nil.2 rfl) (match_each_nil.2 rfl))), ?_, ?_⟩
    · simp [o2, followed, events]
    · simp [o2, followed]
  rw [o2]
  simp only [followed_ok]
  obtain ⟨t3, h3, o3⟩ := loop_spec way_exact way_nil rfl t2.length t2 (Nat.le_refl _)
  rcases o3 with ⟨o3, -⟩ | ⟨o3, -⟩
  swap
  · refine ⟨⟨b, _, _, []⟩, t3, seq_match h1 (seq_match h2 (seq_match h3 (match_each_nil.2 rfl))), ?_, ?_⟩
    · simp [o3, followed, events]
    · simp [o3, followed]
  rw [o3]
  simp only [followed_ok]
  obtain ⟨t4, h4, o4⟩ := loop_spec relation_exact relation_nil rfl t3.length t3 (Nat.le_refl _)
  refine ⟨⟨b, _, _, _⟩, t4, seq_match h1 (seq_match h2 (seq_match h3 h4)), ?_, ?_⟩
  · rcases o4 with ⟨o4, -⟩ | ⟨o4, -⟩ <;> simp [o4, followed, events, onRelation_eq]
  · intro r hr
    rcases o4 with ⟨o4, -⟩ | ⟨o4, -⟩
    · rw [o4] at hr
      simp only [followed_ok, expect_ok, token_ok hard_osm] at hr
      exact seq_match h1 (seq_match h2 (seq_match h3 (seq_match h4 hr)))
    · rw [o4] at hr
      simp [followed] at hr

/-! ## The begin of the file -/

theorem skip_firm {t : List Char} (h : Firm t) : skip t = t := skip_gap (g := []) .nil h

theorem firm_plain {w : List Char} {b : Char} (hne : w ≠ []) (hw : ∀ c ∈ w, isAlnum c = true) (hb : Blank b) (r : List Char) : Firm (w ++ b :: r) := by
  have hb' : isAlnum b = false := by
    by_contra h
    rw [Bool.not_eq_false, ← alnum_iff] at h
    have := alnum_space h
    rw [(blank_iff b).1 hb] at this
    cases this
  have hb2 : b ≠ '=' := by
    rintro rfl
    revert hb
    simp [Blank]
  obtain ⟨e1, e2⟩ := takeWhile_stop (r := r) hw hb'
  have ho : otherAttribute (w ++ b :: r) = none := by
    unfold otherAttribute
    split_ifs
    · rfl
    · rfl
    · rw [e2]
      simp [dropPrefix, hb2.symm]
  cases w with
  | nil => exact absurd rfl hne
  | cons c w =>
    have := alnum_space ((alnum_iff c).2 (hw c (by simp)))
    unfold Firm
    rw [List.cons_append, skipOne, if_neg (by simp [this])]
    exact ho

theorem header_step {n : Nat} {c : Char} {t : List Char} (h : Firm (c :: t)) (hc : c ≠ '>') : header (n + 1) (c :: t) = header n t := by
  rw [header, skip_firm h]
  simp [hc]

theorem header_ok (n : Nat) {b : Char} {g : List Char} (hb : Blank b) (hg : Gap g) (r : List Char) :
    header (n + 5) ('x' :: 'm' :: 'l' :: b :: (g ++ '?' :: '>' :: r)) = .ok () r := by
  have f1 : Firm ('x' :: 'm' :: 'l' :: b :: (g ++ '?' :: '>' :: r)) := firm_plain (w := ['x', 'm', 'l']) (by simp) (by decide) hb _
  have f2 : Firm ('m' :: 'l' :: b :: (g ++ '?' :: '>' :: r)) := firm_plain (w := ['m', 'l']) (by simp) (by decide) hb _
  have f3 : Firm ('l' :: b :: (g ++ '?' :: '>' :: r)) := firm_plain (w := ['l']) (by simp) (by decide) hb _
  rw [header_step f1 (by decide), header_step f2 (by decide), header_step f3 (by decide), header]
  have : skip (b :: (g ++ '?' :: '>' :: r)) = '?' :: '>' :: r := skip_gap (g := b :: g) (.blank b g hb hg) (firm_head (by decide) (by decide) _)
  rw [this]
  simp only [show ('?' : Char) ≠ '>' by decide, if_false]
  rw [header, skip_firm (firm_head (by decide) (by decide) _)]
  simp

theorem begin_iff (r : List Char) : ((dropPrefix nodeText r).isSome || (dropPrefix boundsText r).isSome) = true ↔ nodeText <+: r ∨ boundsText <+: r := by
  have key : ∀ k r : List Char, (dropPrefix k r).isSome = true ↔ k <+: r := by
    intro k r
    constructor
    · intro h
      obtain ⟨u, hu⟩ := Option.isSome_iff_exists.1 h
      exact ⟨u, (dropPrefix_eq hu).symm⟩
    · rintro ⟨u, rfl⟩
      rw [dropPrefix_append]
      rfl
  rw [Bool.or_eq_true, key, key]

theorem prefix_cross {k s r : List Char} (hs : s ≠ []) (hk : '<' ∉ k.tail) (h : k <+: s ++ '<' :: r) : k <+: s := by
  obtain ⟨y, hy⟩ := h
  rcases List.append_eq_append_iff.1 hy with ⟨v, e, -⟩ | ⟨v, e, hv⟩
  · exact ⟨v, e.symm⟩
  · cases v with
    | nil => rw [e]; simp
    | cons x v =>
      exfalso
      simp at hv
      obtain ⟨rfl, -⟩ := hv
      apply hk
      rw [e]
      cases s with
      | nil => exact absurd rfl hs
      | cons z s => simp

theorem notes_ok {p r : List Char} (hp : Clean p) (hr : nodeText <+: r ∨ boundsText <+: r) : notes (p ++ r) = r := by
  obtain ⟨v, rfl⟩ : ∃ v, r = '<' :: v := by
    rcases hr with ⟨u, rfl⟩ | ⟨u, rfl⟩ <;> exact ⟨_, rfl⟩
  induction p with
  | nil =>
    rw [List.nil_append, notes, if_pos ((begin_iff _).2 hr)]
  | cons c p ih =>
    have h1 : ¬ (nodeText <+: c :: p ++ '<' :: v ∨ boundsText <+: c :: p ++ '<' :: v) := by
      rintro (h | h)
      · exact hp.1 (prefix_cross (by simp) (by decide) h).isInfix
      · exact hp.2 (prefix_cross (by simp) (by decide) h).isInfix
    rw [← begin_iff, List.cons_append] at h1
    rw [List.cons_append, notes, if_neg h1]
    exact ih ⟨fun h => hp.1 (h.trans (List.suffix_cons c p).isInfix), fun h => hp.2 (h.trans (List.suffix_cons c p).isInfix)⟩

theorem notes_spec (t : List Char) : ∃ p, t = p ++ notes t ∧ (notes t = [] ∨ nodeText <+: notes t ∨ boundsText <+: notes t) := by
  induction t with
  | nil => exact ⟨[], rfl, .inl rfl⟩
  | cons c t ih =>
    rw [notes]
    split_ifs with h
    · exact ⟨[], rfl, .inr ((begin_iff _).1 h)⟩
    · obtain ⟨p, e, h'⟩ := ih
      exact ⟨c :: p, by rw [List.cons_append, ← e], h'⟩

theorem prologue_ok {h w : List Char} (hh : Head h) (hw : nodeText <+: w ∨ boundsText <+: w) : prologue (h ++ w) = .ok () w := by
  cases hh with
  | mk b g h k l p hb hg hh hk hl hp hc =>
    have hf : Firm (p ++ w) := by
      rcases hp with rfl | ⟨q, rfl⟩
      · rcases hw with ⟨u, rfl⟩ | ⟨u, rfl⟩ <;> exact firm_head (by decide) (by decide) _
      · exact firm_head (by decide) (by decide) _
    unfold prologue
    rw [andThen_ok]
    refine ⟨(), 'x' :: 'm' :: 'l' :: b :: (g ++ '?' :: '>' :: (h ++ ("<osm".toList ++ (k ++ (">".toList ++ (l ++ (p ++ w))))))),
      (token_ok (hard_of (by decide) (by decide))).2 ⟨['<', '?'], ⟨[], .nil, rfl⟩, by simp⟩, ?_⟩
    rw [andThen_ok]
    refine ⟨(), h ++ ("<osm".toList ++ (k ++ (">".toList ++ (l ++ (p ++ w))))), ?_, ?_⟩
    · rw [expect_ok]
      exact header_ok _ hb hg _
    rw [andThen_ok]
    refine ⟨(), k ++ (">".toList ++ (l ++ (p ++ w))), expect_ok.2 ((token_ok (hard_of (by decide) (by decide))).2 ⟨h ++ "<osm".toList, ⟨h, hh, rfl⟩, by simp⟩), ?_⟩
    rw [andThen_ok]
    refine ⟨(), l ++ (p ++ w), expect_ok.2 ((token_ok (hard_of (by decide) (by decide))).2 ⟨k ++ ">".toList, ⟨k, hk, rfl⟩, by simp⟩), ?_⟩
    rw [skip_gap hl hf, notes_ok hc hw]

theorem header_sound {n : Nat} {t : List Char} {u : Unit} {r : List Char} (h : header n t = .ok u r) : ∃ x, t = x ++ '>' :: r := by
  induction n generalizing t with
  | zero => cases h
  | succ n ih =>
    obtain ⟨g, -, e, -⟩ := skip_spec t
    rw [header] at h
    split at h
    · cases h
    · rename_i c v hs
      rw [hs] at e
      split_ifs at h with hc
      · cases h
        exact ⟨g, by rw [e, hc]⟩
      · obtain ⟨x, hx⟩ := ih h
        exact ⟨g ++ c :: x, by rw [e, hx]; simp⟩

theorem prologue_sound {t : List Char} {u : Unit} {r : List Char} (h : prologue t = .ok u r) :
    (∃ h, Lead h ∧ t = h ++ r) ∧ (r = [] ∨ nodeText <+: r ∨ boundsText <+: r) := by
  unfold prologue at h
  simp only [andThen_ok, expect_ok, token_ok (hard_of (show isSpace '<' = false by decide) (by decide)),
    token_ok (hard_of (show isSpace '>' = false by decide) (by decide)), Res.ok.injEq] at h
  obtain ⟨_, t1, ⟨_, ⟨g, hg, rfl⟩, rfl⟩, _, t2, h2, _, t3, ⟨_, ⟨h, hh, rfl⟩, rfl⟩, _, t4, ⟨_, ⟨k, hk, rfl⟩, rfl⟩, _, rfl⟩ := h
  obtain ⟨x, rfl⟩ := header_sound h2
  obtain ⟨l, -, e, -⟩ := skip_spec t4
  obtain ⟨p, e', hp⟩ := notes_spec (skip t4)
  refine ⟨⟨_, ⟨g, x, h, k, l ++ p, hg, hh, hk, rfl⟩, ?_⟩, hp⟩
  conv_lhs => rw [e, e']
  simp

end Verif.OsmXmlProof
