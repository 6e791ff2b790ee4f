import Verif.Props.AtlasSpec
import Verif.Proof.LsysText

/-! # Lemmas about texture atlases -/
namespace Verif.AtlasProof
open Verif.Atlas Verif.AtlasSpec
open Verif.MapCss (Res Parser isSpace many many1 digit digitLoop unsigned)
open Verif.MapCssSpec (Digits)
open Verif.MapCssProof (ok_andThen Progress NoDigit)
open Verif.LsysText (integer sign)
open Verif.LsysTextSpec (PrintsInt PrintsSign)
open Verif.LsysTextProof (Chain many_iff integer_sound integer_ok digitLoop_spec digits_head digit_iff)

theorem blank_iff (c : Char) : Blank c ↔ isSpace c = true := by
  unfold Blank isSpace
  simp only [List.mem_cons, List.not_mem_nil, or_false, decide_eq_true_eq]
  constructor
  · rintro (h | h | h | h | h | h) <;> subst h <;> decide
  · rintro (h | ⟨h1, h2⟩)
    · exact .inl h
    · have e : c = Char.ofNat c.toNat := by simp
      have : c.toNat = 9 ∨ c.toNat = 10 ∨ c.toNat = 11 ∨ c.toNat = 12 ∨ c.toNat = 13 := by omega
      right
      rcases this with h | h | h | h | h <;> rw [h] at e <;> subst e <;> decide

theorem gap_nil : Gap [] := by simp [Gap]

theorem gap_append {g h : List Char} (hg : Gap g) (hh : Gap h) : Gap (g ++ h) := by
  intro c hc
  rcases List.mem_append.1 hc with h | h
  · exact hg c h
  · exact hh c h

theorem skip_spec (t : List Char) : ∃ g, Gap g ∧ t = g ++ skip t ∧ ∀ c ∈ (skip t).head?, ¬ Blank c := by
  refine ⟨t.takeWhile isSpace, ?_, by simp [skip], ?_⟩
  · intro c hc
    rw [blank_iff]
    exact List.all_eq_true.1 (List.all_takeWhile (p := isSpace) (l := t)) c hc
  · intro c hc
    rw [blank_iff]
    unfold skip at hc
    have h := List.head?_dropWhile_not isSpace t
    rw [Option.mem_def.1 hc] at h
    simpa using h

theorem skip_gap {g : List Char} (hg : Gap g) (r : List Char) (hr : ∀ c ∈ r.head?, ¬ Blank c) : skip (g ++ r) = r := by
  unfold skip
  rw [List.dropWhile_append_of_pos (fun c hc => (blank_iff c).1 (hg c hc))]
  cases r with
  | nil => rfl
  | cons c r =>
    have := hr c (by simp)
    rw [blank_iff] at this
    simp [List.dropWhile, this]

theorem comma_iff (t : List Char) (a : Unit) (r : List Char) : comma t = .ok a r ↔ ∃ w, Comma w ∧ t = w ++ r := by
  obtain ⟨g, hg, ht, -⟩ := skip_spec t
  constructor
  · intro h
    unfold comma at h
    split at h
    · cases h
    · rename_i c u e
      split_ifs at h with hc
      simp only [Res.ok.injEq] at h
      subst hc
      refine ⟨g ++ [','], ⟨g, hg, rfl⟩, ?_⟩
      rw [e, h.2] at ht
      simpa using ht
  · rintro ⟨w, ⟨g, hg, rfl⟩, rfl⟩
    unfold comma
    rw [List.append_assoc, skip_gap hg ([','] ++ r) (by simp [blank_iff]; decide)]
    simp

theorem comma_here (r : List Char) : comma (',' :: r) = .ok () r := (comma_iff _ _ _).2 ⟨[','], ⟨[], gap_nil, rfl⟩, rfl⟩

theorem integer_end {t r : List Char} {n : Int} (h : integer t = some (n, r)) : NoDigit r := by
  have key : ∀ {l : Nat} {t r : List Char} {n : Nat}, unsigned l t = some (n, r) → NoDigit r := by
    intro l t r n h
    obtain ⟨ds, u, h1, h2, h3, h4⟩ := digitLoop_spec t 0 0
    unfold unsigned at h
    rw [h4] at h
    simp only at h
    split_ifs at h with hc
    simp only [Option.some.injEq, Prod.mk.injEq] at h
    rw [← h.2]
    exact h3
  unfold integer at h
  cases e : sign t with
  | mk b u =>
    rw [e] at h
    cases b with
    | true =>
      simp only [Option.map_eq_some_iff, Prod.mk.injEq] at h
      obtain ⟨⟨m, r'⟩, h1, h2, h3⟩ := h
      simp only at h3
      subst h3
      exact key h1
    | false =>
      simp only [Option.map_eq_some_iff, Prod.mk.injEq] at h
      obtain ⟨⟨m, r'⟩, h1, h2, h3⟩ := h
      simp only at h3
      subst h3
      exact key h1

theorem digit_none (c : Char) : digit c = none ↔ ¬ (48 ≤ c.toNat ∧ c.toNat ≤ 57) := by
  unfold digit
  split_ifs with h <;> simp_all

theorem apart_iff (r : List Char) : Apart r ↔ NoDigit r := by
  unfold Apart NoDigit
  constructor
  · rintro h c t rfl
    exact (digit_none c).2 (h c (by simp))
  · intro h c hc
    cases r with
    | nil => simp at hc
    | cons d t =>
      simp only [List.head?_cons, Option.mem_def, Option.some.injEq] at hc
      subst hc
      exact (digit_none _).1 (h _ _ rfl)

theorem printsInt_head {n : Int} {w : List Char} (h : PrintsInt n w) (r : List Char) : ∃ c u, w ++ r = c :: u ∧ ¬ Blank c := by
  have key : ∀ {b : Bool} {s w : List Char} {n : Nat}, PrintsSign b s → Digits w n → ∃ c u, (s ++ w) ++ r = c :: u ∧ ¬ Blank c := by
    intro b s w n hs hw
    obtain ⟨c, t, d, rfl, hd⟩ := digits_head hw
    cases hs with
    | none =>
      refine ⟨c, t ++ r, rfl, ?_⟩
      intro hb
      simp only [Blank, List.mem_cons, List.not_mem_nil, or_false] at hb
      rcases hb with h | h | h | h | h | h <;> subst h <;> revert hd <;> simp [digit]
    | plus => exact ⟨_, _, rfl, by rw [blank_iff]; decide⟩
    | minus => exact ⟨_, _, rfl, by rw [blank_iff]; decide⟩
  cases h with
  | positive s w n hs hw hn => exact key hs hw
  | negative s w n hs hw hn => exact key hs hw

theorem int_iff (t : List Char) (n : Int) (r : List Char) : int t = .ok n r ↔ (∃ w, Number n w ∧ t = w ++ r) ∧ Apart r := by
  obtain ⟨g, hg, ht, -⟩ := skip_spec t
  constructor
  · intro h
    unfold int at h
    split at h
    · rename_i n' r' e
      simp only [Res.ok.injEq] at h
      obtain ⟨rfl, rfl⟩ := h
      obtain ⟨w, hw, hs⟩ := integer_sound e
      exact ⟨⟨g ++ w, ⟨g, w, hg, hw, rfl⟩, by rw [List.append_assoc, ← hs]; exact ht⟩, (apart_iff _).2 (integer_end e)⟩
    · cases h
  · rintro ⟨⟨w, ⟨g, v, hg, hv, rfl⟩, rfl⟩, hr⟩
    obtain ⟨c, u, e, hc⟩ := printsInt_head hv r
    unfold int
    rw [List.append_assoc, skip_gap hg (v ++ r) (by rw [e]; simpa using hc), integer_ok hv r ((apart_iff _).1 hr)]

theorem isName_iff (c : Char) : isName c = true ↔ c.toNat < 128 ∧ c ≠ ',' := by simp [isName]

theorem name_iff (t n u : List Char) : name t = .ok n (',' :: u) ↔ ∃ g, Gap g ∧ Name n ∧ t = g ++ (n ++ ',' :: u) := by
  obtain ⟨g, hg, ht, hs⟩ := skip_spec t
  constructor
  · intro h
    unfold name at h
    split at h
    · cases h
    · rename_i c m e
      simp only [Res.ok.injEq] at h
      obtain ⟨rfl, h⟩ := h
      have hsplit : skip t = (c :: m) ++ ',' :: u := by
        rw [← e, ← h]
        simp
      refine ⟨g, hg, ⟨by simp, ?_, ?_⟩, by rw [← hsplit]; exact ht⟩
      · intro d hd
        rw [← e] at hd
        exact (isName_iff d).1 (List.all_eq_true.1 (List.all_takeWhile (p := isName) (l := skip t)) d hd)
      · intro d hd
        refine hs d ?_
        rw [hsplit]
        simpa using hd
  · rintro ⟨g, hg, ⟨h0, h1, h2⟩, rfl⟩
    cases n with
    | nil => exact absurd rfl h0
    | cons c n =>
      have e := skip_gap hg ((c :: n) ++ ',' :: u) (by simpa using h2)
      unfold name
      rw [e]
      have hp : ∀ d ∈ c :: n, isName d = true := fun d hd => (isName_iff d).2 (h1 d hd)
      rw [List.takeWhile_append_of_pos hp, List.dropWhile_append_of_pos hp]
      have : isName ',' = false := by decide
      simp [List.takeWhile, List.dropWhile, this]

theorem comma_head {w : List Char} (h : Comma w) (r : List Char) : Apart (w ++ r) := by
  obtain ⟨g, hg, rfl⟩ := h
  intro c hc
  cases g with
  | nil =>
    simp only [List.nil_append, List.cons_append, List.head?_cons, Option.mem_def, Option.some.injEq] at hc
    subst hc
    decide
  | cons d g =>
    simp only [List.cons_append, List.head?_cons, Option.mem_def, Option.some.injEq] at hc
    subst hc
    have := hg d (by simp)
    simp only [Blank, List.mem_cons, List.not_mem_nil, or_false] at this
    rcases this with h | h | h | h | h | h <;> subst h <;> decide

theorem name_comma (t n r : List Char) (a : Unit) (r' : List Char) (h : name t = .ok n r) (hc : comma r = .ok a r') : r = ',' :: r' := by
  unfold name at h
  split at h
  · cases h
  · rename_i c m e
    simp only [Res.ok.injEq] at h
    obtain ⟨rfl, rfl⟩ := h
    obtain ⟨w, ⟨g, hg, rfl⟩, hr⟩ := (comma_iff _ _ _).1 hc
    cases g with
    | nil => simpa using hr
    | cons d g =>
      exfalso
      have h := List.head?_dropWhile_not isName (skip t)
      rw [hr] at h
      have hb := hg d (by simp)
      simp only [List.cons_append, List.head?_cons] at h
      have hd : isName d = true := by
        simp only [Blank, List.mem_cons, List.not_mem_nil, or_false] at hb
        rcases hb with h | h | h | h | h | h <;> subst h <;> decide
      rw [hd] at h
      cases h

theorem region_iff (t : List Char) (x : Region) (r : List Char) : region t = .ok x r ↔ (∃ w, PrintsRegion x w ∧ t = w ++ r) ∧ Apart r := by
  constructor
  · intro h
    unfold region at h
    obtain ⟨n, r1, k1, h⟩ := ok_andThen h
    obtain ⟨⟨⟩, r2, k2, h⟩ := ok_andThen h
    obtain ⟨a, r3, k3, h⟩ := ok_andThen h
    obtain ⟨⟨⟩, r4, k4, h⟩ := ok_andThen h
    obtain ⟨b, r5, k5, h⟩ := ok_andThen h
    obtain ⟨⟨⟩, r6, k6, h⟩ := ok_andThen h
    obtain ⟨c, r7, k7, h⟩ := ok_andThen h
    obtain ⟨⟨⟩, r8, k8, h⟩ := ok_andThen h
    obtain ⟨d, r9, k9, h⟩ := ok_andThen h
    simp only [Res.ok.injEq] at h
    obtain ⟨rfl, rfl⟩ := h
    have e := name_comma t n r1 _ r2 k1 k2
    subst e
    obtain ⟨g, hg, hn, rfl⟩ := (name_iff _ _ _).1 k1
    obtain ⟨⟨w3, hw3, rfl⟩, -⟩ := (int_iff _ _ _).1 k3
    obtain ⟨w4, hw4, rfl⟩ := (comma_iff _ _ _).1 k4
    obtain ⟨⟨w5, hw5, rfl⟩, -⟩ := (int_iff _ _ _).1 k5
    obtain ⟨w6, hw6, rfl⟩ := (comma_iff _ _ _).1 k6
    obtain ⟨⟨w7, hw7, rfl⟩, -⟩ := (int_iff _ _ _).1 k7
    obtain ⟨w8, hw8, rfl⟩ := (comma_iff _ _ _).1 k8
    obtain ⟨⟨w9, hw9, rfl⟩, hr⟩ := (int_iff _ _ _).1 k9
    exact ⟨⟨_, .mk ⟨n, a, b, c, d⟩ g w3 w4 w5 w6 w7 w8 w9 hg hn hw3 hw4 hw5 hw6 hw7 hw8 hw9, by simp⟩, hr⟩
  · rintro ⟨⟨w, hw, rfl⟩, hr⟩
    cases hw with
    | mk g a c b c' d c'' e hg hn ha hc hb hc' hd hc'' he =>
      unfold region
      have e1 := (name_iff _ x.groupName (a ++ (c ++ (b ++ (c' ++ (d ++ (c'' ++ (e ++ r)))))))).2 ⟨g, hg, hn, rfl⟩
      simp only [List.append_assoc, List.cons_append]
      rw [e1]
      simp only [Res.andThen]
      rw [comma_here]
      simp only
      rw [(int_iff _ x.x _).2 ⟨⟨a, ha, rfl⟩, comma_head hc _⟩]
      simp only
      rw [(comma_iff _ () _).2 ⟨c, hc, rfl⟩]
      simp only
      rw [(int_iff _ x.y _).2 ⟨⟨b, hb, rfl⟩, comma_head hc' _⟩]
      simp only
      rw [(comma_iff _ () _).2 ⟨c', hc', rfl⟩]
      simp only
      rw [(int_iff _ x.width _).2 ⟨⟨d, hd, rfl⟩, comma_head hc'' _⟩]
      simp only
      rw [(comma_iff _ () _).2 ⟨c'', hc'', rfl⟩]
      simp only
      rw [(int_iff _ x.height _).2 ⟨⟨e, he, rfl⟩, hr⟩]

theorem comma_no_error (t : List Char) : comma t ≠ .error := by
  unfold comma
  split
  · simp
  · split_ifs <;> simp

theorem int_no_error (t : List Char) : int t ≠ .error := by
  unfold int
  split <;> simp

theorem name_no_error (t : List Char) : name t ≠ .error := by
  unfold name
  split <;> simp

theorem andThen_no_error {α β : Type} {p : Res α} {k : α → List Char → Res β} (hp : p ≠ .error) (hk : ∀ a r, k a r ≠ .error) : p.andThen k ≠ .error := by
  cases p with
  | ok a r => exact hk a r
  | fail => simp [Res.andThen]
  | error => exact absurd rfl hp

theorem region_no_error (t : List Char) : region t ≠ .error := by
  unfold region
  refine andThen_no_error (name_no_error _) fun _ _ => andThen_no_error (comma_no_error _) fun _ _ => andThen_no_error (int_no_error _) fun _ _ =>
    andThen_no_error (comma_no_error _) fun _ _ => andThen_no_error (int_no_error _) fun _ _ => andThen_no_error (comma_no_error _) fun _ _ =>
    andThen_no_error (int_no_error _) fun _ _ => andThen_no_error (comma_no_error _) fun _ _ => andThen_no_error (int_no_error _) fun _ _ => by simp

theorem region_fail_iff (t : List Char) : region t = .fail ↔ ¬ ∃ r w v, PrintsRegion r w ∧ Apart v ∧ t = w ++ v := by
  constructor
  · rintro h ⟨r, w, v, hw, hv, e⟩
    rw [(region_iff t r v).2 ⟨⟨w, hw, e⟩, hv⟩] at h
    cases h
  · intro h
    cases e : region t with
    | fail => rfl
    | error => exact absurd e (region_no_error t)
    | ok r v =>
      obtain ⟨⟨w, hw, ht⟩, hv⟩ := (region_iff t r v).1 e
      exact absurd ⟨r, w, v, hw, hv, ht⟩ h

theorem printsRegion_length {r : Region} {w : List Char} (h : PrintsRegion r w) : 0 < w.length := by
  cases h
  simp

theorem region_progress : Progress region := by
  intro t x r h
  obtain ⟨⟨w, hw, rfl⟩, -⟩ := (region_iff t x r).1 h
  have := printsRegion_length hw
  simp
  omega

theorem region_nil : region [] = .fail := rfl

theorem printsRegions_nonempty {rs : List Region} {w : List Char} (h : PrintsRegions rs w) : w ≠ [] := by
  cases h with
  | one r w hr => exact List.ne_nil_of_length_pos (printsRegion_length hr)
  | more r w rs v hr ha h =>
    have := List.ne_nil_of_length_pos (printsRegion_length hr)
    simp [this]

theorem apart_append {v : List Char} (h : v ≠ []) (r : List Char) : Apart (v ++ r) ↔ Apart v := by
  cases v with
  | nil => exact absurd rfl h
  | cons c v => simp [Apart]

theorem regions_chain (x : Region) (xs : List Region) (t r : List Char) (hr : Apart r) :
    Chain region (x :: xs) t r ↔ ∃ w, PrintsRegions (x :: xs) w ∧ t = w ++ r := by
  induction xs generalizing x t with
  | nil =>
    constructor
    · intro h
      cases h with
      | cons _ _ _ u _ h hs =>
        cases hs
        obtain ⟨⟨w, hw, rfl⟩, -⟩ := (region_iff _ _ _).1 h
        exact ⟨w, .one x w hw, rfl⟩
    · rintro ⟨w, hw, rfl⟩
      cases hw with
      | one _ _ hw => exact .cons _ _ _ r _ ((region_iff _ _ _).2 ⟨⟨w, hw, rfl⟩, hr⟩) (.nil _)
      | more _ _ _ _ _ _ h => cases h
  | cons y ys ih =>
    constructor
    · intro h
      cases h with
      | cons _ _ _ u _ h hs =>
        obtain ⟨v, hv, rfl⟩ := (ih y u).1 hs
        obtain ⟨⟨w, hw, rfl⟩, ha⟩ := (region_iff _ _ _).1 h
        exact ⟨w ++ v, .more x w _ v hw ((apart_append (printsRegions_nonempty hv) r).1 ha) hv, by simp⟩
    · rintro ⟨w, hw, rfl⟩
      cases hw with
      | more _ w _ v hw ha h =>
        refine .cons _ _ _ (v ++ r) _ ((region_iff _ _ _).2 ⟨⟨w, hw, by simp⟩, (apart_append (printsRegions_nonempty h) r).2 ha⟩) ((ih y _).2 ⟨v, h, rfl⟩)

theorem regions_iff (t : List Char) (xs : List Region) (r : List Char) :
    many1 region t = .ok xs r ↔ (∃ w, PrintsRegions xs w ∧ t = w ++ r) ∧ Stops r := by
  unfold many1
  constructor
  · intro h
    obtain ⟨a, u, h1, h2⟩ := ok_andThen h
    obtain ⟨as, v, h3, h4⟩ := ok_andThen h2
    simp only [Res.ok.injEq] at h4
    obtain ⟨rfl, rfl⟩ := h4
    obtain ⟨h5, h6⟩ := (many_iff region region_progress region_nil _ u (Nat.le_refl _) as _).1 h3
    have ha : ∀ {as : List Region} {t u r : List Char} {a : Region}, region t = .ok a u → Chain region as u r → Apart r := by
      intro as
      induction as with
      | nil =>
        intro t u r a h hc
        cases hc
        exact ((region_iff _ _ _).1 h).2
      | cons b bs ih =>
        intro t u r a h hc
        cases hc with
        | cons _ _ _ u' _ h' hc' => exact ih h' hc'
    have hr := ha h1 h5
    exact ⟨(regions_chain a as t _ hr).1 (.cons _ _ _ u _ h1 h5), hr, (region_fail_iff _).1 h6⟩
  · rintro ⟨⟨w, hw, rfl⟩, hr⟩
    obtain ⟨a, as, rfl⟩ : ∃ a as, xs = a :: as := by cases hw <;> exact ⟨_, _, rfl⟩
    have := (regions_chain a as _ r hr.1).2 ⟨w, hw, rfl⟩
    cases this with
    | cons _ _ _ u _ h hs =>
      rw [h]
      simp only [Res.andThen]
      rw [(many_iff region region_progress region_nil _ u (Nat.le_refl _) as r).2 ⟨hs, (region_fail_iff r).2 hr.2⟩]

theorem atlas_iff (t : List Char) (x : Text) (u : List Char) : atlas t = .ok x u ↔ (∃ w, PrintsAtlas x w ∧ t = w ++ u) ∧ Stops u := by
  constructor
  · intro h
    unfold atlas at h
    obtain ⟨a, r1, k1, h⟩ := ok_andThen h
    obtain ⟨⟨⟩, r2, k2, h⟩ := ok_andThen h
    obtain ⟨b, r3, k3, h⟩ := ok_andThen h
    obtain ⟨⟨⟩, r4, k4, h⟩ := ok_andThen h
    obtain ⟨c, r5, k5, h⟩ := ok_andThen h
    obtain ⟨rs, r6, k6, h⟩ := ok_andThen h
    simp only [Res.ok.injEq] at h
    obtain ⟨rfl, rfl⟩ := h
    obtain ⟨⟨w1, hw1, rfl⟩, -⟩ := (int_iff _ _ _).1 k1
    obtain ⟨w2, hw2, rfl⟩ := (comma_iff _ _ _).1 k2
    obtain ⟨⟨w3, hw3, rfl⟩, -⟩ := (int_iff _ _ _).1 k3
    obtain ⟨w4, hw4, rfl⟩ := (comma_iff _ _ _).1 k4
    obtain ⟨⟨w5, hw5, rfl⟩, ha⟩ := (int_iff _ _ _).1 k5
    obtain ⟨⟨w6, hw6, rfl⟩, hu⟩ := (regions_iff _ _ _).1 k6
    exact ⟨⟨_, .mk ⟨a, b, c, rs⟩ w1 w2 w3 w4 w5 w6 hw1 hw2 hw3 hw4 hw5 ((apart_append (printsRegions_nonempty hw6) _).1 ha) hw6, by simp⟩, hu⟩
  · rintro ⟨⟨w, hw, rfl⟩, hu⟩
    cases hw with
    | mk a c b c' d v ha hc hb hc' hd hv hr =>
      unfold atlas
      simp only [List.append_assoc]
      rw [(int_iff _ x.id _).2 ⟨⟨a, ha, rfl⟩, comma_head hc _⟩]
      simp only [Res.andThen]
      rw [(comma_iff _ () _).2 ⟨c, hc, rfl⟩]
      simp only
      rw [(int_iff _ x.width _).2 ⟨⟨b, hb, rfl⟩, comma_head hc' _⟩]
      simp only
      rw [(comma_iff _ () _).2 ⟨c', hc', rfl⟩]
      simp only
      rw [(int_iff _ x.height _).2 ⟨⟨d, hd, rfl⟩, (apart_append (printsRegions_nonempty hr) _).2 hv⟩]
      simp only
      rw [(regions_iff _ x.regions _).2 ⟨⟨v, hr, rfl⟩, hu⟩]

/-! ## Groups -/

theorem toTexture_ok (x : Text) (r : Region) (h : Fits r) : ∃ t, toTexture x r = .ok t ∧ Shows x r t := by
  simp only [Fits, List.mem_cons, List.not_mem_nil, or_false, forall_eq_or_imp, forall_eq] at h
  obtain ⟨h1, h2, h3, h4⟩ := h
  refine ⟨⟨wrap x.width, wrap x.height, r.x.toNat, r.y.toNat, r.width.toNat, r.height.toNat⟩, ?_, ?_, ?_, ?_, ?_, ?_, ?_⟩
  · unfold toTexture add convert
    rw [if_pos (by omega), Outcome.bind, if_pos (by omega), Outcome.bind, if_pos (by omega), Outcome.bind, if_pos (by omega), Outcome.bind,
      if_pos (by omega), Outcome.bind, if_pos (by omega), Outcome.bind]
    congr 2 <;> congr 1 <;> omega
  all_goals simp only [wrap]; omega

theorem toTexture_ub (x : Text) (r : Region) (h : ¬ Fits r) : ∃ e, toTexture x r = .ub e := by
  simp only [Fits, List.mem_cons, List.not_mem_nil, or_false, forall_eq_or_imp, forall_eq] at h
  unfold toTexture
  by_cases a1 : -2147483648 ≤ r.x + r.width ∧ r.x + r.width < 2147483648
  swap
  · exact ⟨_, by rw [add, if_neg a1]; rfl⟩
  rw [add, if_pos a1, Outcome.bind]
  by_cases a2 : -2147483648 ≤ r.y + r.height ∧ r.y + r.height < 2147483648
  swap
  · exact ⟨_, by rw [add, if_neg a2]; rfl⟩
  rw [add, if_pos a2, Outcome.bind]
  by_cases a3 : 0 ≤ r.x ∧ r.x < 65536
  swap
  · exact ⟨_, by rw [convert, if_neg a3]; rfl⟩
  rw [convert, if_pos a3, Outcome.bind]
  by_cases a4 : 0 ≤ r.y ∧ r.y < 65536
  swap
  · exact ⟨_, by rw [convert, if_neg a4]; rfl⟩
  rw [convert, if_pos a4, Outcome.bind]
  by_cases a5 : 0 ≤ r.x + r.width - r.x ∧ r.x + r.width - r.x < 65536
  swap
  · exact ⟨_, by rw [convert, if_neg a5]; rfl⟩
  rw [convert, if_pos a5, Outcome.bind]
  by_cases a6 : 0 ≤ r.y + r.height - r.y ∧ r.y + r.height - r.y < 65536
  swap
  · exact ⟨_, by rw [convert, if_neg a6]; rfl⟩
  omega

/-- What the groups of the first regions hold. -/
def Holds (x : Text) (done : List Region) (groups : Assoc (List Char) Group) : Prop :=
  ∀ key, (named key done = [] ∧ groups.find key = none) ∨ ∃ g, named key done ≠ [] ∧ groups.find key = some g ∧ List.Forall₂ (Shows x) (named key done) g

theorem holds_step (x : Text) (done : List Region) (groups : Assoc (List Char) Group) (r : Region) (t : TextureRegion) (h : Holds x done groups) (ht : Shows x r t) :
    Holds x (done ++ [r]) (groups.set r.groupName ((groups.find r.groupName).getD [] ++ [t])) := by
  intro key
  rw [Assoc.find_set]
  by_cases hk : key = r.groupName
  · subst hk
    right
    have e : named r.groupName (done ++ [r]) = named r.groupName done ++ [r] := by simp [named]
    refine ⟨_, by simp [e], if_pos rfl, ?_⟩
    rw [e]
    rcases h r.groupName with ⟨h1, h2⟩ | ⟨g, -, h2, h3⟩
    · rw [h1, h2]
      exact .cons ht .nil
    · rw [h2]
      exact List.rel_append h3 (.cons ht .nil)
  · have e : named key (done ++ [r]) = named key done := by simp [named, Ne.symm hk]
    rw [if_neg hk, e]
    exact h key

theorem addRegions_ok (x : Text) (rs done : List Region) (groups : Assoc (List Char) Group) (h : Holds x done groups) (hf : ∀ r ∈ rs, Fits r) :
    ∃ groups', addRegions x rs groups = .ok groups' ∧ Holds x (done ++ rs) groups' := by
  induction rs generalizing done groups with
  | nil => exact ⟨groups, rfl, by simpa using h⟩
  | cons r rs ih =>
    obtain ⟨t, e, ht⟩ := toTexture_ok x r (hf r (by simp))
    obtain ⟨g', h1, h2⟩ := ih (done ++ [r]) _ (holds_step x done groups r t h ht) (fun r hr => hf r (by simp [hr]))
    refine ⟨g', ?_, by simpa using h2⟩
    simp only [addRegions, e, Outcome.bind]
    exact h1

theorem addRegions_ub (x : Text) (rs : List Region) (groups : Assoc (List Char) Group) (h : ∃ r ∈ rs, ¬ Fits r) : ∃ e, addRegions x rs groups = .ub e := by
  induction rs generalizing groups with
  | nil => simp at h
  | cons r rs ih =>
    by_cases hr : Fits r
    · obtain ⟨t, e, -⟩ := toTexture_ok x r hr
      simp only [addRegions, e, Outcome.bind]
      refine ih _ ?_
      obtain ⟨r', hr', hf⟩ := h
      rcases List.mem_cons.1 hr' with rfl | h'
      · exact absurd hr hf
      · exact ⟨r', h', hf⟩
    · obtain ⟨e, he⟩ := toTexture_ub x r hr
      exact ⟨e, by simp only [addRegions, he, Outcome.bind]⟩

end Verif.AtlasProof
