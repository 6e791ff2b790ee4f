import Verif.Proof.LsysText

/-! # C91: texts of L-systems -/
namespace Verif.Props
open Verif.Lsys Verif.LsysText Verif.LsysTextSpec Verif.LsysTextProof
open Verif.MapCss (Res)
open Verif.MapCssSpec (Digits)
open Verif.MapCssProof (ok_andThen ok_expect NoDigit)

namespace LsysTextProof

theorem keyword_ok (c : Char) (hc : Solid c) (s value w : List Char) (h : PrintsEntry (c :: s) value w) (r : List Char) :
    ∃ g, Gap g ∧ lit (c :: s) (w ++ r) = .ok () (g ++ (value ++ r)) ∧ (MapCss.isSpace c = false → space (w ++ r) = .fail) := by
  obtain ⟨g, k, hg, hk, rfl⟩ := h
  refine ⟨k, hk, ?_, ?_⟩
  · have e : g ++ (c :: s ++ (k ++ value)) ++ r = g ++ (c :: s ++ (k ++ (value ++ r))) := by simp
    rw [e]
    exact lit_ok c hc s hg _
  · intro hn
    rw [List.append_assoc, List.cons_append, List.cons_append]
    exact space_fail hg c hc hn _

theorem gap_rules {g : List Char} (hg : Gap g) {rs : List Rule} {z : List Char} (hz : PrintsRules rs z) (v : List Char) :
    ∃ w, PrintsRules rs w ∧ g ++ (z ++ v) = w ++ v := by
  cases hz with
  | one k r w hk hr => exact ⟨(g ++ k) ++ w, .one _ r w (gap_append hg hk) hr, by simp⟩
  | more k r w rs v hk hr hap h => exact ⟨(g ++ k) ++ (w ++ v), .more _ r w rs v (gap_append hg hk) hr hap h, by simp⟩

theorem lsystem_iff (t : List Char) (s : System) (u : List Char) : lsystem t = .ok s u ↔ (∃ w, Prints s w ∧ t = w ++ u) ∧ Stops u := by
  constructor
  · intro h
    unfold lsystem at h
    obtain ⟨⟨⟩, r1, k1, h⟩ := ok_andThen h
    obtain ⟨generations, r2, k2, h⟩ := ok_andThen h
    obtain ⟨⟨⟩, r3, k3, h⟩ := ok_andThen h
    obtain ⟨angle, r4, k4, h⟩ := ok_andThen h
    obtain ⟨⟨⟩, r5, k5, h⟩ := ok_andThen h
    obtain ⟨scale, r6, k6, h⟩ := ok_andThen h
    obtain ⟨⟨⟩, r7, k7, h⟩ := ok_andThen h
    obtain ⟨start, r8, k8, h⟩ := ok_andThen h
    obtain ⟨⟨⟩, r9, k9, h⟩ := ok_andThen h
    obtain ⟨grammar, r10, k10, h⟩ := ok_andThen h
    simp only [Res.ok.injEq] at h
    obtain ⟨rfl, rfl⟩ := h
    obtain ⟨g1, hg1, rfl⟩ := (lit_iff 'g' (by decide) _ _ _ _).1 k1
    obtain ⟨_, _, m2, l2⟩ := ok_andThen (ok_expect k2)
    obtain ⟨⟨⟩, _, n2, e2⟩ := ok_andThen l2
    simp only [Res.ok.injEq] at e2
    obtain ⟨rfl, rfl⟩ := e2
    obtain ⟨g2, w2, hg2, hw2, rfl⟩ := int_sound m2
    obtain ⟨b2, hb2, rfl⟩ := spaces_sound n2
    obtain ⟨g3, hg3, rfl⟩ := (lit_iff 'a' (by decide) _ _ _ _).1 (ok_expect k3)
    obtain ⟨_, _, m4, l4⟩ := ok_andThen (ok_expect k4)
    obtain ⟨⟨⟩, _, n4, e4⟩ := ok_andThen l4
    simp only [Res.ok.injEq] at e4
    obtain ⟨rfl, rfl⟩ := e4
    obtain ⟨g4, w4, hg4, hw4, rfl⟩ := double_sound m4
    obtain ⟨b4, hb4, rfl⟩ := spaces_sound n4
    obtain ⟨g5, hg5, rfl⟩ := (lit_iff 's' (by decide) _ _ _ _).1 (ok_expect k5)
    obtain ⟨_, _, m6, l6⟩ := ok_andThen (ok_expect k6)
    obtain ⟨⟨⟩, _, n6, e6⟩ := ok_andThen l6
    simp only [Res.ok.injEq] at e6
    obtain ⟨rfl, rfl⟩ := e6
    obtain ⟨g6, w6, hg6, hw6, rfl⟩ := double_sound m6
    obtain ⟨b6, hb6, rfl⟩ := spaces_sound n6
    obtain ⟨g7, hg7, rfl⟩ := (lit_iff 'a' (by decide) _ _ _ _).1 (ok_expect k7)
    obtain ⟨⟨w8, hw8, rfl⟩, -⟩ := (rules_iff _ _ _).1 (ok_expect k8)
    obtain ⟨g9, hg9, rfl⟩ := (lit_iff '\n' (by decide) [] _ _ _).1 (ok_expect k9)
    obtain ⟨⟨w10, hw10, rfl⟩, hu⟩ := (productions_iff _ _ _).1 (ok_expect k10)
    refine ⟨⟨_, .mk ⟨_, _, _, _, _⟩ _ w2 b2 _ w4 b4 _ w6 b6 _ w8 _ g9 w10 ⟨g1, g2, hg1, hg2, rfl⟩ hw2 hb2 ⟨g3, g4, hg3, hg4, rfl⟩ hw4 hb4 ⟨g5, g6, hg5, hg6, rfl⟩ hw6 hb6
      ⟨g7, [], hg7, .nil, rfl⟩ hw8 hg9 rfl hw10, ?_⟩, hu⟩
    simp
  · rintro ⟨⟨w, hw, rfl⟩, hu⟩
    cases hw with
    | mk a n a' b x b' c y c' d z d' g p ha hn ha' hb hx hb' hc hy hc' hd hz hg hd' hp =>
      subst hd'
      simp only [List.append_assoc]
      unfold lsystem
      obtain ⟨g1, hg1, e1, -⟩ := keyword_ok 'g' (by decide) _ n a ha (a' ++ (b ++ (b' ++ (c ++ (c' ++ (d ++ (g ++ (['\n'] ++ (p ++ u)))))))))
      obtain ⟨g2, hg2, e2, f2⟩ := keyword_ok 'a' (by decide) _ x b hb (b' ++ (c ++ (c' ++ (d ++ (g ++ (['\n'] ++ (p ++ u)))))))
      obtain ⟨g3, hg3, e3, f3⟩ := keyword_ok 's' (by decide) _ y c hc (c' ++ (d ++ (g ++ (['\n'] ++ (p ++ u)))))
      obtain ⟨g4, hg4, e4, f4⟩ := keyword_ok 'a' (by decide) _ z d hd (g ++ (['\n'] ++ (p ++ u)))
      rw [show lit generationsText _ = _ from e1]
      simp only [Res.andThen]
      rw [int_ok hg1 hn _ (break_numberEnd ha' _).1]
      simp only
      rw [spaces_ok ha' _ (f2 (by decide))]
      simp only [Res.expect]
      rw [show lit angleText _ = _ from e2]
      simp only
      rw [double_ok hg2 hx _ (break_numberEnd hb' _)]
      simp only
      rw [spaces_ok hb' _ (f3 (by decide))]
      simp only
      rw [show lit scaleText _ = _ from e3]
      simp only
      rw [double_ok hg3 hy _ (break_numberEnd hc' _)]
      simp only
      rw [spaces_ok hc' _ (f4 (by decide))]
      simp only
      rw [show lit axiomText _ = _ from e4]
      simp only
      have hz' := gap_rules hg4 hz (g ++ (['\n'] ++ (p ++ u)))
      rw [(rules_iff _ _ _).2 ⟨hz', noRule_line hg _⟩]
      simp only
      rw [lit_ok '\n' (by decide) [] hg]
      simp only
      rw [(productions_iff _ _ _).2 ⟨⟨p, hp, rfl⟩, hu⟩]

end LsysTextProof

open LsysTextProof

/-- C91: a text is read as an L-system exactly if it begins with the text of this L-system and does not go on with a rule. -/
theorem C91_read (t : List Char) (s : System) : parse t = .ok s ↔ ∃ w u, t = w ++ u ∧ Prints s w ∧ Stops u := by
  have := lsystem_iff t s
  unfold parse
  constructor
  · intro h
    split at h
    · rename_i s' u e
      simp only [Outcome.ok.injEq] at h
      subst h
      obtain ⟨⟨w, hw, ht⟩, hu⟩ := (this u).1 e
      exact ⟨w, u, ht, hw, hu⟩
    · cases h
  · rintro ⟨w, u, ht, hw, hu⟩
    rw [(this u).2 ⟨⟨w, hw, ht⟩, hu⟩]

/-- C91: all other texts are refused, by an exception. -/
theorem C91_refused (t : List Char) : parse t = .throw "domain_error" ↔ ∀ s w u, t = w ++ u → Prints s w → ¬ Stops u := by
  constructor
  · intro h s w u ht hw hu
    rw [(C91_read t s).2 ⟨w, u, ht, hw, hu⟩] at h
    cases h
  · intro h
    cases e : lsystem t with
    | ok s u =>
      obtain ⟨⟨w, hw, ht⟩, hu⟩ := (lsystem_iff t s u).1 e
      exact absurd hu (h s w u ht hw)
    | fail => simp [parse, e]
    | error => simp [parse, e]

/-- C91: a text is the text of at most one L-system, if nothing follows. -/
theorem C91_unique (w : List Char) (s s' : System) (h : Prints s w) (h' : Prints s' w) : s = s' := by
  have hs : Stops [] := ⟨by rintro ⟨g, c, v, -, -, e⟩; simp at e, by rintro ⟨g, k, c, v, -, -, -, e⟩; simp at e⟩
  have e1 := (C91_read w s).2 ⟨w, [], by simp, h, hs⟩
  have e2 := (C91_read w s').2 ⟨w, [], by simp, h', hs⟩
  rw [e1] at e2
  simpa using e2

/-- C91 is violated: behind an empty line nothing is read, and nothing is refused. -/
theorem C91_violated_blank (s : System) (w : List Char) (h : Prints s w) (v : List Char) : parse (w ++ '\n' :: '\n' :: v) = .ok s := by
  refine (C91_read _ s).2 ⟨w, _, rfl, h, noRule_line (g := []) .nil _, ?_⟩
  rintro ⟨g, k, c, x, hg, hk, hc, e⟩
  cases g with
  | nil =>
    simp only [List.nil_append, List.cons.injEq, true_and] at e
    exact noRule_line (g := []) .nil v ⟨k, c, x, hk, hc, e⟩
  | cons a g =>
    simp only [List.cons_append, List.cons.injEq] at e
    have := gap_head hg
    rw [← e.1] at this
    revert this
    decide

/-- C91 is violated: the same for all which follows a character which is not known. -/
theorem C91_violated_unknown (s : System) (w : List Char) (h : Prints s w) (c : Char) (v : List Char) (hc : ¬ Starts c) (h1 : c ∉ [' ', '#', '\n']) :
    parse (w ++ c :: v) = .ok s := by
  simp only [List.mem_cons, List.not_mem_nil, or_false, not_or] at h1
  have hsol : Solid c := ⟨h1.1, h1.2.1⟩
  refine (C91_read _ s).2 ⟨w, _, rfl, h, ?_, ?_⟩
  · rintro ⟨g, d, x, hg, hd, e⟩
    cases g with
    | nil =>
      simp only [List.nil_append, List.cons.injEq] at e
      exact hc (e.1 ▸ hd)
    | cons a g =>
      simp only [List.cons_append, List.cons.injEq] at e
      have := gap_head hg
      rw [← e.1] at this
      rcases this with h | h
      · exact hsol.1 h
      · exact hsol.2 h
  · rintro ⟨g, k, d, x, hg, -, -, e⟩
    cases g with
    | nil =>
      simp only [List.nil_append, List.cons.injEq] at e
      exact h1.2.2 e.1
    | cons a g =>
      simp only [List.cons_append, List.cons.injEq] at e
      have := gap_head hg
      rw [← e.1] at this
      rcases this with h | h
      · exact hsol.1 h
      · exact hsol.2 h

namespace LsysTextProof

theorem blank : Gap [' '] := .blank _ .nil

theorem line : Break ['\n'] := .one [] '\n' .nil (by decide)

theorem one : Digits ['1'] 1 := ⟨[1], by simp, by simp, by decide, by decide⟩

theorem one_int : PrintsInt 1 ['1'] := .positive [] ['1'] 1 .none one (by norm_num)

theorem one_real : PrintsReal 1 ['1'] := by
  have := PrintsReal.mk false [] 1 ['1'] 0 [] .none (by simpa using PrintsMantissa.whole ['1'] 1 one) .none
  simpa using this

/-- The first lines of a text, for one generation, an angle of one degree and the scale one. -/
def head : List Char := "generations: 1\nangle: 1\nscale: 1\n".toList

theorem head_prints (start : List Rule) (grammar : List (Rule × ℚ × List Rule)) (z g p : List Char) (hz : PrintsRules start z) (hg : Gap g)
    (hp : PrintsProductions grammar p) : Prints ⟨1, 1, 1, start, grammar⟩ (head ++ ("axiom:".toList ++ (z ++ (g ++ '\n' :: p)))) := by
  have entry : ∀ k v, PrintsEntry k v (k ++ ' ' :: v) := fun k v => ⟨[], [' '], .nil, blank, by simp⟩
  have := Prints.mk ⟨1, 1, 1, start, grammar⟩ _ ['1'] ['\n'] _ ['1'] ['\n'] _ ['1'] ['\n'] ("axiom:".toList ++ z) z (g ++ ['\n']) g p (entry _ _) one_int line
    (entry _ _) one_real line (entry _ _) one_real line ⟨[], [], .nil, .nil, by simp⟩ hz hg rfl hp
  have e : head = "generations:".toList ++ [' ', '1', '\n'] ++ "angle:".toList ++ [' ', '1', '\n'] ++ "scale:".toList ++ [' ', '1', '\n'] := by decide
  rw [e]
  simp only [List.append_assoc, List.cons_append, List.nil_append] at this ⊢
  exact this

/-- `F -> G` -/
theorem step_prints (c d : Char) (o q : Op) (hc : (c, o) ∈ symbols) (hd : (d, q) ∈ symbols) : PrintsProduction (.op o, 1, [.op q]) [c, ' ', '-', '>', ' ', d] :=
  .mk [] (.op o) [c] 1 [] [' '] [.op q] [' ', d] .nil (.symbol c o hc) .none blank (.one [' '] _ [d] blank (.symbol d q hd))

theorem stops_nil : Stops [] := ⟨by rintro ⟨g, c, v, -, -, e⟩; simp at e, by rintro ⟨g, k, c, v, -, -, -, e⟩; simp at e⟩

end LsysTextProof

/-- C91 is violated: a comment behind the first rules takes the end of its line with it, so that the next line, which is a production, becomes a part of
the first rules. -/
theorem C91_violated_comment (body : List Char) (hb : '\n' ∉ body) :
    parse (head ++ ("axiom: F #".toList ++ (body ++ "\nF -> G\nG -> F".toList))) =
      .ok ⟨1, 1, 1, [.op .moveForward, .op .moveForward, .op .turnRight, .op .scaleUp, .op .jumpForward], [(.op .jumpForward, 1, [.op .moveForward])]⟩ := by
  have hz : PrintsRules [.op .moveForward, .op .moveForward, .op .turnRight, .op .scaleUp, .op .jumpForward]
      (([' '] ++ (['F'] ++ ([' '] ++ ('#' :: (body ++ '\n' :: [])) ++ (['F'] ++ ([' '] ++ (['-'] ++ ([] ++ (['>'] ++ ([' '] ++ ['G'])))))))))) := by
    have hap : ∀ o v, Apart (.op o) v := by rintro o v ⟨w, h⟩; cases h
    refine .more _ _ _ _ _ blank (.symbol 'F' _ (by decide)) (hap _ _) ?_
    refine .more _ _ _ _ _ (.blank _ (.comment _ _ hb .nil)) (.symbol 'F' _ (by decide)) (hap _ _) ?_
    refine .more _ _ _ _ _ blank (.symbol '-' _ (by decide)) (hap _ _) ?_
    refine .more _ _ _ _ _ .nil (.symbol '>' _ (by decide)) (hap _ _) ?_
    exact .one _ _ _ blank (.symbol 'G' _ (by decide))
  have hp := head_prints _ _ _ [] _ hz .nil (.one _ _ (step_prints 'G' 'F' .jumpForward .moveForward (by decide) (by decide)))
  refine (C91_read _ _).2 ⟨_, [], ?_, hp, stops_nil⟩
  simp

/-- C91 is violated: a word which begins with `F` or `G` is read as this command and the rest of the word. -/
theorem C91_violated_word (c d : Char) (w : List Char) (hc : c = 'F' ∨ c = 'G') (hd : Letter d) (h1 : d ≠ 'F') (h2 : d ≠ 'G') (hw : ∀ x ∈ w, Letter x) :
    parse (head ++ ("axiom: ".toList ++ (c :: d :: (w ++ "\nF -> G".toList)))) =
      .ok ⟨1, 1, 1, [.op (if c = 'F' then .moveForward else .jumpForward), .word (d :: w)], [(.op .moveForward, 1, [.op .jumpForward])]⟩ := by
  have hz : PrintsRules [.op (if c = 'F' then .moveForward else .jumpForward), .word (d :: w)] ([' '] ++ ([c] ++ ([] ++ (d :: w)))) := by
    refine .more _ _ _ _ _ blank (.symbol c _ ?_) (by rintro ⟨w, h⟩; cases h) (.one _ _ _ .nil (.word d w h1 h2 hd hw))
    rcases hc with rfl | rfl <;> decide
  have hp := head_prints _ _ _ [] _ hz .nil (.one _ _ (step_prints 'F' 'G' .moveForward .jumpForward (by decide) (by decide)))
  refine (C91_read _ _).2 ⟨_, [], ?_, hp, stops_nil⟩
  simp

/-- With line ends of Windows a text is refused, as behind the first rules only a line feed is accepted. -/
example : parse "generations: 1\r\nangle: 1\r\nscale: 1\r\naxiom: F\r\nF -> G".toList = .throw "domain_error" := by decide +kernel

/-- The hypotheses can be met. -/
example : Prints ⟨1, 1, 1, [.word ['a', 'b']], [(.op .moveForward, 1, [.op .jumpForward]), (.op .jumpForward, 1, [.op .save])]⟩
    (head ++ ("axiom:".toList ++ ([' ', 'a', 'b'] ++ ([] ++ '\n' :: ("F -> G".toList ++ ("# jumps\n".toList ++ '\n' :: "G -> [".toList)))))) :=
  head_prints _ _ _ _ _ (.one [' '] _ ['a', 'b'] blank (.word 'a' ['b'] (by decide) (by decide) ((isAlpha_iff _).1 (by decide))
    (fun d hd => by rw [List.mem_singleton.1 hd]; exact (isAlpha_iff _).1 (by decide)))) .nil
    (.more _ _ "# jumps\n".toList _ _ (step_prints 'F' 'G' .moveForward .jumpForward (by decide) (by decide)) (.comment " jumps".toList [] (by decide) .nil)
      (.one _ _ (step_prints 'G' '[' .jumpForward .save (by decide) (by decide))))

/-- The text of the tests of the repository is read. -/
example : parse "generations: 3\nangle: 45\nscale: 0.1\naxiom: D F ab G G F K\nF(1) -> F G\nG(0.8) -> F\nG(0.2) -> G G G G ab\nab -> G G F ab".toList =
    .ok ⟨3, 45, 1 / 10, [.word ['D'], .op .moveForward, .word ['a', 'b'], .op .jumpForward, .op .jumpForward, .op .moveForward, .word ['K']],
      [(.op .moveForward, 1, [.op .moveForward, .op .jumpForward]), (.op .jumpForward, 4 / 5, [.op .moveForward]),
       (.op .jumpForward, 1 / 5, [.op .jumpForward, .op .jumpForward, .op .jumpForward, .op .jumpForward, .word ['a', 'b']]),
       (.word ['a', 'b'], 1, [.op .jumpForward, .op .jumpForward, .op .moveForward, .word ['a', 'b']])]⟩ := by
  decide +kernel

end Verif.Props
