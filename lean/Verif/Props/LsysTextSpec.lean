import Verif.Model.LsysText
import Verif.Props.MapCssSpec

/-! # Specification of texts of L-systems

A relation between L-systems and the texts which are written for them, with gaps in all places where the grammar allows them. -/
namespace Verif.LsysTextSpec
open Verif.Lsys
open Verif.LsysText (System)
open Verif.MapCssSpec (Digits)

/-- Blanks, and comments up to and with the end of their line. -/
inductive Gap : List Char → Prop
  | nil : Gap []
  | blank (g) (h : Gap g) : Gap (' ' :: g)
  | comment (body g) (hb : '\n' ∉ body) (h : Gap g) : Gap ('#' :: (body ++ '\n' :: g))

/-- A character which ends a line or is another white space than a blank. -/
def Control (c : Char) : Prop := c ∈ ['\t', '\n', '\x0b', '\x0c', '\r']

/-- The end of a line with a number, and empty lines and comments behind it. -/
inductive Break : List Char → Prop
  | one (g c) (hg : Gap g) (hc : Control c) : Break (g ++ [c])
  | more (g c w) (hg : Gap g) (hc : Control c) (h : Break w) : Break (g ++ c :: w)

def Letter (c : Char) : Prop := 'a' ≤ c ∧ c ≤ 'z' ∨ 'A' ≤ c ∧ c ≤ 'Z'

/-- The commands with a symbol. -/
def symbols : List (Char × Op) :=
  [('F', .moveForward), ('G', .jumpForward), ('+', .turnLeft), ('-', .turnRight), ('|', .turnAround), ('^', .pitchUp), ('&', .pitchDown), ('\\', .rollLeft),
   ('/', .rollRight), ('$', .increment), ('!', .decrement), ('>', .scaleUp), ('<', .scaleDown), ('@', .switchStyle), ('[', .save), (']', .restore)]

/-- The text of one rule, without gaps. A word consists of letters and does not begin with the symbols `F` and `G`. -/
inductive PrintsRule : Rule → List Char → Prop
  | symbol (c o) (h : (c, o) ∈ symbols) : PrintsRule (.op o) [c]
  | word (c w) (h1 : c ≠ 'F') (h2 : c ≠ 'G') (hc : Letter c) (hw : ∀ d ∈ w, Letter d) : PrintsRule (.word (c :: w)) (c :: w)

/-- Between a word and the text which follows is something else than a letter. -/
def Apart (r : Rule) (t : List Char) : Prop := (∃ w, r = .word w) → ∀ c ∈ t.head?, ¬ Letter c

/-- One or more rules. -/
inductive PrintsRules : List Rule → List Char → Prop
  | one (g r w) (hg : Gap g) (hr : PrintsRule r w) : PrintsRules [r] (g ++ w)
  | more (g r w rs v) (hg : Gap g) (hr : PrintsRule r w) (ha : Apart r v) (h : PrintsRules rs v) : PrintsRules (r :: rs) (g ++ (w ++ v))

inductive PrintsSign : Bool → List Char → Prop
  | none : PrintsSign false []
  | plus : PrintsSign false ['+']
  | minus : PrintsSign true ['-']

/-- An integer of 32 bits. -/
inductive PrintsInt : Int → List Char → Prop
  | positive (s w n) (hs : PrintsSign false s) (hw : Digits w n) (hn : n < 2 ^ 31) : PrintsInt n (s ++ w)
  | negative (s w n) (hs : PrintsSign true s) (hw : Digits w n) (hn : n ≤ 2 ^ 31) : PrintsInt (-n) (s ++ w)

/-- No digits count as zero. -/
def Digits0 (w : List Char) (n : Nat) : Prop := w = [] ∧ n = 0 ∨ Digits w n

/-- Digits, a dot and digits. -/
inductive PrintsMantissa : ℚ → List Char → Prop
  | whole (w n) (hw : Digits w n) : PrintsMantissa n w
  | dot (w n v m) (hw : Digits0 w n) (hv : Digits0 v m) (h : w ≠ [] ∨ v ≠ []) : PrintsMantissa (n + m / 10 ^ v.length) (w ++ '.' :: v)

inductive PrintsExponent : Int → List Char → Prop
  | none : PrintsExponent 0 []
  | some (c n w) (hc : c = 'e' ∨ c = 'E') (hw : PrintsInt n w) : PrintsExponent n (c :: w)

/-- A number, for example `0.8` or `-1.5e-3`. -/
inductive PrintsReal : ℚ → List Char → Prop
  | mk (negative s m v e w) (hs : PrintsSign negative s) (hm : PrintsMantissa m v) (he : PrintsExponent e w) :
    PrintsReal ((if negative then -m else m) * 10 ^ e) (s ++ (v ++ w))

/-- The probability in parentheses; without it, it is one. -/
inductive PrintsProbability : ℚ → List Char → Prop
  | none : PrintsProbability 1 []
  | some (g h k q w) (hg : Gap g) (hh : Gap h) (hw : PrintsReal q w) (hk : Gap k) : PrintsProbability q (g ++ ('(' :: (h ++ (w ++ (k ++ [')'])))))

/-- `a (q) -> as` -/
inductive PrintsProduction : Rule × ℚ × List Rule → List Char → Prop
  | mk (g a w q v h as u) (hg : Gap g) (ha : PrintsRule a w) (hq : PrintsProbability q v) (hh : Gap h) (hs : PrintsRules as u) :
    PrintsProduction (a, q, as) (g ++ (w ++ (v ++ (h ++ ('-' :: '>' :: u)))))

/-- Productions in lines of their own. -/
inductive PrintsProductions : List (Rule × ℚ × List Rule) → List Char → Prop
  | one (p w) (hp : PrintsProduction p w) : PrintsProductions [p] w
  | more (p w g ps v) (hp : PrintsProduction p w) (hg : Gap g) (h : PrintsProductions ps v) : PrintsProductions (p :: ps) (w ++ (g ++ ('\n' :: v)))

/-- `keyword value` -/
def PrintsEntry (keyword value w : List Char) : Prop := ∃ g h, Gap g ∧ Gap h ∧ w = g ++ (keyword ++ (h ++ value))

/-- The text of an L-system. -/
inductive Prints : System → List Char → Prop
  | mk (s : System) (a n a' b x b' c y c' d z d' g p) (ha : PrintsEntry "generations:".toList n a) (hn : PrintsInt s.generations n) (ha' : Break a')
    (hb : PrintsEntry "angle:".toList x b) (hx : PrintsReal s.angle x) (hb' : Break b')
    (hc : PrintsEntry "scale:".toList y c) (hy : PrintsReal s.scale y) (hc' : Break c')
    (hd : PrintsEntry "axiom:".toList z d) (hz : PrintsRules s.start z) (hg : Gap g) (hd' : d' = g ++ ['\n'])
    (hp : PrintsProductions s.grammar p) : Prints s (a ++ (a' ++ (b ++ (b' ++ (c ++ (c' ++ (d ++ (d' ++ p))))))))

/-- A character which a rule can begin with. -/
def Starts (c : Char) : Prop := Letter c ∨ ∃ o, (c, o) ∈ symbols

/-- A text behind the last production which does not go on with a rule, in the same line or in the next. -/
def Stops (u : List Char) : Prop :=
  (¬ ∃ g c v, Gap g ∧ Starts c ∧ u = g ++ c :: v) ∧ ¬ ∃ g h c v, Gap g ∧ Gap h ∧ Starts c ∧ u = g ++ '\n' :: (h ++ c :: v)

end Verif.LsysTextSpec
