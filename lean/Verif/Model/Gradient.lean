import Verif.Model.Color
import Verif.Model.Strings

/-! # Texts of gradients

Models utils/GradientUtils.cpp:239-285 and the making of gradients in mapcss/StyleProvider.cpp:290-292. The regular expression is a term, its
matches are the ones of a backtracking matcher in the order in which it tries them, as ECMAScript and `std::regex` define it. Simplifications:
strings are lists of characters (all characters of the expression are ASCII); the conversion of texts to `double` (boost) is a parameter;
doubles are elements of a field. -/
namespace Verif.Gradient
open Verif.Color

/-- Regular expressions as far as GradientUtils.cpp:242 needs them: repetitions are of classes of characters only; `([a-zA-Z]+){1}` is
`[a-zA-Z]+`, groups are not looked at. -/
inductive Re where
  /-- a character of a class -/
  | cls (p : Char → Bool)
  /-- from `min` up to `max` characters of a class, as many as possible or, if `lazy`, as few as possible -/
  | many (p : Char → Bool) (min : Nat) (max : Option Nat) (lazy : Bool)
  | seq (a b : Re)
  | alt (a b : Re)
  /-- `(a)?` -/
  | opt (a : Re)

/-- How many characters of a class a text begins with, up to `max`. -/
def prefixLength (p : Char → Bool) : Option Nat → List Char → Nat
  | _, [] => 0
  | some 0, _ => 0
  | some (n + 1), c :: s => if p c then prefixLength p (some n) s + 1 else 0
  | none, c :: s => if p c then prefixLength p none s + 1 else 0

/-- `[min, ..., max]` -/
def upTo (min max : Nat) : List Nat := (List.range (max + 1)).filter (min ≤ ·)

/-- What is left of a text behind the matches at its beginning, in the order in which they are tried. -/
def rests : Re → List Char → List (List Char)
  | .cls _, [] => []
  | .cls p, c :: s => if p c then [s] else []
  | .many p min max lazy, s =>
    let counts := upTo min (prefixLength p max s)
    (if lazy then counts else counts.reverse).map fun n => s.drop n
  | .seq a b, s => (rests a s).flatMap (rests b)
  | .alt a b, s => rests a s ++ rests b s
  | .opt a, s => rests a s ++ [s]

/-- A given character. -/
def chr (c : Char) : Re := .cls (· == c)

/-- `[0-9]` -/
def isDigit (c : Char) : Bool := '0' ≤ c && c ≤ '9'

/-- `[0-9a-fA-F]` -/
def isHex (c : Char) : Bool := isDigit c || ('a' ≤ c && c ≤ 'f') || ('A' ≤ c && c ≤ 'F')

/-- `[a-zA-Z]` -/
def isLetter (c : Char) : Bool := ('a' ≤ c && c ≤ 'z') || ('A' ≤ c && c ≤ 'Z')

/-- `\s`, the class of `std::isspace` -/
def isSpace (c : Char) : Bool := c == ' ' || ('\t' ≤ c && c ≤ '\r')

/-- `[%|px]` -/
def isUnit (c : Char) : Bool := c == '%' || c == '|' || c == 'p' || c == 'x'

/-- `[ 0-9.%,]` -/
def isRgb (c : Char) : Bool := c == ' ' || isDigit c || c == '.' || c == '%' || c == ','

/-- `rgb ?\([ 0-9.%,]+?\)` of GradientUtils.cpp:242 -/
def rgbRe : Re :=
  .seq (chr 'r') (.seq (chr 'g') (.seq (chr 'b') (.seq (.opt (chr ' ')) (.seq (chr '(') (.seq (.many isRgb 1 none true) (chr ')'))))))

/-- `#[0-9a-fA-F]{3,6}` of GradientUtils.cpp:242 -/
def hexRe : Re := .seq (chr '#') (.many isHex 3 (some 6) false)

/-- `#[0-9a-fA-F]{3,6}\s[0-9]{1,3}[%|px]` of GradientUtils.cpp:242 -/
def hexAtRe : Re := .seq hexRe (.seq (.cls isSpace) (.seq (.many isDigit 1 (some 3) false) (.cls isUnit)))

/-- `([a-zA-Z]+){1}(\s[0-9]{1,3}\s*[%|px]?)?` of GradientUtils.cpp:242 -/
def nameRe : Re :=
  .seq (.many isLetter 1 none false)
    (.opt (.seq (.cls isSpace) (.seq (.many isDigit 1 (some 3) false) (.seq (.many isSpace 0 none false) (.opt (.cls isUnit))))))

/-- GradientUtils.cpp:240-242 -/
def gradientRe : Re := .alt rgbRe (.alt hexAtRe (.alt hexRe nameRe))

/-- The texts which `std::sregex_iterator` visits (GradientUtils.cpp:246-250, 255): at each place the match which is tried first, going on behind
it. The expression does not match the empty text, so that each step takes at least a character and `fuel` beyond the length does not matter. -/
def search (r : Re) : Nat → List Char → List (List Char)
  | 0, _ => []
  | _ + 1, [] => []
  | fuel + 1, c :: s =>
    match rests r (c :: s) with
    | rest :: _ => (c :: s).take ((c :: s).length - rest.length) :: search r fuel rest
    | [] => search r fuel s

/-- `std::getline` with blanks as ends as long as it takes something from the stream (GradientUtils.cpp:256, 260): at the end of the stream, also
behind a blank, nothing is delivered. Each iteration takes at least one character, so `fuel` beyond the length of the text does not matter. -/
def wordsLoop : Nat → List Char → List (List Char)
  | 0, _ => []
  | _ + 1, [] => []
  | fuel + 1, text =>
    match Strings.getline ' ' text with
    | (line, none) => [line]
    | (line, some rest) => line :: wordsLoop fuel rest

/-- GradientUtils.cpp:256, 260 -/
def words (text : List Char) : List (List Char) := wordsLoop text.length text

section
variable {K : Type} [Field K] (cast : List Char → Option K)

/-- The parts behind the color, GradientUtils.cpp:265-267. `substr(0, size() - 1)` of an empty part is empty. -/
def times : K → List (List Char) → Outcome K
  | t, [] => .ok t
  | _, part :: parts =>
    match cast part.dropLast with
    | some n => times (n / 100) parts
    | none => .throw "bad_lexical_cast"

/-- GradientUtils.cpp:255-269 for one text. A text which is found is not empty, so that there is a first part. -/
def stop (first : Bool) (text : List Char) : Outcome (K × Color) :=
  match words text with
  | [] => .ok (if first then 0 else 1, {})
  | color :: parts => (parseColor color).bind fun c => (times cast (if first then 0 else 1) parts).bind fun t => .ok (t, c)

/-- The loop GradientUtils.cpp:255-270. -/
def stops : Bool → List (List Char) → Outcome (List (K × Color))
  | _, [] => .ok []
  | first, text :: rest => (stop cast first text).bind fun p => (stops false rest).bind fun l => .ok (p :: l)

/-- GradientUtils.cpp:245, 247 -/
def body (text : List Char) : List Char :=
  if ['g', 'r', 'a', 'd', 'i', 'e', 'n', 't'].isPrefixOf text then text.drop 8 else text

/-- GradientUtils.cpp:244-278 -/
def parseGradient (text : List Char) : Outcome (List (K × Color)) :=
  (stops cast true (search gradientRe (body text).length (body text))).bind fun data =>
    if data.isEmpty && !text.isEmpty then .ok [(0, (colorMap.lookup "red").getD {})] else .ok data

/-- The making of a gradient for a key, StyleProvider.cpp:290-292. -/
def loadGradient (key : List Char) : Outcome (List (K × Color)) :=
  (parseGradient cast key).bind fun data => if data.isEmpty then .throw "MapCssException" else .ok data

end

end Verif.Gradient
