import Mathlib.Data.Rat.Defs
import Mathlib.Algebra.Order.Field.Rat
import Verif.Model.Lsys
import Verif.Model.MapCss

/-! # L-system grammar

Models lsys/LSystemParser.cpp: the Spirit grammars as functions from the remaining text, in the manner of `Verif.Model.MapCss`. Characters are code
points. Numbers are exact instead of doubles; `inf` and `nan`, which Spirit reads as numbers, are refused. -/
namespace Verif.LsysText
open Verif.Lsys
open Verif.MapCss (Res Parser dropPrefix many unsigned digitLoop)

/-- LSystemParser.cpp:90: `*(qi::char_ - '\n') >> '\n'` -/
def afterLine : List Char → Option (List Char)
  | [] => none
  | c :: t => if c = '\n' then some t else afterLine t

/-- LSystemParser.cpp:86-94: the skipper once. Only blanks are skipped, and comments together with the end of their line. -/
def skipOne : List Char → Option (List Char)
  | [] => none
  | c :: t => if c = ' ' then some t else if c = '#' then afterLine t else none

def skipLoop : Nat → List Char → List Char
  | 0, t => t
  | n + 1, t =>
    match skipOne t with
    | some r => skipLoop n r
    | none => t

/-- Skipping before a token -/
def skip (t : List Char) : List Char := skipLoop t.length t

/-- A literal: skips, then matches all characters. -/
def lit (s : List Char) : Parser Unit := fun t =>
  match dropPrefix s (skip t) with
  | some r => .ok () r
  | none => .fail

/-- LSystemParser.cpp:44-64 -/
def symbol (c : Char) : Option Op :=
  if c = 'F' then some .moveForward
  else if c = 'G' then some .jumpForward
  else if c = '+' then some .turnLeft
  else if c = '-' then some .turnRight
  else if c = '|' then some .turnAround
  else if c = '^' then some .pitchUp
  else if c = '&' then some .pitchDown
  else if c = '\\' then some .rollLeft
  else if c = '/' then some .rollRight
  else if c = '$' then some .increment
  else if c = '!' then some .decrement
  else if c = '>' then some .scaleUp
  else if c = '<' then some .scaleDown
  else if c = '@' then some .switchStyle
  else if c = '[' then some .save
  else if c = ']' then some .restore
  else none

/-- `ascii::alpha` -/
def isAlpha (c : Char) : Bool := (65 ≤ c.toNat && c.toNat ≤ 90) || (97 ≤ c.toNat && c.toNat ≤ 122)

/-- LSystemParser.cpp:97-114: a symbol, or a word; symbols are tried first. -/
def rule : Parser Rule := fun t =>
  match skip t with
  | [] => .fail
  | c :: r =>
    match symbol c with
    | some o => .ok (.op o) r
    | none => if isAlpha c then .ok (.word (c :: r.takeWhile isAlpha)) (r.dropWhile isAlpha) else .fail

/-- `+rule` -/
def rules : Parser (List Rule) := fun t =>
  (rule t).andThen fun a r => (many rule r.length r).andThen fun as r => .ok (a :: as) r

/-- A sign in front of a number: whether it is a minus, and the rest -/
def sign : List Char → Bool × List Char
  | [] => (false, [])
  | c :: t => if c = '-' then (true, t) else if c = '+' then (false, t) else (false, c :: t)

/-- `qi::int_` without skipping: 32 bits with an optional sign -/
def integer (t : List Char) : Option (Int × List Char) :=
  match sign t with
  | (true, r) => (unsigned 2147483648 r).map fun p => (-(p.1 : Int), p.2)
  | (false, r) => (unsigned 2147483647 r).map fun p => ((p.1 : Int), p.2)

/-- `qi::int_` -/
def int : Parser Int := fun t =>
  match integer (skip t) with
  | some (n, r) => .ok n r
  | none => .fail

/-- The exponent of `qi::double_`, if there is one: `e` or `E` and an integer -/
def exponent : List Char → Int × List Char
  | [] => (0, [])
  | c :: t =>
    if c = 'e' ∨ c = 'E' then
      match integer t with
      | some (n, r) => (n, r)
      | none => (0, c :: t)
    else (0, c :: t)

/-- A number with this sign, digits, number of digits behind the dot, and exponent -/
def scaled (negative : Bool) (n : Nat) (places : Nat) (e : Int) : ℚ :=
  (if negative then -1 else 1) * (n : ℚ) * (10 : ℚ) ^ (e - (places : Int))

/-- `qi::double_` without skipping (`real_policies`): sign, digits, dot, digits, exponent; there must be digits before or behind the dot. -/
def decimal (t : List Char) : Option (ℚ × List Char) :=
  match sign t with
  | (negative, r) =>
    match digitLoop 0 0 r with
    | (n, count, []) => if count = 0 then none else some (scaled negative n 0 0, [])
    | (n, count, c :: r) =>
      if c = '.' then
        match digitLoop n 0 r with
        | (m, places, r) =>
          if count = 0 ∧ places = 0 then none
          else match exponent r with
            | (e, r) => some (scaled negative m places e, r)
      else if count = 0 then none
      else match exponent (c :: r) with
        | (e, r) => some (scaled negative n 0 e, r)

/-- `qi::double_` -/
def double : Parser ℚ := fun t =>
  match decimal (skip t) with
  | some (q, r) => .ok q r
  | none => .fail

/-- `ascii::space`; blanks are skipped before. -/
def space : Parser Unit := fun t =>
  match skip t with
  | [] => .fail
  | c :: r => if MapCss.isSpace c then .ok () r else .fail

/-- `+ascii::space` -/
def spaces : Parser Unit := fun t =>
  (space t).andThen fun _ r => (many space r.length r).andThen fun _ r => .ok () r

/-- LSystemParser.cpp:119-120 -/
def probability : Parser ℚ := fun t =>
  match lit ['('] t with
  | .ok _ r => (double r).expect.andThen fun q r => (lit [')'] r).expect.andThen fun _ r => .ok q r
  | .fail => .ok 1 t
  | .error => .error

/-- LSystemParser.cpp:123-124 -/
def production : Parser (Rule × ℚ × List Rule) := fun t =>
  (rule t).andThen fun a r => (probability r).expect.andThen fun q r => (lit ['-', '>'] r).expect.andThen fun _ r =>
    (rules r).expect.andThen fun as r => .ok (a, q, as) r

/-- LSystemParser.cpp:122-124: productions separated by line ends -/
def productions : Parser (List (Rule × ℚ × List Rule)) := fun t =>
  (production t).andThen fun p r =>
    (many (fun t => (lit ['\n'] t).andThen fun _ r => production r) r.length r).andThen fun ps r => .ok (p :: ps) r

/-- What is read, with the productions in the order of the text -/
structure System where
  generations : Int
  angle : ℚ
  scale : ℚ
  start : List Rule
  grammar : List (Rule × ℚ × List Rule)
deriving DecidableEq

def generationsText : List Char := ['g', 'e', 'n', 'e', 'r', 'a', 't', 'i', 'o', 'n', 's', ':']
def angleText : List Char := ['a', 'n', 'g', 'l', 'e', ':']
def scaleText : List Char := ['s', 'c', 'a', 'l', 'e', ':']
def axiomText : List Char := ['a', 'x', 'i', 'o', 'm', ':']

/-- LSystemParser.cpp:136-141; `>>` binds stronger than `>`. -/
def lsystem : Parser System := fun t =>
  (lit generationsText t).andThen fun _ r =>
  ((int r).andThen fun generations r => (spaces r).andThen fun _ r => .ok generations r).expect.andThen fun generations r =>
  (lit angleText r).expect.andThen fun _ r =>
  ((double r).andThen fun angle r => (spaces r).andThen fun _ r => .ok angle r).expect.andThen fun angle r =>
  (lit scaleText r).expect.andThen fun _ r =>
  ((double r).andThen fun scale r => (spaces r).andThen fun _ r => .ok scale r).expect.andThen fun scale r =>
  (lit axiomText r).expect.andThen fun _ r =>
  (rules r).expect.andThen fun start r =>
  (lit ['\n'] r).expect.andThen fun _ r =>
  (productions r).expect.andThen fun grammar r =>
  .ok ⟨generations, angle, scale, start, grammar⟩ r

/-- LSystemParser.cpp:165-179: the text behind the last production is not looked at; a failed expectation (147-156) is a failure. -/
def parse (t : List Char) : Outcome System :=
  match lsystem t with
  | .ok s _ => .ok s
  | _ => .throw "domain_error"

/-- The L-system which is used by turtles: LSystemParser.cpp:76-84 puts productions into the map. -/
def System.toLSystem (lt : Rule → Rule → Bool) (s : System) : LSystem ℚ := ⟨s.generations, s.start, productionMap lt s.grammar⟩

end Verif.LsysText
