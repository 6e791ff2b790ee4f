import Verif.Model.Style

/-!
# `core/src/mapcss/StyleEvaluator.hpp`, `StyleEvaluator.cpp` and `StyleDeclaration.hpp`

The Spirit grammar is transcribed as a recursive descent parser over characters. Arithmetic on `double` and the parser `qi::double_` are parameters.
-/
namespace Verif.StyleEval
open Verif.Style

/-- Arithmetic on `double`, `lexical_cast` to and from text, and `qi::double_`: value and rest of the input. -/
structure Arith (D : Type) where
  zero : D
  add : D → D → D
  sub : D → D → D
  mul : D → D → D
  div : D → D → D
  neg : D → D
  toStr : D → Str
  double_ : Str → Option (D × Str)

variable {D : Type}

/-- core/src/mapcss/StyleEvaluator.hpp:24-36 -/
inductive Operand (D : Type)
  | nil
  | num (d : D)
  | str (s : Str)
  | tag (key : Str)
  | signed (sign : Char) (o : Operand D)

/-- StyleEvaluator.hpp:38-41 -/
structure Operation (D : Type) where
  operator : Char
  operand : Operand D

/-- StyleEvaluator.hpp:43-46 -/
structure Tree (D : Type) where
  first : Operand D
  rest : List (Operation D)

/-- `ascii::space`, the skipper of StyleEvaluator.cpp:84 -/
def isSpace (c : Char) : Bool := c = ' ' || c = '\t' || c = '\n' || c = '\x0b' || c = '\x0c' || c = '\r'

/-- Skipping before a token, StyleEvaluator.cpp:85. -/
def skip (s : Str) : Str := s.dropWhile isSpace

/-- `ascii::char_ - '\''` in StyleEvaluator.cpp:40, 43: a 7-bit character other than the quote. -/
def isQuoted (c : Char) : Bool := decide (c.toNat < 128) && c != '\''

/-- A literal of the grammar StyleEvaluator.cpp:30-43, without skipping. -/
def lit (p s : Str) : Option Str := if p.isPrefixOf s then some (s.drop p.length) else none

/-- `+(ascii::char_ - '\'')` in StyleEvaluator.cpp:40, 43 -/
def quoted (s : Str) : Option (Str × Str) :=
  match s.takeWhile isQuoted with
  | [] => none
  | w => some (w, s.dropWhile isQuoted)

/-- StyleEvaluator.cpp:39-40, 46; the rule has no skipper of its own, spaces before it are skipped. -/
def parseTag (s : Str) : Option (Str × Str) := do
  let s ← lit ['t', 'a', 'g', '(', '\''] (skip s)
  let (k, s) ← quoted s
  let s ← lit ['\'', ')'] s
  pure (k, s)

/-- StyleEvaluator.cpp:42-43, 47 -/
def parseString (s : Str) : Option (Str × Str) := do
  let s ← lit ['\''] (skip s)
  let (k, s) ← quoted s
  let s ← lit ['\''] s
  pure (k, s)

/-- StyleEvaluator.cpp:36-37 -/
def parseOperand (ar : Arith D) (s : Str) : Option (Operand D × Str) :=
  match ar.double_ (skip s) with
  | some (d, s) => some (.num d, s)
  | none => match parseTag s with
    | some (k, s) => some (.tag k, s)
    | none => (parseString s).map fun r => (.str r.1, r.2)

/-- StyleEvaluator.cpp:33-34 -/
def parseOperation (ar : Arith D) (s : Str) : Option (Operation D × Str) :=
  match skip s with
  | [] => none
  | c :: s => if c = '+' || c = '-' || c = '/' || c = '*' then (parseOperand ar s).map fun r => (⟨c, r.1⟩, r.2) else none

/-- `*(operation)` in StyleEvaluator.cpp:31, the first argument bounds the number of operations by the number of characters. -/
def parseOperations (ar : Arith D) : Nat → Str → List (Operation D) × Str
  | 0, s => ([], s)
  | n + 1, s => match parseOperation ar s with
    | none => ([], s)
    | some (o, s') => let r := parseOperations ar n s'; (o :: r.1, r.2)

/-- StyleEvaluator.cpp:30-31, 77-90 -/
def parse (ar : Arith D) (s : Str) : Option (Tree D) := do
  let s1 ← lit ['e', 'v', 'a', 'l', '(', '"'] (skip s)
  let (o, s2) ← parseOperand ar s1
  let (ops, s3) := parseOperations ar s2.length s2
  let s4 ← lit ['"', ')'] (skip s3)
  if skip s4 = [] then some ⟨o, ops⟩ else none

/-- utils/ElementUtils.hpp:79-92 -/
def tagString (env : Env D) (tags : List Tag) (key : Str) : Outcome Str :=
  match findTag (env.getId key) tags with
  | some t => if t.value = 0xFFFFFFFF then .throw "domain_error" else .ok (env.getString t.value)
  | none => .ok (env.getString 0xFFFFFFFF)

/-- StyleEvaluator.hpp:85-110 -/
def evalOperand (ar : Arith D) (env : Env D) (tags : List Tag) : Operand D → Outcome D
  | .nil => .ok ar.zero
  | .num d => .ok d
  | .str s => .ok (env.num s)
  | .tag k => (tagString env tags k).bind fun s => .ok (env.num s)
  | .signed c o => (evalOperand ar env tags o).bind fun v => .ok (if c = '-' then ar.neg v else if c = '+' then v else ar.zero)

/-- StyleEvaluator.hpp:120-129 -/
def applyOp (ar : Arith D) (c : Char) (a b : D) : D :=
  if c = '+' then ar.add a b else if c = '-' then ar.sub a b else if c = '*' then ar.mul a b else if c = '/' then ar.div a b else a

/-- StyleEvaluator.hpp:112-117 -/
def evalDouble (ar : Arith D) (env : Env D) (tags : List Tag) (t : Tree D) : Outcome D :=
  (evalOperand ar env tags t.first).bind fun v =>
    foldOutcome (fun v (o : Operation D) => (evalOperand ar env tags o.operand).bind fun w => .ok (applyOp ar o.operator v w)) v t.rest

/-- StyleEvaluator.hpp:138-156 -/
def strOperand (ar : Arith D) (env : Env D) (tags : List Tag) : Operand D → Outcome Str
  | .nil => .ok []
  | .num d => .ok (ar.toStr d)
  | .str s => .ok s
  | .tag k => tagString env tags k
  | .signed _ _ => .throw "domain_error"

/-- StyleEvaluator.hpp:158-172 -/
def evalString (ar : Arith D) (env : Env D) (tags : List Tag) (t : Tree D) : Outcome Str :=
  (strOperand ar env tags t.first).bind fun v =>
    foldOutcome (fun v (o : Operation D) => (strOperand ar env tags o.operand).bind fun w =>
      if o.operator = '+' then .ok (v ++ w) else .throw "domain_error") v t.rest

/-- Style.hpp:94-109 with StyleDeclaration.hpp:20-52: the raw value, or the evaluated one if it parses as an expression. -/
def getString (ar : Arith D) (env : Env D) (tags : List Tag) (st : Style) (key : Str) : Outcome Str :=
  match st.declarations.find (env.getId key) with
  | none => .ok []
  | some raw => match parse ar raw with
    | some t => evalString ar env tags t
    | none => .ok raw

/-- Style.hpp:132-157; `offset` is `GeoUtils::getOffset` at the center of the bounding box, `none` if it is not valid. -/
def getValue (ar : Arith D) (env : Env D) (tags : List Tag) (st : Style) (key : Str) (percent : D → D) (offset : Option (D → D)) :
    Outcome D :=
  match st.declarations.find (env.getId key) with
  | none => .ok ar.zero
  | some raw => match raw.getLast? with
    | none => .ub "rawValue[-1]"
    | some dimen =>
      if dimen = 'm' then
        .ok (match offset with
          | some f => f (env.num raw.dropLast)
          | none => env.num raw.dropLast)
      else if dimen = '%' then .ok (percent (env.num raw.dropLast))
      else match parse ar raw with
        | some t => evalDouble ar env tags t
        | none => .ok (env.num raw)

end Verif.StyleEval
