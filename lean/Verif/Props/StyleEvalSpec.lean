import Verif.Model.StyleEval

/-! Specification of style expressions (C31): their text and their value. -/
namespace Verif.StyleEvalSpec
open Verif.Style Verif.StyleEval

variable {D : Type}

/-- An operand as written in a stylesheet. -/
inductive Lit
  | numeral (w : Str)
  | text (s : Str)
  | tag (key : Str)

/-- An expression as written: spaces, operator, spaces, operand. -/
structure Term where
  before : Str
  operator : Char
  after : Str
  operand : Lit

structure Expr where
  before : Str
  first : Lit
  rest : List Term
  after : Str

def Lit.render : Lit → Str
  | .numeral w => w
  | .text s => '\'' :: s ++ ['\'']
  | .tag k => ['t', 'a', 'g', '(', '\''] ++ k ++ ['\'', ')']

def Term.render (t : Term) : Str := t.before ++ t.operator :: t.after ++ t.operand.render

def Expr.render (e : Expr) : Str :=
  ['e', 'v', 'a', 'l', '(', '"'] ++ e.before ++ e.first.render ++ e.rest.flatMap Term.render ++ e.after ++ ['"', ')']

/-- What may follow a numeral. -/
def Delimited (rest : Str) : Prop := ∃ c r, rest = c :: r ∧ c ∈ [' ', '\t', '+', '-', '*', '/', '"']

/-- `double_` reads this numeral as `v` and stops there. -/
def IsNumeral (ar : Arith D) (w : Str) (v : D) : Prop :=
  (∃ c r, w = c :: r ∧ StyleEval.isSpace c = false) ∧ ∀ rest, Delimited rest → ar.double_ (w ++ rest) = some (v, rest)

/-- `double_` reads neither a quote nor a `t` as a number. -/
def Sane (ar : Arith D) : Prop := ∀ rest, ar.double_ ('\'' :: rest) = none ∧ ar.double_ ('t' :: rest) = none

def Blank (s : Str) : Prop := ∀ c ∈ s, c = ' ' ∨ c = '\t'

def Quotable (s : Str) : Prop := s ≠ [] ∧ ∀ c ∈ s, c.toNat < 128 ∧ c ≠ '\''

def Lit.Valid (ar : Arith D) : Lit → Prop
  | .numeral w => ∃ v, IsNumeral ar w v
  | .text s => Quotable s
  | .tag k => Quotable k

def Expr.Valid (ar : Arith D) (e : Expr) : Prop :=
  Blank e.before ∧ Blank e.after ∧ e.first.Valid ar ∧
    ∀ t ∈ e.rest, Blank t.before ∧ Blank t.after ∧ t.operator ∈ ['+', '-', '*', '/'] ∧ t.operand.Valid ar

/-- The value of an operand, given the values of the tags: `value k` for the text of tag `k`. -/
inductive Means (ar : Arith D) (num : Str → D) (value : Str → Str) : Lit → D → Prop
  | numeral {w v} : IsNumeral ar w v → Means ar num value (.numeral w) v
  | text {s} : Means ar num value (.text s) (num s)
  | tag {k} : Means ar num value (.tag k) (num (value k))

/-- One operator. -/
inductive Applied (ar : Arith D) : Char → D → D → D → Prop
  | add {a b} : Applied ar '+' a b (ar.add a b)
  | sub {a b} : Applied ar '-' a b (ar.sub a b)
  | mul {a b} : Applied ar '*' a b (ar.mul a b)
  | div {a b} : Applied ar '/' a b (ar.div a b)

/-- Operators applied from left to right. -/
inductive LeftToRight (ar : Arith D) (num : Str → D) (value : Str → Str) : D → List Term → D → Prop
  | done {v} : LeftToRight ar num value v [] v
  | step {v w u r t ts} : Means ar num value t.operand w → Applied ar t.operator v w u → LeftToRight ar num value u ts r →
      LeftToRight ar num value v (t :: ts) r

/-- The element has every tag which the expression names, with this text. -/
def HasTags (env : Env D) (tags : List Tag) (value : Str → Str) (l : Lit) : Prop :=
  match l with
  | .tag k => ∃ t ∈ tags, t.key = env.getId k ∧ t.value ≠ 0xFFFFFFFF ∧ env.getString t.value = value k
  | _ => True

/-- The text of an operand in a string expression. -/
inductive Spells (ar : Arith D) (value : Str → Str) : Lit → Str → Prop
  | numeral {w v} : IsNumeral ar w v → Spells ar value (.numeral w) (ar.toStr v)
  | text {s} : Spells ar value (.text s) s
  | tag {k} : Spells ar value (.tag k) (value k)

end Verif.StyleEvalSpec
