import Verif.Model.Basic
import Verif.Model.Strings

/-! # Stylesheet grammar

Models mapcss/MapCssParser.cpp: the Spirit grammars as functions from the remaining text. `fail` is a parser which does not match, `error` is a failed
expectation (operator `>`), which ends the parsing with a `MapCssException`. Loops have a fuel, which is the length of the text: all their bodies consume
characters (`MapCssProof.many_fuel`). Characters are code points instead of bytes, so that the only use of the encoding is `ascii::char_`. -/
namespace Verif.MapCss

inductive Res (α : Type) where
  | ok (a : α) (rest : List Char)
  | fail
  | error
deriving DecidableEq, Repr

abbrev Parser (α : Type) := List Char → Res α

namespace Res
variable {α β : Type}

/-- `p >> q` -/
def andThen (x : Res α) (f : α → List Char → Res β) : Res β :=
  match x with
  | ok a r => f a r
  | fail => fail
  | error => error

/-- The right side of `>`. -/
def expect : Res α → Res α
  | fail => error
  | x => x

end Res

variable {α β : Type}

/-- The text behind a prefix. -/
def dropPrefix : List Char → List Char → Option (List Char)
  | [], t => some t
  | _ :: _, [] => none
  | a :: p, b :: t => if a = b then dropPrefix p t else none

/-- `*(qi::char_ - close) >> close` -/
def afterClose (close : List Char) : List Char → Option (List Char)
  | [] => dropPrefix close []
  | c :: t =>
    match dropPrefix close (c :: t) with
    | some r => some r
    | none => afterClose close t

/-- `ascii::space` -/
def isSpace (c : Char) : Bool := c = ' ' ∨ (9 ≤ c.toNat ∧ c.toNat ≤ 13)

/-- MapCssParser.cpp:69-70: a comment -/
def comment (t : List Char) : Option (List Char) :=
  match (dropPrefix ['/', '*'] t).bind (afterClose ['*', '/']) with
  | some r => some r
  | none => (dropPrefix ['<', '!', '-', '-'] t).bind (afterClose ['-', '-', '>'])

/-- MapCssParser.cpp:67-70: the skipper once -/
def skipOne : List Char → Option (List Char)
  | [] => none
  | c :: t => if isSpace c then some t else comment (c :: t)

def skipLoop : Nat → List Char → List Char
  | 0, t => t
  | n + 1, t =>
    match skipOne t with
    | some r => skipLoop n r
    | none => t

/-- Skipping before a token -/
def skip (t : List Char) : List Char := skipLoop t.length t

/-- A literal: skips, then matches all characters. -/
def lit (s : List Char) : Parser Unit := fun t =>
  match dropPrefix s (skip t) with
  | some r => .ok () r
  | none => .fail

/-- `ascii::string`: a literal with itself as attribute -/
def str (s : List Char) : Parser (List Char) := fun t => (lit s t).andThen fun _ r => .ok s r

/-- `*(ascii::char_ - stop)` without skipping -/
def chars (stop : List Char → Bool) : List Char → List Char × List Char
  | [] => ([], [])
  | c :: t => if c.toNat < 128 ∧ stop (c :: t) = false then (c :: (chars stop t).1, (chars stop t).2) else ([], c :: t)

/-- `qi::lexeme[+(ascii::char_ - stop)]`: skips first -/
def lexeme (stop : List Char → Bool) : Parser (List Char) := fun t =>
  match chars stop (skip t) with
  | ([], _) => .fail
  | (cs, r) => .ok cs r

/-- `-p` with a default attribute; without a match nothing is consumed -/
def optional (default : α) (p : Parser α) : Parser α := fun t =>
  match p t with
  | .fail => .ok default t
  | x => x

/-- `*p` -/
def many (p : Parser α) : Nat → Parser (List α)
  | 0, t => .ok [] t
  | n + 1, t =>
    match p t with
    | .ok a r => (many p n r).andThen fun as r => .ok (a :: as) r
    | .fail => .ok [] t
    | .error => .error

/-- `+p` -/
def many1 (p : Parser α) : Parser (List α) := fun t =>
  (p t).andThen fun a r => (many p r.length r).andThen fun as r => .ok (a :: as) r

/-- `p % separator` -/
def listOf (p : Parser α) (separator : List Char) : Parser (List α) := fun t =>
  (p t).andThen fun a r => (many (fun t => (lit separator t).andThen fun _ r => p r) r.length r).andThen fun as r => .ok (a :: as) r

/-- The first which does not fail. -/
def alternative (p q : Parser α) : Parser α := fun t =>
  match p t with
  | .fail => q t
  | x => x

/-- StyleSheet.hpp:95-99 -/
structure Condition where
  key : List Char
  operation : List Char
  value : List Char
deriving DecidableEq, Repr

/-- StyleSheet.hpp:102-105 -/
structure Zoom where
  first : UInt8
  last : UInt8
deriving DecidableEq, Repr

/-- StyleSheet.hpp:108-112 -/
structure Selector where
  names : List (List Char)
  zoom : Zoom
  conditions : List Condition
deriving DecidableEq, Repr

/-- StyleSheet.hpp:115-118 -/
structure Declaration where
  key : List Char
  value : List Char
deriving DecidableEq, Repr

/-- StyleSheet.hpp:121-124 -/
structure Rule where
  selectors : List Selector
  declarations : List Declaration
deriving DecidableEq, Repr

/-- MapCssParser.cpp:88-92 -/
def binary : Parser (List Char) := alternative (str ['=']) (alternative (str ['!', '=']) (alternative (str ['>']) (str ['<'])))

/-- Where a key or value ends: `']' | binary` (without skipping, as inside a lexeme) -/
def conditionStop (t : List Char) : Bool :=
  [[']'], ['='], ['!', '='], ['>'], ['<']].any fun p => (dropPrefix p t).isSome

/-- MapCssParser.cpp:85-86 -/
def keyValue : Parser (List Char) := lexeme conditionStop

/-- MapCssParser.cpp:79-83 -/
def condition : Parser Condition := fun t =>
  (lit ['['] t).andThen fun _ r => (keyValue r).expect.andThen fun key r => (optional [] binary r).andThen fun operation r =>
    (optional [] keyValue r).andThen fun value r => (lit [']'] r).expect.andThen fun _ r => .ok ⟨key, operation, value⟩ r

def digit (c : Char) : Option Nat := if 48 ≤ c.toNat ∧ c.toNat ≤ 57 then some (c.toNat - 48) else none

/-- The value of the leading digits and their number, from a value so far. -/
def digitLoop : Nat → Nat → List Char → Nat × Nat × List Char
  | value, count, [] => (value, count, [])
  | value, count, c :: t =>
    match digit c with
    | some d => digitLoop (10 * value + d) (count + 1) t
    | none => (value, count, c :: t)

/-- Digits of a number of at most `limit`. Simplification: Spirit stops at the digit which exceeds the limit, with the same result. -/
def unsigned (limit : Nat) (t : List Char) : Option (Nat × List Char) :=
  match digitLoop 0 0 t with
  | (value, count, r) => if count = 0 ∨ value > limit then none else some (value, r)

/-- `qi::int_`: 32 bits with an optional sign -/
def int : Parser Int := fun t =>
  match skip t with
  | '-' :: r =>
    match unsigned 2147483648 r with
    | some (n, r) => .ok (-n) r
    | none => .fail
  | '+' :: r =>
    match unsigned 2147483647 r with
    | some (n, r) => .ok n r
    | none => .fail
  | r =>
    match unsigned 2147483647 r with
    | some (n, r) => .ok n r
    | none => .fail

/-- Conversion of `int` to `std::uint8_t` -/
def toByte (i : Int) : UInt8 := UInt8.ofNat (i % 256).toNat

/-- MapCssParser.cpp:106-110 -/
def zoom : Parser Zoom := fun t =>
  (lit ['|', 'z'] t).andThen fun _ r => (int r).expect.andThen fun first r => (optional () (lit ['-']) r).andThen fun _ r =>
    (optional first int r).andThen fun last r => .ok ⟨toByte first, toByte last⟩ r

def nodeText : List Char := ['n', 'o', 'd', 'e']
def wayText : List Char := ['w', 'a', 'y']
def areaText : List Char := ['a', 'r', 'e', 'a']
def relationText : List Char := ['r', 'e', 'l', 'a', 't', 'i', 'o', 'n']
def canvasText : List Char := ['c', 'a', 'n', 'v', 'a', 's']
def elementText : List Char := ['e', 'l', 'e', 'm', 'e', 'n', 't']

/-- MapCssParser.cpp:120-124 -/
def name : Parser (List Char) := alternative (str nodeText) (alternative (str wayText) (alternative (str areaText) (str relationText)))

/-- MapCssParser.cpp:127 -/
def elementSelector : Parser Selector := fun t =>
  (listOf name [','] t).andThen fun names r => (zoom r).andThen fun z r => (many1 condition r).andThen fun cs r => .ok ⟨names, z, cs⟩ r

/-- MapCssParser.cpp:128 -/
def canvasSelector : Parser Selector := fun t =>
  (many1 (str canvasText) t).andThen fun names r => (zoom r).expect.andThen fun z r => .ok ⟨names, z, []⟩ r

/-- MapCssParser.cpp:129 -/
def anySelector : Parser Selector := fun t =>
  (many1 (str elementText) t).andThen fun names r => (zoom r).expect.andThen fun z r => (condition r).expect.andThen fun c r => .ok ⟨names, z, [c]⟩ r

/-- MapCssParser.cpp:126-129 -/
def selector : Parser Selector := alternative elementSelector (alternative canvasSelector anySelector)

def startsWith (c : Char) : List Char → Bool
  | [] => false
  | a :: _ => a = c

/-- MapCssParser.cpp:142-146 -/
def declaration : Parser Declaration := fun t =>
  (lexeme (fun t => startsWith ':' t || startsWith '}' t) t).andThen fun key r => (lit [':'] r).andThen fun _ r =>
    (lexeme (startsWith ';') r).expect.andThen fun value r => (lit [';'] r).expect.andThen fun _ r => .ok ⟨key, value⟩ r

/-- MapCssParser.cpp:156-160 -/
def rule : Parser Rule := fun t =>
  (listOf selector [','] t).andThen fun selectors r => (lit ['{'] r).expect.andThen fun _ r => (many1 declaration r).expect.andThen fun ds r =>
    (lit ['}'] r).expect.andThen fun _ r => .ok ⟨selectors, ds⟩ r

/-- A stylesheet with textures `A` and L-systems `L`; StyleSheet.hpp:127-131. -/
structure Sheet (A L : Type) where
  rules : List Rule
  textures : List A
  lsystems : Assoc (List Char) L

/-- What is used of other parts: files of the directory, and the parsers of textures and L-systems. -/
structure Tools (A L : Type) where
  file : List Char → Option (List Char)
  atlas : List Char → Outcome A
  lsystem : List Char → Outcome L

def importText : List Char := ['@', 'i', 'm', 'p', 'o', 'r', 't', ' ', 'u', 'r', 'l', '(', '"']
def textureText : List Char := ['@', 't', 'e', 'x', 't', 'u', 'r', 'e', ' ', 'u', 'r', 'l', '(', '"']
def lsystemText : List Char := ['@', 'l', 's', 'y', 's', 't', 'e', 'm', ' ', 'u', 'r', 'l', '(', '"']
def closeText : List Char := ['"', ')', ';']

/-- The begin of an import and the name of the file, before the action is called -/
def reference (keyword : List Char) : Parser (List Char) := fun t =>
  (str keyword t).andThen fun _ r => (lexeme (startsWith '"') r).expect

/-- An item of a stylesheet as it is in the text -/
inductive Item where
  | rule (r : Rule)
  | imported (file : List Char)
  | texture (file : List Char)
  | lsystem (file : List Char)
deriving DecidableEq, Repr

/-- MapCssParser.cpp:172-176, 203-213, 259: the next item; the rest of an import follows its action -/
def item : Parser Item := fun t =>
  match rule t with
  | .ok r rest => .ok (.rule r) rest
  | .error => .error
  | .fail =>
    match reference importText t with
    | .ok f rest => .ok (.imported f) rest
    | .error => .error
    | .fail =>
      match reference textureText t with
      | .ok f rest => .ok (.texture f) rest
      | .error => .error
      | .fail => (reference lsystemText t).andThen fun f rest => .ok (.lsystem f) rest

section
variable {A L : Type} (T : Tools A L)

/-- MapCssParser.cpp:232-237 -/
def getContent (file : List Char) : Outcome (List Char) :=
  match T.file file with
  | some c => .ok c
  | none => .throw "MapCssException"

/-- MapCssParser.cpp:181-186, 220-229: the action of an item; `importSheet` parses an imported text into the stylesheet. A missing file has no content.
Simplification: the empty rule which Spirit adds for an import is left out, as it is removed by `MapCssParser::parse` (lines 298-302). -/
def act (importSheet : List Char → Sheet A L → Outcome (Sheet A L)) (s : Sheet A L) : Item → Outcome (Sheet A L)
  | .rule r => .ok { s with rules := s.rules ++ [r] }
  | .imported f => importSheet ((T.file f).getD []) s
  | .texture f => (getContent T f).bind fun c => (T.atlas c).bind fun a => .ok { s with textures := s.textures ++ [a] }
  | .lsystem f => (getContent T f).bind fun c => (T.lsystem c).bind fun l =>
      .ok { s with lsystems := s.lsystems.emplace (Strings.getFileNameWithoutExtension '\\' '/' '.' f) l }

/-- The end of an item behind its action -/
def finish : Item → Parser Unit
  | .rule _ => fun t => .ok () t
  | _ => fun t => (lit closeText t).expect

/-- MapCssParser.cpp:258-259, 286-287: the loop over items. The text behind the last item is not looked at. -/
def sheetLoop (importSheet : List Char → Sheet A L → Outcome (Sheet A L)) : Nat → List Char → Sheet A L → Outcome (Sheet A L)
  | 0, _, s => .ok s
  | n + 1, t, s =>
    match item t with
    | .ok i r => (act T importSheet s i).bind fun s =>
        match finish i r with
        | .ok _ r => sheetLoop importSheet n r s
        | _ => .throw "MapCssException"
    | .fail => .ok s
    | .error => .throw "MapCssException"

/-- MapCssParser.cpp:281-288 for imports nested to this depth: imports are not guarded against recursion, which ends with an overflow of the stack -/
def parseInto : Nat → List Char → Sheet A L → Outcome (Sheet A L)
  | 0, _, _ => .ub "stack overflow"
  | depth + 1, t, s => sheetLoop T (parseInto depth) t.length t s

/-- MapCssParser.cpp:294-306 for a stack of this depth -/
def parse (depth : Nat) (t : List Char) : Outcome (Sheet A L) := parseInto T depth t ⟨[], [], []⟩

end
end Verif.MapCss
