import Verif.Model.LsysText

/-! # OSM files in XML

Models formats/osm/xml/OsmXmlParser.cpp: the Spirit grammars as functions from the remaining text, in the manner of `Verif.Model.MapCss`. Characters are code
points. Numbers are exact instead of doubles; `inf` and `nan`, which Spirit reads as numbers, are refused.

The skipper of a rule is used before each literal. A rule without skipper skips once before it begins (implied lexeme). -/
namespace Verif.OsmXml
open Verif.MapCss (Res Parser dropPrefix many many1 unsigned isSpace)
open Verif.LsysText (decimal isAlpha)

/-- `qi::alnum` -/
def isAlnum (c : Char) : Bool := isAlpha c || (48 ≤ c.toNat && c.toNat ≤ 57)

/-- OsmXmlParser.cpp:46-50 -/
def known (t : List Char) : Bool :=
  (dropPrefix ['i', 'd', '='] t).isSome || (dropPrefix ['l', 'a', 't', '='] t).isSome || (dropPrefix ['l', 'o', 'n', '='] t).isSome

def isText (c : Char) : Bool := c != '"'

/-- OsmXmlParser.cpp:54: the text behind an attribute which is not known and not empty -/
def otherAttribute (t : List Char) : Option (List Char) :=
  if known t then none
  else if t.takeWhile isAlnum = [] then none
  else (dropPrefix ['=', '"'] (t.dropWhile isAlnum)).bind fun r =>
    if r.takeWhile isText = [] then none else dropPrefix ['"'] (r.dropWhile isText)

/-- OsmXmlParser.cpp:52-55: the skipper once -/
def skipOne : List Char → Option (List Char)
  | [] => none
  | c :: t => if isSpace c then some t else otherAttribute (c :: t)

def skipLoop : Nat → List Char → List Char
  | 0, t => t
  | n + 1, t =>
    match skipOne t with
    | some r => skipLoop n r
    | none => t

/-- Skipping blanks and attributes -/
def skip (t : List Char) : List Char := skipLoop t.length t

/-- Skipping in `qi::skip(qi::space)[...]` -/
def skipBlanks (t : List Char) : List Char := t.dropWhile isSpace

/-- A literal, behind what is skipped. -/
def lit (s : List Char) : Parser Unit := fun t =>
  match dropPrefix s t with
  | some r => .ok () r
  | none => .fail

/-- A literal in a rule with the skipper of attributes -/
def token (s : List Char) : Parser Unit := fun t => lit s (skip t)

/-- A literal in `qi::skip(qi::space)[...]` -/
def word (s : List Char) : Parser Unit := fun t => lit s (skipBlanks t)

/-- OsmXmlParser.cpp:65-75, used inside of `qi::skip(qi::space)` only. -/
def stringValue : Parser (List Char) := fun t =>
  (word ['"'] t).andThen fun _ r => (lit ['"'] (r.dropWhile isText)).expect.andThen fun _ u => .ok (r.takeWhile isText) u

/-- OsmXmlParser.cpp:77-87, used inside of `qi::skip(qi::space)` only. -/
def doubleValue : Parser ℚ := fun t =>
  (word ['"'] t).andThen fun _ r =>
    match decimal r with
    | some (q, r) => (lit ['"'] r).expect.andThen fun _ u => .ok q u
    | none => .error

/-- `qi::ulong_long` -/
def ulong (t : List Char) : Res Nat :=
  match unsigned 18446744073709551615 (skipBlanks t) with
  | some (n, r) => .ok n r
  | none => .fail

/-- OsmXmlParser.cpp:93, 105: `key="` number `"` -/
def idValue (key : List Char) : Parser Nat := fun t =>
  (word key t).andThen fun _ r => (ulong r).expect.andThen fun n r => (word ['"'] r).expect.andThen fun _ r => .ok n r

def idKey : List Char := ['i', 'd', '=', '"']
def refKey : List Char := ['r', 'e', 'f', '=', '"']

/-- OsmXmlParser.cpp:89-99 from a rule with the skipper of attributes -/
def id : Parser Nat := fun t => idValue idKey (skip t)

/-- OsmXmlParser.cpp:101-111 from inside of `qi::skip(qi::space)` -/
def ref : Parser Nat := fun t => idValue refKey (skipBlanks t)

/-- `key=` and a value, inside of `qi::skip(qi::space)` -/
def keyed {α : Type} (key : List Char) (value : Parser α) : Parser α := fun t => (word key t).andThen fun _ r => (value r).expect

def endText : List Char := ['/', '>']

structure Tag where
  key : List Char
  value : List Char
deriving DecidableEq

/-- OsmXmlParser.cpp:127-139 -/
def tag : Parser Tag := fun t =>
  (word ['<', 't', 'a', 'g'] t).andThen fun _ r => (keyed ['k', '='] stringValue r).expect.andThen fun k r =>
  (keyed ['v', '='] stringValue r).expect.andThen fun v r => (word endText r).expect.andThen fun _ r => .ok ⟨k, v⟩ r

/-- `*tag` -/
def tags : Parser (List Tag) := fun t => many tag t.length t

structure Node where
  id : Nat
  lat : ℚ
  lon : ℚ
  tags : List Tag
deriving DecidableEq

/-- OsmXmlParser.cpp:144, 145 -/
def coordinate (key : List Char) : Parser ℚ := fun t => keyed key doubleValue (skip t)

/-- OsmXmlParser.cpp:149-151 -/
def nodeEnd : Parser (List Tag) := fun t =>
  match token ['>'] t with
  | .ok _ r => (tags r).expect.andThen fun ts r => (token ['<', '/', 'n', 'o', 'd', 'e', '>'] r).expect.andThen fun _ r => .ok ts r
  | .fail => (token endText t).expect.andThen fun _ r => .ok [] r
  | .error => .error

/-- OsmXmlParser.cpp:147-151 -/
def node : Parser Node := fun t =>
  (token ['<', 'n', 'o', 'd', 'e'] t).andThen fun _ r => (id r).expect.andThen fun i r => (coordinate ['l', 'a', 't', '='] r).expect.andThen fun lat r =>
  (coordinate ['l', 'o', 'n', '='] r).expect.andThen fun lon r => (nodeEnd r).expect.andThen fun ts r => .ok ⟨i, lat, lon, ts⟩ r

/-- OsmXmlParser.cpp:170 -/
def nodeRef : Parser Nat := fun t =>
  (word ['<', 'n', 'd'] t).andThen fun _ r => (ref r).expect.andThen fun n r => (word endText r).expect.andThen fun _ r => .ok n r

structure Way where
  id : Nat
  refs : List Nat
  tags : List Tag
deriving DecidableEq

/-- OsmXmlParser.cpp:172-173 -/
def way : Parser Way := fun t =>
  (token ['<', 'w', 'a', 'y'] t).andThen fun _ r => (id r).expect.andThen fun i r => (token ['>'] r).expect.andThen fun _ r =>
  (many1 nodeRef r).expect.andThen fun refs r => (tags r).expect.andThen fun ts r =>
  (token ['<', '/', 'w', 'a', 'y', '>'] r).expect.andThen fun _ r => .ok ⟨i, refs, ts⟩ r

structure Member where
  type : List Char
  ref : Nat
  role : List Char
deriving DecidableEq

/-- OsmXmlParser.cpp:189 -/
def member : Parser Member := fun t =>
  (word ['<', 'm', 'e', 'm', 'b', 'e', 'r'] t).andThen fun _ r => (keyed ['t', 'y', 'p', 'e', '='] stringValue r).expect.andThen fun ty r =>
  (ref r).expect.andThen fun n r => (keyed ['r', 'o', 'l', 'e', '='] stringValue r).expect.andThen fun role r =>
  (word endText r).expect.andThen fun _ r => .ok ⟨ty, n, role⟩ r

structure Relation where
  id : Nat
  members : List Member
  tags : List Tag
deriving DecidableEq

/-- OsmXmlParser.cpp:191-192 -/
def relation : Parser Relation := fun t =>
  (token ['<', 'r', 'e', 'l', 'a', 't', 'i', 'o', 'n'] t).andThen fun _ r => (id r).expect.andThen fun i r => (token ['>'] r).expect.andThen fun _ r =>
  (many1 member r).expect.andThen fun ms r => (tags r).expect.andThen fun ts r =>
  (token ['<', '/', 'r', 'e', 'l', 'a', 't', 'i', 'o', 'n', '>'] r).expect.andThen fun _ r => .ok ⟨i, ms, ts⟩ r

inductive Side where
  | minLat | minLon | maxLat | maxLon
deriving DecidableEq

def Side.key : Side → List Char
  | .minLat => ['m', 'i', 'n', 'l', 'a', 't', '=']
  | .minLon => ['m', 'i', 'n', 'l', 'o', 'n', '=']
  | .maxLat => ['m', 'a', 'x', 'l', 'a', 't', '=']
  | .maxLon => ['m', 'a', 'x', 'l', 'o', 'n', '=']

/-- One of the sides which are not taken yet -/
def side : List Side → Parser (Side × ℚ)
  | [], _ => .fail
  | s :: ss, t =>
    match keyed s.key doubleValue t with
    | .ok q r => .ok (s, q) r
    | .fail => side ss t
    | .error => .error

/-- The operator `^` of OsmXmlParser.cpp:117: the sides in any order, each at most once. -/
def sides : Nat → List Side → Parser (List (Side × ℚ))
  | 0, _, t => .ok [] t
  | n + 1, left, t =>
    match side left t with
    | .ok p r => (sides n (left.erase p.1) r).andThen fun ps r => .ok (p :: ps) r
    | .fail => .ok [] t
    | .error => .error

def allSides : List Side := [.minLat, .minLon, .maxLat, .maxLon]

/-- OsmXmlParser.cpp:113-125: at least one side. -/
def bounds : Parser (List (Side × ℚ)) := fun t =>
  (word ['<', 'b', 'o', 'u', 'n', 'd', 's'] (skip t)).andThen fun _ r =>
    match sides 4 allSides r with
    | .ok [] _ => .error
    | .ok ps r => (word endText r).expect.andThen fun _ r => .ok ps r
    | _ => .error

/-- What the visitor is told -/
inductive Event where
  | bounds (minLat minLon maxLat maxLon : ℚ)
  | node (n : Node)
  | way (w : Way)
  | relation (r : Relation)
deriving DecidableEq

/-- The value of a side; values which are not there are zero. -/
def valueOf (ps : List (Side × ℚ)) (s : Side) : ℚ :=
  match ps with
  | [] => 0
  | p :: ps => if p.1 = s then p.2 else valueOf ps s

/-- OsmXmlParser.cpp:240-245 -/
def onBounds (ps : List (Side × ℚ)) : Event := .bounds (valueOf ps .minLat) (valueOf ps .minLon) (valueOf ps .maxLat) (valueOf ps .maxLon)

/-- OsmXmlParser.cpp:268-274 -/
def mapType (t : List Char) : List Char :=
  if t = ['n', 'o', 'd', 'e'] then ['n'] else if t = ['w', 'a', 'y'] then ['w'] else ['r']

/-- OsmXmlParser.cpp:259-266 -/
def onRelation (r : Relation) : Event := .relation { r with members := r.members.map fun m => { m with type := mapType m.type } }

/-- OsmXmlParser.cpp:210: `*(qi::char_ - '>') > '>'` with the skipper of attributes -/
def header : Nat → List Char → Res Unit
  | 0, _ => .error
  | n + 1, t =>
    match skip t with
    | [] => .error
    | c :: r => if c = '>' then .ok () r else header n r

def nodeText : List Char := ['<', 'n', 'o', 'd', 'e']
def boundsText : List Char := ['<', 'b', 'o', 'u', 'n', 'd', 's']

/-- OsmXmlParser.cpp:212: `*(qi::char_ - (ascii::string("<node") | "<bounds"))` -/
def notes : List Char → List Char
  | [] => []
  | c :: t => if (dropPrefix nodeText (c :: t)).isSome || (dropPrefix boundsText (c :: t)).isSome then c :: t else notes t

/-- OsmXmlParser.cpp:210-212: what comes before the elements; `qi::lexeme` skips first. -/
def prologue : Parser Unit := fun t =>
  (token ['<', '?'] t).andThen fun _ r => (header (r.length + 1) r).expect.andThen fun _ r => (token ['<', 'o', 's', 'm'] r).expect.andThen fun _ r =>
  (token ['>'] r).expect.andThen fun _ r => .ok () (notes (skip r))

/-- `*qi::omit[p[action]]`: the results are handed on before the end is known. -/
def loop {α : Type} (p : Parser α) : Nat → List Char → List α × Res Unit
  | 0, t => ([], .ok () t)
  | n + 1, t =>
    match p t with
    | .ok a r => (a :: (loop p n r).1, (loop p n r).2)
    | .fail => ([], .ok () t)
    | .error => ([], .error)

/-- Going on behind a part which has no error -/
def followed (x : List Event × Res Unit) (f : List Char → List Event × Res Unit) : List Event × Res Unit :=
  match x.2 with
  | .ok _ r => (x.1 ++ (f r).1, (f r).2)
  | .fail => (x.1, .error)
  | .error => (x.1, .error)

/-- OsmXmlParser.cpp:213 -/
def boundsPart (t : List Char) : List Event × Res Unit :=
  match bounds t with
  | .ok b r => ([onBounds b], .ok () r)
  | .fail => ([], .ok () t)
  | .error => ([], .error)

/-- OsmXmlParser.cpp:213-217 -/
def elements (t : List Char) : List Event × Res Unit :=
  followed (boundsPart t) fun t => followed ((loop node t.length t).1.map .node, (loop node t.length t).2) fun t =>
  followed ((loop way t.length t).1.map .way, (loop way t.length t).2) fun t =>
  followed ((loop relation t.length t).1.map onRelation, (loop relation t.length t).2) fun t => ([], (token ['<', '/', 'o', 's', 'm', '>'] t).expect)

/-- OsmXmlParser.cpp:280-292: what the visitor is told, and the outcome. The text behind the end is not looked at; a failed expectation (220-228) is a failure. -/
def parse (t : List Char) : List Event × Outcome Unit :=
  match prologue t with
  | .ok _ r =>
    match elements r with
    | (es, .ok _ _) => (es, .ok ())
    | (es, _) => (es, .throw "domain_error")
  | _ => ([], .throw "domain_error")

end Verif.OsmXml
