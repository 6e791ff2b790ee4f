import Verif.Model.OsmXml
import Verif.Props.AtlasSpec
import Mathlib.Algebra.BigOperators.Group.List.Basic

/-! # Specification of OSM files in XML (C93)

How elements are written. Only the records which are written are taken from the model. -/
namespace Verif.OsmXmlSpec
open Verif.OsmXml (Tag Node Way Member Relation Side Event)
open Verif.AtlasSpec (Blank)
open Verif.MapCssSpec (Digits)
open Verif.LsysTextSpec (PrintsReal Letter)

/-- Blanks and line ends. -/
def Blanks (g : List Char) : Prop := ∀ c ∈ g, Blank c

def Alnum (c : Char) : Prop := Letter c ∨ (48 ≤ c.toNat ∧ c.toNat ≤ 57)

/-- An attribute which is of no interest: `key="value"`; neither is empty. -/
inductive Attribute : List Char → Prop
  | mk (key value) (hk : key ≠ []) (ha : ∀ c ∈ key, Alnum c) (hn : key ∉ ["id".toList, "lat".toList, "lon".toList]) (hv : value ≠ []) (hq : '"' ∉ value) :
    Attribute (key ++ ('=' :: '"' :: (value ++ ['"'])))

/-- Blanks and attributes which are of no interest. -/
inductive Gap : List Char → Prop
  | nil : Gap []
  | blank (c g) (hc : Blank c) (hg : Gap g) : Gap (c :: g)
  | other (a g) (ha : Attribute a) (hg : Gap g) : Gap (a ++ g)

/-- One text after the other. -/
def Seq (P Q : List Char → Prop) (w : List Char) : Prop := ∃ u v, P u ∧ Q v ∧ w = u ++ v

/-- Blanks, and this text. -/
def Word (s w : List Char) : Prop := ∃ b, Blanks b ∧ w = b ++ s

/-- Blanks and attributes, and this text. -/
def Token (s w : List Char) : Prop := ∃ g, Gap g ∧ w = g ++ s

/-- A text in quotes. -/
def Quoted (s w : List Char) : Prop := '"' ∉ s ∧ ∃ b, Blanks b ∧ w = b ++ ('"' :: (s ++ ['"']))

/-- A number in quotes. -/
def QuotedReal (q : ℚ) (w : List Char) : Prop := ∃ b d, Blanks b ∧ PrintsReal q d ∧ w = b ++ ('"' :: (d ++ ['"']))

/-- A number of 64 bits, and the closing quote. -/
def Id (n : Nat) (w : List Char) : Prop := ∃ b d c, Blanks b ∧ Digits d n ∧ n < 2 ^ 64 ∧ Blanks c ∧ w = b ++ (d ++ (c ++ ['"']))

def PrintsTag (t : Tag) : List Char → Prop :=
  Seq (Word "<tag".toList) (Seq (Seq (Word "k=".toList) (Quoted t.key)) (Seq (Seq (Word "v=".toList) (Quoted t.value)) (Word "/>".toList)))

/-- One after the other. -/
inductive Each {α : Type} (P : α → List Char → Prop) : List α → List Char → Prop
  | nil : Each P [] []
  | cons (a as w v) (ha : P a w) (has : Each P as v) : Each P (a :: as) (w ++ v)

/-- The end of a node: with tags, or without. -/
def NodeEnd (ts : List Tag) (w : List Char) : Prop :=
  Seq (Token ">".toList) (Seq (Each PrintsTag ts) (Token "</node>".toList)) w ∨ (ts = [] ∧ Token "/>".toList w)

def PrintsNode (n : Node) : List Char → Prop :=
  Seq (Token "<node".toList) (Seq (Seq (Token "id=\"".toList) (Id n.id)) (Seq (Seq (Token "lat=".toList) (QuotedReal n.lat))
    (Seq (Seq (Token "lon=".toList) (QuotedReal n.lon)) (NodeEnd n.tags))))

def PrintsRef (n : Nat) : List Char → Prop := Seq (Word "<nd".toList) (Seq (Seq (Word "ref=\"".toList) (Id n)) (Word "/>".toList))

def PrintsWay (x : Way) (w : List Char) : Prop :=
  x.refs ≠ [] ∧ Seq (Token "<way".toList) (Seq (Seq (Token "id=\"".toList) (Id x.id)) (Seq (Token ">".toList) (Seq (Each PrintsRef x.refs)
    (Seq (Each PrintsTag x.tags) (Token "</way>".toList))))) w

def PrintsMember (m : Member) : List Char → Prop :=
  Seq (Word "<member".toList) (Seq (Seq (Word "type=".toList) (Quoted m.type)) (Seq (Seq (Word "ref=\"".toList) (Id m.ref))
    (Seq (Seq (Word "role=".toList) (Quoted m.role)) (Word "/>".toList))))

def PrintsRelation (x : Relation) (w : List Char) : Prop :=
  x.members ≠ [] ∧ Seq (Token "<relation".toList) (Seq (Seq (Token "id=\"".toList) (Id x.id)) (Seq (Token ">".toList) (Seq (Each PrintsMember x.members)
    (Seq (Each PrintsTag x.tags) (Token "</relation>".toList))))) w

def sideText : Side → List Char
  | .minLat => "minlat=".toList
  | .minLon => "minlon=".toList
  | .maxLat => "maxlat=".toList
  | .maxLon => "maxlon=".toList

def PrintsSide (p : Side × ℚ) : List Char → Prop := Seq (Word (sideText p.1)) (QuotedReal p.2)

/-- The sides of a box in any order, none of them twice. -/
def PrintsBounds (ps : List (Side × ℚ)) (w : List Char) : Prop :=
  ps ≠ [] ∧ (ps.map (·.1)).Nodup ∧ Seq (Token "<bounds".toList) (Seq (Each PrintsSide ps) (Word "/>".toList)) w

/-- What is in a file. -/
structure Doc where
  bounds : Option (List (Side × ℚ))
  nodes : List Node
  ways : List Way
  relations : List Relation

/-- The number of this side, or zero. -/
def number (ps : List (Side × ℚ)) (s : Side) : ℚ := ((ps.filter fun p => p.1 = s).map (·.2)).sum

/-- Types of members are shortened. -/
def short (t : List Char) : List Char := if t = "node".toList then "n".toList else if t = "way".toList then "w".toList else "r".toList

/-- What is told to the visitor about a file: everything, in the order of the file. -/
def events (d : Doc) : List Event :=
  (d.bounds.toList.map fun b => .bounds (number b .minLat) (number b .minLon) (number b .maxLat) (number b .maxLon)) ++ d.nodes.map .node ++ d.ways.map .way ++
    d.relations.map fun r => .relation ⟨r.id, r.members.map fun m => ⟨short m.type, m.ref, m.role⟩, r.tags⟩

/-- The elements: bounds, nodes, ways, relations, in this order. -/
def PrintsElements (d : Doc) : List Char → Prop :=
  Seq (Each PrintsBounds d.bounds.toList) (Seq (Each PrintsNode d.nodes) (Seq (Each PrintsWay d.ways) (Each PrintsRelation d.relations)))

/-- The elements and the end. -/
def PrintsBody (d : Doc) : List Char → Prop :=
  Seq (Each PrintsBounds d.bounds.toList) (Seq (Each PrintsNode d.nodes) (Seq (Each PrintsWay d.ways) (Seq (Each PrintsRelation d.relations) (Token "</osm>".toList))))

/-- The begin of bounds or of a node is nowhere in this text. -/
def Clean (p : List Char) : Prop := ¬ "<node".toList <:+: p ∧ ¬ "<bounds".toList <:+: p

/-- The begin of a file: the declaration, the begin of `osm`, and other things such as notes. -/
inductive Head : List Char → Prop
  | mk (b g h k l p) (hb : Blank b) (hg : Gap g) (hh : Gap h) (hk : Gap k) (hl : Gap l) (hp : p = [] ∨ ∃ q, p = '<' :: q) (hc : Clean p) :
    Head ("<?xml".toList ++ (b :: (g ++ ("?>".toList ++ (h ++ ("<osm".toList ++ (k ++ (">".toList ++ (l ++ p)))))))))

/-- What comes before the elements, whatever it is: `<?`, something, `>`, `<osm`, `>`, something. -/
def Lead (h : List Char) : Prop :=
  ∃ g x k l y, Gap g ∧ Gap k ∧ Gap l ∧ h = g ++ ("<?".toList ++ (x ++ (">".toList ++ (k ++ ("<osm".toList ++ (l ++ (">".toList ++ y)))))))

/-- XML texts of characters which may not stand for themselves. -/
def escape : List Char → List Char
  | [] => []
  | c :: t => (if c = '&' then "&amp;".toList else if c = '"' then "&quot;".toList else if c = '<' then "&lt;".toList else if c = '>' then "&gt;".toList else [c]) ++
    escape t

end Verif.OsmXmlSpec
