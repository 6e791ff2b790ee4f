import Verif.Model.Style
import Mathlib.Data.List.Forall2

/-! Specification of styles (C28, C29): the meaning of a stylesheet, without indexes. -/
namespace Verif.StyleSpec
open Verif.Style

variable {D : Type}

/-- The string table gives the strings of the set `P` back, and tags with a key of `P` consist of strings of the table. The string of a number which is not in the table is
empty (index/StringTable.cpp:73-93), as for the marks of parts of buildings: nothing is asked for tags with such a key. -/
structure Interned (env : Env D) (P : Str → Prop) (tags : List Tag) : Prop where
  back : ∀ s, P s → env.getString (env.getId s) = s
  known : ∀ t ∈ tags, env.getString t.key ≠ [] → P (env.getString t.key) → env.getId (env.getString t.key) = t.key ∧ env.getId (env.getString t.value) = t.value

/-- The strings of a stylesheet which go to the string table, and the key of builders. Keys of conditions are not empty (C60). -/
def Mentions (rules : List Rule) (P : Str → Prop) : Prop :=
  P "builder".toList ∧ ∀ r ∈ rules, (∀ d ∈ r.declarations, P d.key) ∧ ∀ s ∈ r.selectors, ∀ c ∈ s.conditions, P c.key ∧ P c.value ∧ c.key ≠ []

/-- What a tag value has to satisfy. -/
def Compare (env : Env D) (operation : Str) (tagValue value : Str) : Prop :=
  (operation = [] ∧ True) ∨ (operation = ['='] ∧ tagValue = value) ∨ (operation = ['!', '='] ∧ tagValue ≠ value) ∨
  (operation = ['<'] ∧ env.lt (env.num tagValue) (env.num value) = true) ∨
  (operation = ['>'] ∧ env.lt (env.num value) (env.num tagValue) = true)

/-- Some tag has the key of the condition and satisfies the comparison. -/
def Holds (env : Env D) (tags : List Tag) (c : Condition) : Prop :=
  ∃ t ∈ tags, env.getString t.key = c.key ∧ Compare env c.operation (env.getString t.value) c.value

def InZoom (z : Zoom) (lod : Nat) : Prop := z.first.toNat ≤ lod ∧ lod ≤ z.last.toNat

def kindName : Kind → Str
  | .node => "node".toList
  | .way => "way".toList
  | .area => "area".toList
  | .relation => "relation".toList
  | .canvas => "canvas".toList

/-- The zoom and conditions of a selector are satisfied by these tags at this lod. -/
def Applies (env : Env D) (lod : Nat) (tags : List Tag) (s : Selector) : Prop :=
  InZoom s.zoom lod ∧ ∀ c ∈ s.conditions, Holds env tags c

open Classical in
/-- The declaration blocks which apply, in the order of the stylesheet. -/
noncomputable def applied (env : Env D) (kind : Kind) (lod : Nat) (tags : List Tag) (rules : List Rule) : List (List Declaration) :=
  rules.flatMap fun r => r.selectors.flatMap fun s => s.names.flatMap fun n =>
    if n = kindName kind ∧ Applies env lod tags s then [r.declarations] else []

/-- All declarations which apply, in the order of the stylesheet. -/
noncomputable def declared (env : Env D) (kind : Kind) (lod : Nat) (tags : List Tag) (rules : List Rule) : List Declaration :=
  (applied env kind lod tags rules).flatten

/-- The value declared last for a key. -/
def lastValue (ds : List Declaration) (k : Str) : Option Str := (ds.reverse.find? (fun d => d.key = k)).map (·.value)

/-- The declarations for an explicit id, rule by rule. -/
def idRules (env : Env D) (lod : Nat) (id : UInt64) (rules : List Rule) : List (List Declaration) :=
  rules.flatMap fun r => r.selectors.flatMap fun s => s.names.flatMap fun n =>
    if n = "element".toList ∧ (s.zoom.first.toNat ≤ lod ∧ lod ≤ s.zoom.last.toNat) ∧ r.declarations ≠ [] ∧
      (s.conditions.head?.bind fun c => env.castId c.value) = some id then [r.declarations] else []

/-- `d'` is `d`, or has the value `v'` where `d` has the value `v`. -/
def Edited (v v' : Str) (d d' : Declaration) : Prop := d' = d ∨ (d.value = v ∧ d' = ⟨d.key, v'⟩)

/-- The second stylesheet is the first one with the value `v` replaced by `v'` in any of its declarations. -/
def EditedSheet (v v' : Str) (rules rules' : List Rule) : Prop :=
  List.Forall₂ (fun r r' => r'.selectors = r.selectors ∧ List.Forall₂ (Edited v v') r.declarations r'.declarations) rules rules'

/-- Tags sorted by key, each key once. -/
def TagsSorted (tags : List Tag) : Prop := tags.Pairwise (fun a b => a.key < b.key)

/-- Tags sorted by key; keys of `P` are there at most once, other ones (the marks of parts of buildings) may be repeated. -/
def SortedFor (env : Env D) (P : Str → Prop) (tags : List Tag) : Prop :=
  tags.Pairwise (fun a b => a.key ≤ b.key) ∧ ∀ k, P k → ∀ a ∈ tags, ∀ b ∈ tags, a.key = env.getId k → b.key = env.getId k → a = b

end Verif.StyleSpec
