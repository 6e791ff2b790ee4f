import Verif.Model.Basic
import Verif.Model.Element

/-!
# `core/src/mapcss/StyleSheet.hpp`, `StyleProvider.cpp` and `Style.hpp`

The string table (C02), number parsing and the id conversion are parameters. Gradients, textures and L-systems of the provider are left
out. Hash maps are association lists; the order in which `getHashTag` visits them is that of the list.
-/
namespace Verif.Style

abbrev Str := List Char

/-- Environment: string table, `parseDouble` (utils/CoreUtils.hpp:55-62) with the order of doubles, and
`lexicalCast<std::uint64_t>` (utils/CoreUtils.hpp:44-47), which throws for `none`. -/
structure Env (D : Type) where
  getId : Str → UInt32
  getString : UInt32 → Str
  num : Str → D
  lt : D → D → Bool
  castId : Str → Option UInt64

variable {D : Type}

/-- StyleSheet.hpp:95-99 -/
structure Condition where
  key : Str
  operation : Str
  value : Str
deriving DecidableEq, Repr

/-- StyleSheet.hpp:102-105 -/
structure Zoom where
  first : UInt8
  last : UInt8
deriving DecidableEq, Repr

/-- StyleSheet.hpp:108-112 -/
structure Selector where
  names : List Str
  zoom : Zoom
  conditions : List Condition
deriving DecidableEq, Repr

/-- StyleSheet.hpp:115-118 -/
structure Declaration where
  key : Str
  value : Str
deriving DecidableEq, Repr

/-- StyleSheet.hpp:121-124 -/
structure Rule where
  selectors : List Selector
  declarations : List Declaration
deriving DecidableEq, Repr

/-- StyleProvider.cpp:22 -/
inductive OpType | exists_ | equals | notEquals | less | greater
deriving DecidableEq, Repr

/-- StyleProvider.cpp:24-28 -/
structure ConditionType where
  key : UInt32
  value : UInt32
  type : OpType
deriving DecidableEq, Repr

/-- StyleDeclaration.hpp:19-24: key id and raw value. -/
structure StyleDeclaration where
  key : UInt32
  value : Str
deriving DecidableEq, Repr

/-- StyleProvider.cpp:30-33 -/
structure ConditionFilter where
  conditions : List ConditionType
  declarations : List StyleDeclaration
deriving DecidableEq, Repr

inductive Kind | node | way | area | relation | canvas
deriving DecidableEq, Repr

/-- StyleProvider.cpp:37 -/
abbrev ConditionFilterMap := Assoc Nat (List ConditionFilter)
/-- StyleProvider.cpp:38-39 -/
abbrev IdentifierFilterMap := Assoc Nat (Assoc UInt64 (List StyleDeclaration))

/-- StyleProvider.cpp:41-48 -/
structure FilterCollection where
  filters : Kind → ConditionFilterMap
  elements : IdentifierFilterMap

def emptyFilters : FilterCollection := ⟨fun _ => [], []⟩

/-- StyleProvider.cpp:255-259 -/
def kindOf (name : Str) : Option Kind :=
  if name = "node".toList then some .node
  else if name = "way".toList then some .way
  else if name = "area".toList then some .area
  else if name = "relation".toList then some .relation
  else if name = "canvas".toList then some .canvas
  else none

/-- StyleProvider.cpp:345-351 -/
def opOf (operation : Str) : Option OpType :=
  if operation = [] then some .exists_
  else if operation = "=".toList then some .equals
  else if operation = "!=".toList then some .notEquals
  else if operation = "<".toList then some .less
  else if operation = ">".toList then some .greater
  else none

/-- StyleProvider.cpp:342-358 -/
def addConditions (env : Env D) : List Condition → Outcome (List ConditionType)
  | [] => .ok []
  | c :: cs => match opOf c.operation with
    | none => .throw "domain_error"
    | some op => (addConditions env cs).bind fun l => .ok (⟨env.getId c.key, env.getId c.value, op⟩ :: l)

/-- StyleProvider.cpp:360-367 -/
def addDeclarations (env : Env D) (ds : List Declaration) : List StyleDeclaration :=
  ds.map fun d => ⟨env.getId d.key, d.value⟩

/-- The loop `for (int i = zoom.start; i <= zoom.end; ++i)`, StyleProvider.cpp:326, 372. -/
def lods (z : Zoom) : List Nat := List.range' z.first.toNat (z.last.toNat + 1 - z.first.toNat)

/-- StyleProvider.cpp:370-371: sorted by key, descending; equal keys stay in order here, which `std::sort` does not promise. -/
def sortConditions (cs : List ConditionType) : List ConditionType := cs.mergeSort (fun a b => decide (b.key ≤ a.key))

/-- StyleProvider.cpp:369-375 -/
def addToFilterMap (m : ConditionFilterMap) (f : ConditionFilter) (z : Zoom) : ConditionFilterMap :=
  (lods z).foldl (fun m i => m.set i ((m.find i).getD [] ++ [{ f with conditions := sortConditions f.conditions }])) m

/-- StyleProvider.cpp:333-340 -/
def addConditionRule (env : Env D) (fc : FilterCollection) (k : Kind) (r : Rule) (s : Selector) : Outcome FilterCollection :=
  (addConditions env s.conditions).bind fun cs =>
    .ok { fc with filters := fun k' =>
      if k' = k then addToFilterMap (fc.filters k) ⟨cs, addDeclarations env r.declarations⟩ s.zoom else fc.filters k' }

/-- StyleProvider.cpp:319-330. `emplace` keeps the declarations of an earlier rule for the same id. -/
def addIdentifierRule (env : Env D) (fc : FilterCollection) (s : Selector) (ds : List Declaration) : Outcome FilterCollection :=
  match ds with
  | [] => .ok fc
  | _ => match s.conditions with
    | [] => .ub "conditions[0]"
    | c :: _ => match env.castId c.value with
      | none => .throw "bad_lexical_cast"
      | some id =>
        let elements := (lods s.zoom).foldl (fun m i => m.set i (((m.find i).getD []).emplace id (addDeclarations env ds))) fc.elements
        .ok ⟨fc.filters, elements⟩

/-- StyleProvider.cpp:253-267 -/
def addName (env : Env D) (fc : FilterCollection) (r : Rule) (s : Selector) (name : Str) : Outcome FilterCollection :=
  match kindOf name with
  | some k => addConditionRule env fc k r s
  | none => if name = "element".toList then addIdentifierRule env fc s r.declarations else .throw "domain_error"

/-- A loop which may throw. -/
def foldOutcome {α β : Type} (f : β → α → Outcome β) : β → List α → Outcome β
  | b, [] => .ok b
  | b, a :: l => (f b a).bind fun b' => foldOutcome f b' l

/-- StyleProvider.cpp:251-269 -/
def build (env : Env D) (rules : List Rule) : Outcome FilterCollection :=
  foldOutcome (fun fc r => foldOutcome (fun fc s => foldOutcome (fun fc n => addName env fc r s n) fc s.names) fc r.selectors)
    emptyFilters rules

/-- Style.hpp:21-60, 159-163: `declarations_` and `builders_`. -/
structure Style where
  declarations : Assoc UInt32 Str
  builders : List Str

def emptyStyle : Style := ⟨[], []⟩

/-- Style.hpp:54-60; the set of builders is a list without repetition. -/
def put (env : Env D) (st : Style) (d : StyleDeclaration) : Style :=
  ⟨st.declarations.set d.key d.value,
    if d.key = env.getId "builder".toList then (if d.value ∈ st.builders then st.builders else st.builders ++ [d.value]) else st.builders⟩

/-- Binary search for a key, StyleProvider.cpp:171-182 and utils/ElementUtils.hpp:42-60: the part between the iterators. -/
def findTag (key : UInt32) (tags : List Tag) : Option Tag :=
  if h : tags = [] then none
  else
    let mid := tags.length / 2
    have hmid : mid < tags.length := Nat.div_lt_self (List.length_pos_iff.2 h) (by decide)
    let t := tags[mid]
    if t.key = key then some t
    else if key < t.key then findTag key (tags.take mid)
    else findTag key (tags.drop (mid + 1))
termination_by tags.length
decreasing_by
  · simp only [List.length_take]; omega
  · simp only [List.length_drop]; omega

/-- StyleProvider.cpp:148-168 -/
def matchTag (env : Env D) (t : Tag) (c : ConditionType) : Bool :=
  match c.type with
  | .exists_ => true
  | .equals => t.value == c.value
  | .notEquals => t.value != c.value
  | .less => env.lt (env.num (env.getString t.value)) (env.num (env.getString c.value))
  | .greater => env.lt (env.num (env.getString c.value)) (env.num (env.getString t.value))

/-- StyleProvider.cpp:171-182 -/
def matchTags (env : Env D) (tags : List Tag) (c : ConditionType) : Bool :=
  match findTag c.key tags with
  | none => false
  | some t => matchTag env t c

/-- StyleProvider.cpp:185-204; the style and `canBuild_`. -/
def buildFromCondition (env : Env D) (tags : List Tag) (m : ConditionFilterMap) (lod : Nat) : Style × Bool :=
  ((m.find lod).getD []).foldl (fun r f =>
    if f.conditions.all (matchTags env tags) then (f.declarations.foldl (put env) r.1, true) else r) (emptyStyle, false)

/-- StyleProvider.cpp:207-221 -/
def buildFromIdentifier (env : Env D) (fc : FilterCollection) (id : UInt64) (lod : Nat) : Option Style :=
  match fc.elements.find lod with
  | none => none
  | some m => match m.find id with
    | none => none
    | some ds => some (ds.foldl (put env) emptyStyle)

def kindOfElement {C : Type} : Element C → Kind
  | .node .. => .node
  | .way .. => .way
  | .area .. => .area
  | .relation .. => .relation

/-- StyleProvider.cpp:128-134, 142-145, 413-417 -/
def forElement {C : Type} (env : Env D) (fc : FilterCollection) (e : Element C) (lod : Nat) : Style :=
  match buildFromIdentifier env fc e.id lod with
  | some st => st
  | none => (buildFromCondition env e.tags (fc.filters (kindOfElement e)) lod).1

/-- StyleProvider.cpp:407-411 with `onlyCheck_` -/
def hasStyle {C : Type} (env : Env D) (fc : FilterCollection) (e : Element C) (lod : Nat) : Bool :=
  match buildFromIdentifier env fc e.id lod with
  | some _ => true
  | none => (((fc.filters (kindOfElement e)).find lod).getD []).any fun f => f.conditions.all (matchTags env e.tags)

/-- StyleProvider.cpp:419-427 -/
def forCanvas (env : Env D) (fc : FilterCollection) (lod : Nat) : Style :=
  (((fc.filters .canvas).find lod).getD []).foldl (fun st f => f.declarations.foldl (put env) st) emptyStyle

/-- `toString` of an unsigned number. -/
def dec (n : Nat) : Str := Nat.toDigits 10 n

/-- StyleProvider.cpp:51-56 -/
def declTag (ds : List StyleDeclaration) : Str := ds.flatMap fun d => dec d.key.toNat ++ d.value

/-- StyleProvider.cpp:58-71 -/
def opTag : OpType → Str
  | .exists_ => "~".toList
  | .equals => "==".toList
  | .notEquals => "!=".toList
  | .less => "<".toList
  | .greater => ">".toList

/-- StyleProvider.cpp:79-83 -/
def condTag (c : ConditionType) : Str := dec c.key.toNat ++ opTag c.type ++ dec c.value.toNat

/-- StyleProvider.cpp:74-86 -/
def mapTag (m : ConditionFilterMap) : Str :=
  m.flatMap fun p => dec p.1 ++ p.2.flatMap fun f => f.conditions.flatMap condTag ++ declTag f.declarations

/-- StyleProvider.cpp:89-97 -/
def idTag (m : IdentifierFilterMap) : Str :=
  m.flatMap fun p => dec p.1 ++ p.2.flatMap fun e => dec e.1.toNat ++ declTag e.2

/-- StyleProvider.cpp:100-109 -/
def hashText (fc : FilterCollection) : Str :=
  mapTag (fc.filters .node) ++ mapTag (fc.filters .way) ++ mapTag (fc.filters .area) ++ mapTag (fc.filters .relation) ++
    mapTag (fc.filters .canvas) ++ idTag fc.elements

/-- StyleProvider.cpp:100-112 -/
def hashTag (md5 : Str → Str) (fc : FilterCollection) : Str := md5 (hashText fc)

end Verif.Style
