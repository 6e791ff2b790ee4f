import Verif.Model.Osm

/-!
# `core/src/formats/osm/MultipolygonProcessor.cpp`

Points are an arbitrary type with the comparison `eq` (`GeoCoordinate::operator==`), the orientation test `cw` (`isClockwise`) and the test
`contains` of a ring in a ring (`containsRing`, MultipolygonProcessor.cpp:63-67) as parameters. Resolving member relations is the subject of
`Verif.OsmRelations`.
-/
namespace Verif.Multipolygon

variable {C : Type}

/-- MultipolygonProcessor.cpp:18-24 -/
structure Seq (C : Type) where
  id : UInt64
  coordinates : List C
deriving DecidableEq, Repr

/-- `a == b` of two points which exist; the members are never empty (MultipolygonProcessor.cpp:128-129). -/
def same (eq : C → C → Bool) (a b : Option C) : Bool :=
  match a, b with
  | some a, some b => eq a b
  | _, _ => false

/-- MultipolygonProcessor.cpp:29-57 -/
def tryAdd (eq : C → C → Bool) (s other : Seq C) : Option (Seq C) :=
  if same eq s.coordinates.getLast? other.coordinates.head? then some { s with coordinates := s.coordinates.dropLast ++ other.coordinates }
  else if same eq s.coordinates.getLast? other.coordinates.getLast? then
    some { s with coordinates := s.coordinates.dropLast ++ other.coordinates.reverse }
  else if same eq s.coordinates.head? other.coordinates.getLast? then some { s with coordinates := other.coordinates ++ s.coordinates.tail }
  else if same eq s.coordinates.head? other.coordinates.head? then
    some { s with coordinates := other.coordinates.reverse ++ s.coordinates.tail }
  else none

/-- MultipolygonProcessor.cpp:59-61 -/
def isClosed (eq : C → C → Bool) (s : Seq C) : Bool := decide (1 < s.coordinates.length) && same eq s.coordinates.head? s.coordinates.getLast?

/-- The loop of MultipolygonProcessor.cpp:191-197: the extended ring and the remaining sequences. -/
def extend (eq : C → C → Bool) (ring : Seq C) : List (Seq C) → Option (Seq C × List (Seq C))
  | [] => none
  | s :: ss => match tryAdd eq ring s with
    | some r => some (r, ss)
    | none => (extend eq ring ss).map fun x => (x.1, s :: x.2)

/-- MultipolygonProcessor.cpp:204-208 -/
def closeRing (eq : C → C → Bool) (ring : Seq C) (closed : List (Seq C)) : List (Seq C) × Option (Seq C) :=
  if isClosed eq ring then (closed ++ [ring], none) else (closed, some ring)

/-- The loop of MultipolygonProcessor.cpp:183-209. Every turn takes one sequence, the first argument counts the turns. -/
def ringLoop (eq : C → C → Bool) : Nat → List (Seq C) → List (Seq C) → Option (Seq C) → List (Seq C)
  | 0, _, closed, _ => closed
  | n + 1, sequences, closed, current =>
    match current with
    | none =>
      match sequences.getLast? with
      | none => closed
      | some s =>
        let r := closeRing eq s closed
        ringLoop eq n sequences.dropLast r.1 r.2
    | some ring =>
      if sequences.isEmpty then closed
      else match extend eq ring sequences with
        | none => []
        | some (ring, rest) =>
          let r := closeRing eq ring closed
          ringLoop eq n rest r.1 r.2

/-- MultipolygonProcessor.cpp:179-212 -/
def createRings (eq : C → C → Bool) (sequences : List (Seq C)) : List (Seq C) := ringLoop eq sequences.length sequences [] none

/-- A new area, MultipolygonProcessor.cpp:158-160 and 253-255; the id of inner areas is not set (166, 260), `none`. -/
structure NewArea (C : Type) where
  id : Option UInt64
  coordinates : List C
deriving DecidableEq, Repr

/-- MultipolygonProcessor.cpp:267-278 -/
def insertCoordinates (eq : C → C → Bool) (cw : List C → Bool) (source : List C) (isOuter : Bool) : List C :=
  let offset := same eq source.head? source.getLast?
  let isClockwise := cw source
  if (isOuter && !isClockwise) || (!isOuter && isClockwise) then (if offset then source.dropLast else source)
  else (if offset then source.reverse.tail else source.reverse)

/-- The choice of an outer ring, MultipolygonProcessor.cpp:217-230: `pre` are the candidates already refused. -/
def findOuter (contains : List C → List C → Bool) : List (Seq C) → List (Seq C) → Option (Seq C × List (Seq C))
  | _, [] => none
  | pre, c :: post =>
    if (pre ++ post).any fun o => contains o.coordinates c.coordinates then findOuter contains (pre ++ [c]) post
    else some (c, pre ++ post)

/-- The choice of inner rings, MultipolygonProcessor.cpp:233-250: the inner rings and the remaining rings. -/
def findInners (contains : List C → List C → Bool) (outer : Seq C) : List (Seq C) → List (Seq C) → List (Seq C) × List (Seq C)
  | pre, [] => ([], pre)
  | pre, r :: post =>
    if contains outer.coordinates r.coordinates && !((pre ++ post).any fun o => contains o.coordinates r.coordinates) then
      let x := findInners contains outer pre post
      (r :: x.1, x.2)
    else findInners contains outer (pre ++ [r]) post

/-- MultipolygonProcessor.cpp:214-265; every turn takes at least one ring, the first argument counts the turns. If every ring lies in
another one, `outer` is a null pointer (235). -/
def fillLoop (eq : C → C → Bool) (cw : List C → Bool) (contains : List C → List C → Bool) : Nat → List (Seq C) → Outcome (List (NewArea C))
  | _, [] => .ok []
  | 0, _ :: _ => .ub "not reached"
  | n + 1, r :: rings =>
    match findOuter contains [] (r :: rings) with
    | none => .ub "null outer ring"
    | some (outer, rest) =>
      let x := findInners contains outer [] rest
      (fillLoop eq cw contains n x.2).bind fun areas =>
        .ok (⟨some outer.id, insertCoordinates eq cw outer.coordinates true⟩ ::
          x.1.map (fun i => ⟨none, insertCoordinates eq cw i.coordinates false⟩) ++ areas)

/-- MultipolygonProcessor.cpp:172-177 -/
def complexCase (eq : C → C → Bool) (cw : List C → Bool) (contains : List C → List C → Bool) (sequences : List (Seq C)) :
    Outcome (List (NewArea C)) :=
  let rings := createRings eq sequences
  fillLoop eq cw contains rings.length rings

/-- MultipolygonProcessor.cpp:151-170; `outers` and `inners` are the sequences at the indices of the two lists. -/
def simpleCase (eq : C → C → Bool) (cw : List C → Bool) (outer : Seq C) (inners : List (Seq C)) : List (NewArea C) :=
  ⟨some outer.id, insertCoordinates eq cw outer.coordinates true⟩ ::
    inners.map fun i => ⟨none, insertCoordinates eq cw i.coordinates false⟩

/-- formats/FormatTypes.hpp:34-38, with what MultipolygonProcessor.cpp:97-126 finds for the reference. -/
inductive Found (C : Type)
  | way (coords : List C)
  | area (coords : List C)
  | relation
  | missing

/-- A member of type "w". -/
structure Member (C : Type) where
  refId : UInt64
  role : String
  found : Found C

/-- The coordinates of MultipolygonProcessor.cpp:102-126: `ok none` for incomplete data. -/
def memberCoordinates : Found C → Outcome (Option (List C))
  | .way cs => .ok (some cs)
  | .area cs => match cs with
    | [] => .ub "coordinates[0]"
    | c :: cs => .ok (some (c :: cs ++ [c]))
  | .relation => .ok (some [])
  | .missing => .ok none

/-- The loop of MultipolygonProcessor.cpp:97-143 over the members of type "w": sequences with their role, `none` if it returns early. -/
def collect : List (Member C) → Outcome (Option (List (Bool × Seq C)))
  | [] => .ok (some [])
  | m :: ms => (memberCoordinates m.found).bind fun r => match r with
    | none => .ok none
    | some cs => (collect ms).bind fun rest =>
      .ok (rest.map fun rest =>
        if cs.isEmpty then rest
        else if m.role = "outer" then (true, ⟨m.refId, cs⟩) :: rest
        else if m.role = "inner" then (false, ⟨m.refId, cs⟩) :: rest
        else rest)

/-- MultipolygonProcessor.cpp:90-149: the areas added to the relation. -/
def process (eq : C → C → Bool) (cw : List C → Bool) (contains : List C → List C → Bool) (members : List (Member C)) :
    Outcome (List (NewArea C)) :=
  (collect members).bind fun r => match r with
  | none => .ok []
  | some sequences =>
    let outers := (sequences.filter (·.1)).map (·.2)
    let inners := (sequences.filter (!·.1)).map (·.2)
    match outers with
    | [outer] => if sequences.all fun s => isClosed eq s.2 then .ok (simpleCase eq cw outer inners)
      else complexCase eq cw contains (sequences.map (·.2))
    | _ => complexCase eq cw contains (sequences.map (·.2))

end Verif.Multipolygon
