import Mathlib.Data.Real.Archimedean
import Verif.Model.Bbox
import Verif.Model.Element

/-!
# `core/src/index/ElementGeometryClipper.cpp`, `core/src/index/ElementGeometryVisitor.hpp`

Coordinates are real numbers. The polygon clipping library is a parameter: `Engine` gets the clip rectangle, whether the
subject is closed and the subject, and returns the contours of the solution in the order of `GetFirst`/`GetNext`.
-/
namespace Verif.Clipper

abbrev El := Element (Geo ℝ)
abbrev Path := List (ℤ × ℤ)
abbrev Engine := Path → Bool → Path → List Path

/-- ElementGeometryClipper.cpp:18 -/
noncomputable def scale : ℝ := 10000000

/-- `static_cast<cInt>` of a double: truncation towards zero. -/
noncomputable def trunc (x : ℝ) : ℤ := if 0 ≤ x then ⌊x⌋ else ⌈x⌉

/-- ElementGeometryClipper.cpp:44-46 -/
noncomputable def toInt (c : Geo ℝ) : ℤ × ℤ := (trunc (c.lon * scale), trunc (c.lat * scale))

/-- ElementGeometryClipper.cpp:53-59 `setCoordinates`, one point. -/
noncomputable def ofInt (p : ℤ × ℤ) : Geo ℝ := ⟨p.2 / scale, p.1 / scale⟩

/-- ElementGeometryClipper.cpp:61-77 -/
noncomputable def rectOf (b : Bbox ℝ) : Path :=
  [(trunc (b.lo.lon * scale), trunc (b.lo.lat * scale)), (trunc (b.hi.lon * scale), trunc (b.lo.lat * scale)),
   (trunc (b.hi.lon * scale), trunc (b.hi.lat * scale)), (trunc (b.lo.lon * scale), trunc (b.hi.lat * scale))]

inductive Location | allInside | allOutside | mixed
deriving DecidableEq, Repr

/-- ElementGeometryClipper.cpp:22-51 `checkElement` with the two versions of `areConnected` (`closed`: areas). -/
noncomputable def checkElement (b : Bbox ℝ) (closed : Bool) (cs : List (Geo ℝ)) : Location :=
  let allInside := cs.all fun c => b.containsPoint c
  let allOutside := cs.all fun c => !b.containsPoint c
  let connected := if closed then b.intersects (Bbox.expandAll Bbox.empty cs) else !allOutside
  if allInside then .allInside else if connected then .mixed else .allOutside

/-- ElementGeometryClipper.cpp:80-131 `clipElement`; `make` builds a way or an area. -/
noncomputable def clipElement (eng : Engine) (b : Bbox ℝ) (closed : Bool) (make : UInt64 → List Tag → List (Geo ℝ) → El)
    (id : UInt64) (tags : List Tag) (cs : List (Geo ℝ)) : Option El :=
  match checkElement b closed cs with
  | .allInside => some (make id tags cs)
  | .allOutside => none
  | .mixed => match eng (rectOf b) closed (cs.map toInt) with
    | [] => none
    | [contour] => some (make id tags (contour.map ofInt))
    | contours => some (.relation id [] (contours.map fun c => make 0 tags (c.map ofInt)))

/-- Assigning the tags of an element. -/
def withTags (t : List Tag) : El → El
  | .node i _ c => .node i t c
  | .way i _ c => .way i t c
  | .area i _ c => .area i t c
  | .relation i _ m => .relation i t m

/-- ElementGeometryClipper.cpp:199-209, the end of `clipRelation`. The members of `visitor.relation` are new objects, so
changing id and tags has no effect elsewhere. -/
def collapse (id : UInt64) (tags : List Tag) : List El → Option El
  | [] => none
  | [m] => some (withTags tags (m.withId id))
  | ms => some (.relation id tags ms)

mutual
/-- ElementGeometryClipper.cpp:228-251 `visitNode` ... `visitRelation` and, for members, the same functions of
`RelationVisitor` (146-189): what is passed to the callback. -/
noncomputable def clip (eng : Engine) (b : Bbox ℝ) : El → Option El
  | .node i t c => if b.containsPoint c then some (.node i t c) else none
  | .way i t cs => clipElement eng b false .way i t cs
  | .area i t cs => clipElement eng b true .area i t cs
  | .relation i t ms => collapse i t (clipMembers eng b ms)

/-- ElementGeometryClipper.cpp:191-197: the members which remain. -/
noncomputable def clipMembers (eng : Engine) (b : Bbox ℝ) : List El → List El
  | [] => []
  | m :: ms => match clip eng b m with
    | none => clipMembers eng b ms
    | some m' => m' :: clipMembers eng b ms
end

mutual
/-- ElementGeometryVisitor.hpp:18-36: the box of an element, starting with the box `b`. -/
noncomputable def expandElement (b : Bbox ℝ) : El → Bbox ℝ
  | .node _ _ c => b.expand c
  | .way _ _ cs => b.expandAll cs
  | .area _ _ cs => b.expandAll cs
  | .relation _ _ ms => expandElements b ms

noncomputable def expandElements (b : Bbox ℝ) : List El → Bbox ℝ
  | [] => b
  | m :: ms => expandElements (expandElement b m) ms
end

end Verif.Clipper
