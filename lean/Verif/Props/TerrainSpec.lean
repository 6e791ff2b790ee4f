import Verif.Model.Terrain

/-! # Specification of terrain

Points of the ground are of any type `X`, `wind p x` says how often a path runs around a point. -/
namespace Verif.TerrainSpec
open Verif.Terrain

variable {K X : Type}

/-- How often some paths together run around a point: holes run in the other direction. -/
def around (wind : Path → X → Int) (ps : List Path) (x : X) : Int := (ps.map fun p => wind p x).sum

/-- What the clipping library promises for these points (those which are not too close to an edge): a difference consists of outlines and holes of the
points which the subject runs around and the clip does not (nonzero filling), a union of those which the subject runs around, and tidying up does not
change what outlines and holes enclose. -/
structure Exact (lib : Library K) (wind : Path → X → Int) : Prop where
  difference : ∀ s c x, around wind (lib.difference s c) x = if around wind s x ≠ 0 ∧ around wind c x = 0 then 1 else 0
  union : ∀ s x, around wind (lib.union s) x = if around wind s x ≠ 0 then 1 else 0
  tidy : ∀ s x, around wind s x = 0 ∨ around wind s x = 1 → around wind (lib.tidy s) x = around wind s x

/-- The point is in no path which was too small to be used. -/
def NotSkipped (wind : Path → X → Int) (x : X) (pieces : List (Piece K)) : Prop := ∀ p ∈ pieces, ∀ q ∈ p.skipped, wind q x = 0

/-- The point is on this piece, and on no other piece. -/
def OnlyOn (wind : Path → X → Int) (x : X) (pieces : List (Piece K)) (p : Piece K) : Prop :=
  ∃ before after, pieces = before ++ p :: after ∧ around wind p.kept x = 1 ∧ ∀ q ∈ before ++ after, around wind q.kept x = 0

/-- The context which is shown at a point: that of the first region around it, else the background. -/
def owner (wind : Path → X → Int) (background : Context K) (x : X) : List (Region K) → Option (Context K)
  | [] => some background
  | r :: rs => if around wind r.geometry x ≠ 0 then r.context else owner wind background x rs

/-- Some region is around the point. -/
def Covers (wind : Path → X → Int) (x : X) (rs : List (Region K)) : Prop := ∃ r ∈ rs, around wind r.geometry x ≠ 0

/-- No region runs around the point in the wrong direction. -/
def Oriented (wind : Path → X → Int) (x : X) (rs : List (Region K)) : Prop := ∀ r ∈ rs, 0 ≤ around wind r.geometry x

/-- Both sorts sort: regions by area, layers by descending order. -/
structure Sorts [LE K] (sortRegions : List (Region K) → List (Region K)) (sortLayers : List (Layer K) → List (Layer K)) : Prop where
  regions_perm : ∀ l, (sortRegions l).Perm l
  regions_sorted : ∀ l, (sortRegions l).Pairwise fun a b => a.area ≤ b.area
  layers_perm : ∀ l, (sortLayers l).Perm l
  layers_sorted : ∀ l, (sortLayers l).Pairwise fun a b => b.sortOrder ≤ a.sortOrder

/-- The order of a layer: elements without a layer have order zero. -/
def orderOf (env : BuilderEnv K) (name : String) : Int := if name = "" then 0 else env.layerOrder name

/-- The context of a layer and of a region in it: named layers have one context for all, other elements have their own. -/
def contextOf (env : BuilderEnv K) (name : String) (r : Region K) : Option (Context K) := if name = "" then r.context else some (env.layerContext name)

/-! ## The regions of elements -/

section
variable [Field K] [LinearOrder K] [FloorRing K]

/-- The whole number of units of 0.0000001 degrees, without the fraction. -/
def units (degrees : K) : Int := if degrees < 0 then -⌊-degrees * 10000000⌋ else ⌊degrees * 10000000⌋

/-- Coordinates as points of a path: longitude, latitude. -/
def unitsOf (cs : List (Geo K)) : Path := cs.map fun c => (units c.lon, units c.lat)

/-- The tags of an element which may be the result of clipping: it has those of its relation if it has none. -/
def tagged (tags : List Tag) : Element (Geo K) → Element (Geo K)
  | .node id t c => .node id (if t = [] then tags else t) c
  | .way id t cs => .way id (if t = [] then tags else t) cs
  | .area id t cs => .area id (if t = [] then tags else t) cs
  | .relation id t ms => .relation id (if t = [] then tags else t) ms

/-- The name of the layer of an element and its own context, if it has no layer. -/
def layerOf (style : Style K) : String × Option (Context K) :=
  match style.layer with
  | none => ("", some style.context)
  | some name => (name, none)

/-- The paths of the areas among the members of a relation which have a style. -/
def outlines (env : BuilderEnv K) (tags : List Tag) (ms : List (Element (Geo K))) : List Path :=
  ms.filterMap fun m =>
    match m with
    | .area _ _ cs => if env.hasStyle (tagged tags m) then some (unitsOf cs) else none
    | _ => none

mutual
/-- The regions of an element with the names of their layers: that of an area is its outline, that of a way is the part of its line with a width
which is in the tile, and a relation has a region of the areas among its members in addition to those of its ways and relations. -/
def regionsOf (env : BuilderEnv K) (tags : List Tag) : Element (Geo K) → List (String × Region K)
  | .node _ _ _ => []
  | .way id t cs =>
    let style := env.style (tagged tags (.way id t cs))
    [((layerOf style).1, ⟨style.level, 0, (layerOf style).2,
      env.generator.library.intersection (env.generator.library.offset [unitsOf cs] (style.width * 10 ^ 7)) [env.generator.tileRect]⟩)]
  | .area id t cs =>
    let style := env.style (tagged tags (.area id t cs))
    [((layerOf style).1, ⟨style.level, 0, (layerOf style).2, [unitsOf cs]⟩)]
  | .relation id t ms =>
    let style := env.style (tagged tags (.relation id t ms))
    let paths := outlines env (if t = [] then tags else t) ms
    memberRegions env (if t = [] then tags else t) ms ++ if paths = [] then [] else [((layerOf style).1, ⟨0, 0, (layerOf style).2, paths⟩)]

/-- The regions of the members of a relation which have a style, other than areas. -/
def memberRegions (env : BuilderEnv K) (tags : List Tag) : List (Element (Geo K)) → List (String × Region K)
  | [] => []
  | .way id t cs :: ms => (if env.hasStyle (tagged tags (.way id t cs)) then regionsOf env tags (.way id t cs) else []) ++ memberRegions env tags ms
  | .relation id t rs :: ms =>
    (if env.hasStyle (tagged tags (.relation id t rs)) then regionsOf env tags (.relation id t rs) else []) ++ memberRegions env tags ms
  | _ :: ms => memberRegions env tags ms
end

end

end Verif.TerrainSpec
