import Verif.Model.Clipper
import Verif.Model.Mercator

/-!
# `core/src/index/ElementStore.cpp`

`save` (virtual) is represented by the list of its calls. The style provider is represented by the three facts used of the
style at each lod (C28-C31 are about the styles themselves).
-/
namespace Verif.ElementStore
open Verif.Clipper (El Engine clip expandElement)
open Verif.Mercator (visitTileRange tileBox)

/-- ElementStore.cpp:70-71, 83: what is used of a style. -/
structure StyleInfo where
  empty : Bool
  skip : Bool
  clip : Bool
deriving DecidableEq, Repr

/-- The calls of `save` so far and `wasStored`. -/
structure State where
  saves : List (QuadKey × El)
  wasStored : Bool

/-- ElementStore.cpp:78-98: the tile callback. The clipper kept per tile (84-91) has no state besides the clip rectangle
between calls (`removeSubject`, ElementGeometryClipper.cpp:99,225). -/
noncomputable def storeTile (eng : Engine) (st : StyleInfo) (accept : Bbox ℝ → Bbox ℝ → Bool) (box : Bbox ℝ) (e : El) (s : State)
    (q : QuadKey) : State :=
  if accept box (tileBox q) then
    if st.clip then ⟨s.saves ++ (Clipper.clip eng (tileBox q) e).toList.map fun e' => (q, e'), true⟩
    else ⟨s.saves ++ [(q, e)], true⟩
  else s

/-- ElementStore.cpp:69-99: one level of detail. -/
noncomputable def storeLod (eng : Engine) (style : ℤ → StyleInfo) (accept : Bbox ℝ → Bbox ℝ → Bool) (e : El) (s : State) (lod : ℤ) :
    State :=
  if (style lod).empty || (style lod).skip then s
  else
    let box := expandElement Bbox.empty e
    (visitTileRange box lod).foldl (storeTile eng (style lod) accept box e) s

/-- ElementStore.cpp:60-103, the private `store`. -/
noncomputable def store (eng : Engine) (style : ℤ → StyleInfo) (accept : Bbox ℝ → Bbox ℝ → Bool) (e : El) (range : LodRange) : State :=
  range.lods.foldl (storeLod eng style accept e) ⟨[], false⟩

/-- ElementStore.cpp:32-34 -/
def acceptAll : Bbox ℝ → Bbox ℝ → Bool := fun _ _ => true

/-- ElementStore.cpp:42-45 -/
noncomputable def acceptTile (q : QuadKey) : Bbox ℝ → Bbox ℝ → Bool := fun box tile =>
  box.intersects (tileBox q) && (tileBox q).center.eq tile.center

/-- ElementStore.cpp:55-57 -/
noncomputable def acceptBox (b : Bbox ℝ) : Bbox ℝ → Bbox ℝ → Bool := fun box _ => box.intersects b

/-- ElementStore.cpp:31-35, `LodRange` already constructed by the caller. -/
noncomputable def storeRange (eng : Engine) (style : ℤ → StyleInfo) (e : El) (range : LodRange) : State :=
  store eng style acceptAll e range

/-- ElementStore.cpp:37-46; the constructor of `LodRange` throws for lods out of range. -/
noncomputable def storeInTile (eng : Engine) (style : ℤ → StyleInfo) (e : El) (q : QuadKey) : Outcome State :=
  match LodRange.make q.lod q.lod with
  | .ok range => .ok (store eng style (acceptTile q) e range)
  | .throw s => .throw s
  | .ub s => .ub s

/-- ElementStore.cpp:48-58 -/
noncomputable def storeInBox (eng : Engine) (style : ℤ → StyleInfo) (e : El) (b : Bbox ℝ) (range : LodRange) : State :=
  store eng style (acceptBox b) e range

end Verif.ElementStore
