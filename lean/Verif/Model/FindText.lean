import Verif.Model.ElementStore
import Verif.Model.GeoStore

/-! # Text search over all stores

index/GeoStore.cpp:118-128 with index/BitmapIndex.cpp:39-77 and the filter of index/InMemoryElementStore.cpp:89-96, for stores in memory. Simplifications: as in `Verif.MemStore`,
`Verif.GeoStore`; coordinates are real numbers; the token is not looked at in text searches. -/
namespace Verif.FindText
open Verif.Clipper (El expandElement)
open Verif.BitmapIndex (Strings elementTokens parseTerms)

/-- BitmapIndex.cpp:45-47: the tiles which are visited. -/
noncomputable def tilesOf (b : Bbox ℝ) (r : LodRange) : List QuadKey := r.lods.flatMap fun l => Mercator.visitTileRange b l

/-- ElementGeometryVisitor.hpp:39-44 `intersects`, as the filter of InMemoryElementStore.cpp:92-94. -/
noncomputable def hit (b : Bbox ℝ) (e : El) : Bool := b.intersects (expandElement Bbox.empty e)

/-- GeoStore.cpp:118-128, ElementStore.hpp and BitmapIndex.hpp:24-35: the search for words in a box and in some levels. -/
noncomputable def find {K : Type} [LinearOrder K] (st : Strings) (m : GeoStore.Map K (MemStore.Store El)) (notTerms andTerms orTerms : Bytes) (b : Bbox ℝ) (r : LodRange) :
    GeoStore.Map K (MemStore.Store El) × GeoStore.Out El :=
  GeoStore.step (GeoStore.memIface (elementTokens st)) m (.text (parseTerms st notTerms andTerms orTerms, hit b, tilesOf b r))

end Verif.FindText
