import Verif.Model.FindText
import Verif.Model.Session

/-! # Searches for words and questions for data through the C API

shared/Search.hpp:16-38 and shared/Storage.hpp:115-117 with index/GeoStore.cpp:118-128, 140-146, between the calls of `Verif.Session`. Simplifications: as in `Verif.Session` and
`Verif.FindText`; the words are given as bytes without the closing zero. -/
namespace Verif.SessionText
open Verif.Clipper (El)
open Verif.Api (Result Exported)
open Verif.Session (State World)
open Verif.BitmapIndex (Strings Terms parseTerms)

variable {A L D K S : Type}

/-- What a search for words asks of a store: the words, the filter and the tiles. -/
abbrev Query := Terms × (El → Bool) × List QuadKey

/-- Search.hpp:100-104, 125-191: what the callback for elements gets from a visitor without stylesheet and heights. -/
def exports (w : World A L D S Query) (es : List El) : Outcome (List (Exported ℝ)) :=
  Api.visitAll (0, 0) (fun i => .ok (String.ofList (w.strings.getString i))) (fun _ => .ok []) (fun _ => 0) ⟨[], ⟨[], 0, 0⟩, ⟨[], 0, 0⟩⟩ (es.map (DiskImport.mapCoords Session.pair))

/-- Search.hpp:16-38: what the callback for elements gets, and the result. `words`: the string table for the bytes of words. After an exception what was told before is left out. -/
noncomputable def getDataByText [LinearOrder K] (words : Strings) (w : World A L D S Query) (st : State K S) (notTerms andTerms orTerms : Bytes) (minLat minLon maxLat maxLon : ℝ)
    (startLod endLod : Int) : State K S × List (Exported ℝ) × Result :=
  match LodRange.make startLod endLod with
  | .throw e => (st, [], .escaped e)
  | .ub u => (st, [], .ub u)
  | .ok range =>
    let b : Bbox ℝ := ⟨⟨minLat, minLon⟩, ⟨maxLat, maxLon⟩⟩
    match GeoStore.step w.iface st.stores (.text (parseTerms words notTerms andTerms orTerms, FindText.hit b, FindText.tilesOf b range)) with
    | (stores, .elements es) =>
      match exports w es with
      | .ok l => (⟨st.sheets, stores⟩, l, .returned [])
      | .throw e => (⟨st.sheets, stores⟩, [], .returned [e])
      | .ub u => (⟨st.sheets, stores⟩, [], .ub u)
    | (stores, o) => (⟨st.sheets, stores⟩, [], Session.result o)

/-- Storage.hpp:115-117 -/
def hasData [LinearOrder K] (w : World A L D S Query) (st : State K S) (q : QuadKey) : State K S × GeoStore.Out El :=
  let r := GeoStore.step w.iface st.stores (.hasData q)
  (⟨st.sheets, r.1⟩, r.2)

end Verif.SessionText
