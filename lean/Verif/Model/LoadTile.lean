import Verif.Model.Import
import Verif.Model.MapCss
import Verif.Model.Style
import Verif.Model.QuadKeyBuilder

/-! # From a stylesheet and stored elements to the calls of builders

Models shared/Application.hpp:43-61 (a style provider is made from the text of a stylesheet), what index/ElementStore.cpp asks the style provider, and what
builders/QuadKeyBuilder.cpp does with the elements which the stores find.

Simplifications: the stylesheet is its text, other files of its directory are a parameter (`MapCss.Tools`). Builders do not throw. The string table is a pair of
functions: ids do not change (C02). -/
namespace Verif.LoadTile
open Verif.Clipper (El)

variable {D : Type}

/-- StyleSheet.hpp:121-124: the rule as the parser makes it, for the provider. -/
def toRule (r : MapCss.Rule) : Style.Rule :=
  ⟨r.selectors.map fun s => ⟨s.names, ⟨s.zoom.first, s.zoom.last⟩, s.conditions.map fun c => ⟨c.key, c.operation, c.value⟩⟩,
    r.declarations.map fun d => ⟨d.key, d.value⟩⟩

/-- Application.hpp:54-58, StyleProvider.cpp:239-269: the filters of the stylesheet with this text. -/
def openSheet {A L : Type} (T : MapCss.Tools A L) (senv : Style.Env D) (depth : Nat) (text : List Char) : Outcome Style.FilterCollection :=
  (MapCss.parse T depth text).bind fun s => Style.build senv (s.rules.map toRule)

/-- Style.hpp:45-48 -/
def has (senv : Style.Env D) (st : Style.Style) (key value : List Char) : Bool := decide (st.declarations.find (senv.getId key) = some value)

/-- Style.hpp:50-52 -/
def empty (st : Style.Style) : Bool := st.declarations.isEmpty

/-- What is asked about an element at a level of detail: ElementStore.cpp:69-71, 83; StyleConsts.cpp:5-13. -/
def storing (senv : Style.Env D) (fc : Style.FilterCollection) (e : El) (lod : ℤ) : ElementStore.StyleInfo :=
  let st := Style.forElement senv fc e lod.toNat
  ⟨empty st, has senv st "skip".toList "true".toList, has senv st "clip".toList "true".toList⟩

/-- What is asked when a tile is built: QuadKeyBuilder.cpp:55-71; `sorted` is the order of `std::set` (Style.hpp:82-91). -/
def building (senv : Style.Env D) (fc : Style.FilterCollection) (sorted : List (List Char) → List (List Char)) (lod : ℤ) (e : El) : QuadKeyBuilder.StyleInfo :=
  let st := Style.forElement senv fc e lod.toNat
  ⟨empty st, sorted st.builders⟩

/-- The import with this stylesheet; the string table is the one of the stylesheet (Application.hpp:57-58, Storage.hpp). -/
def withSheet (env : Import.Env) (senv : Style.Env D) (fc : Style.FilterCollection) : Import.Env :=
  { env with style := storing senv fc, getId := fun s => senv.getId s.toList }

/-- QuadKeyBuilder.cpp:108-120, GeoStore.cpp:129-139: elements are searched in all stores and handed to builders; `order` is the one of the hash map of builders. -/
noncomputable def loadTile {K S Q : Type} [LinearOrder K] (I : GeoStore.Iface S El Q) (senv : Style.Env D) (fc : Style.FilterCollection)
    (sorted order : List (List Char) → List (List Char)) (m : GeoStore.Map K S) (q : QuadKey) : Outcome (List (QuadKeyBuilder.Event (Geo ℝ))) :=
  match (GeoStore.step I m (.tile q)).2 with
  | .elements found => .ok (QuadKeyBuilder.build (building senv fc sorted q.lod) order found)
  | .failed (.throw e) => .throw e
  | .failed (.ub w) => .ub w
  | .failed (.ok _) | .done | .flag _ => .ub "not a result of a search"

end Verif.LoadTile
