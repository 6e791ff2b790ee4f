import Verif.Model.Api
import Verif.Model.DirectImport
import Verif.Model.LoadTile

/-! # Calls of the C API one after the other

Models shared/ExportLib.cpp:31-93 with Application.hpp:43-61, Configuration.hpp:27-37, Storage.hpp:11-113, Search.hpp:41-73 and builders/ExternalBuilder.hpp: what stays between calls are
the style providers by path and the stores by key.

Simplifications: of the imports of files only those of OSM XML for ranges, boxes and tiles are calls here (`Verif.Import`). Builders of the library deliver meshes (C74-C90), which are left
out, and do not throw. Stores are in memory. The string table is a pair of functions (C02). Numbers are exact. The token is not cancelled. -/
namespace Verif.Session
open Verif.Clipper (El)
open Verif.Api (Result Exported)

variable {A L D K S Q : Type}

/-- Application.hpp:78 `styleProviders_`, a provider being its filters, and GeoStore.cpp:151 `storeMap_`. -/
structure State (K S : Type) where
  sheets : Assoc (List Char) Style.FilterCollection
  stores : GeoStore.Map K S

/-- What a call finds: the files (a file which cannot be read is `none`), and the files and parsers for the directory of a stylesheet; the depth of the stack of the parser; the string
table; the libraries; the stores; the orders of `std::set` of builders, of the hash map of builders and of the hash map of declarations (Style.hpp:72-80); and heights. -/
structure World (A L D S Q : Type) where
  files : List Char → Option (List Char)
  tools : List Char → MapCss.Tools A L
  depth : Nat
  strings : Style.Env D
  env : Import.Env
  iface : GeoStore.Iface S El Q
  memory : S
  sorted : List (List Char) → List (List Char)
  order : List (List Char) → List (List Char)
  pairs : List (UInt32 × List Char) → List (UInt32 × List Char)
  elevation : QuadKey → Geo ℝ → ℝ

/-- Application.hpp:53: everything up to the last `/` or `\`. -/
def directory (path : List Char) : List Char := (path.reverse.dropWhile fun c => !(c == '\\' || c == '/')).reverse

/-- Application.hpp:43-61. An exception leaves nothing behind. -/
def getStyleProvider (w : World A L D S Q) (sheets : Assoc (List Char) Style.FilterCollection) (path : List Char) :
    Assoc (List Char) Style.FilterCollection × Outcome Style.FilterCollection :=
  match sheets.find path with
  | some fc => (sheets, .ok fc)
  | none =>
    match w.files path with
    | none => (sheets, .throw "invalid_argument")
    | some text =>
      match LoadTile.openSheet (w.tools (directory path)) w.strings w.depth text with
      | .ok fc => (sheets.set path fc, .ok fc)
      | .throw e => (sheets, .throw e)
      | .ub u => (sheets, .ub u)

/-- Common.hpp:62-69 for what a store answers -/
def result (o : GeoStore.Out El) : Result :=
  match o with
  | .done | .elements _ | .flag _ => .returned []
  | .failed o => Api.safeExecute o

open Classical in
/-- GeoCoordinate.hpp:26-29 -/
noncomputable def same (eps : ℝ) (a b : ℝ × ℝ) : Bool := decide (|a.1 - b.1| < eps ∧ |a.2 - b.2| < eps)

/-- Storage.hpp:133-135 -/
def getId (w : World A L D S Q) (s : String) : UInt32 := w.strings.getId s.toList

/-- GeoStore.cpp:29-36, ElementStore.cpp:31-35: where an element is saved -/
noncomputable def elementSaves (w : World A L D S Q) (fc : Style.FilterCollection) (e : El) (range : LodRange) : List (QuadKey × El) :=
  (ElementStore.storeRange w.env.eng (LoadTile.storing w.strings fc e) e range).saves

/-- Storage.hpp:122-130: the provider is evaluated before `add` is called. -/
noncomputable def storeElement [LinearOrder K] (w : World A L D S Q) (st : State K S) (key : K) (style : List Char) (e : El) (range : LodRange) : State K S × Result :=
  match getStyleProvider w st.sheets style with
  | (sheets, .ok fc) =>
    let r := GeoStore.step w.iface st.stores (.add key (elementSaves w fc e range))
    (⟨sheets, r.1⟩, result r.2)
  | (sheets, .throw e) => (⟨sheets, st.stores⟩, .returned [e])
  | (sheets, .ub u) => (⟨sheets, st.stores⟩, .ub u)

/-- Storage.hpp:59-113: arrays are read outside of `safeExecute`. -/
noncomputable def addElement [LinearOrder K] (w : World A L D S Q) (st : State K S) (key : K) (style : List Char) (id : UInt64) (vertices : List ℝ) (tags : List String)
    (startLod endLod : Int) : State K S × Result :=
  match LodRange.make startLod endLod with
  | .throw e => (st, .escaped e)
  | .ub u => (st, .ub u)
  | .ok range =>
    match (Api.tagLoop (getId w) tags).bind fun ts => Api.elementOf (same w.env.eps) id vertices ts with
    | .throw e => (st, .escaped e)
    | .ub u => (st, .ub u)
    | .ok e => storeElement w st key style (DirectImport.toEl e) range

/-- Storage.hpp:11-56, GeoStore.cpp:38-79 for an XML file, which must be readable; the path is not resolved further. -/
noncomputable def addXml [LinearOrder K] (w : World A L D S Q) (st : State K S) (key : K) (style path : List Char) (target : Import.Target) : State K S × Result :=
  match getStyleProvider w st.sheets style with
  | (sheets, .ok fc) =>
    let r := Import.importXml w.iface (LoadTile.withSheet w.env w.strings fc) st.stores key target ((w.files path).getD [])
    (⟨sheets, r.1⟩, result r.2)
  | (sheets, .throw e) => (⟨sheets, st.stores⟩, .returned [e])
  | (sheets, .ub u) => (⟨sheets, st.stores⟩, .ub u)

/-- Configuration.hpp:64-70 -/
def registered : List (List Char) := ["terrain".toList, "building".toList, "tree".toList, "barrier".toList, "lamp".toList]

/-- QuadKeyBuilder.cpp:78-81, ExternalBuilder.hpp:21-35: the elements which go to the callback, with the name of the builder -/
def outside (t : List (QuadKeyBuilder.Event (Geo ℝ))) : List (List Char × El) :=
  t.filterMap fun | .visit b e => if b ∈ registered then none else some (b, e) | _ => none

/-- Style.hpp:72-80, Search.hpp:168-177: the strings of the declarations -/
def declarations (w : World A L D S Q) (fc : Style.FilterCollection) (lod : Int) (e : El) : List (String × String) :=
  (w.pairs (Style.forElement w.strings fc e lod.toNat).declarations).map fun d => (String.ofList (w.strings.getString d.1), String.ofList d.2)

/-- A coordinate for the exporter of `Verif.Api`. -/
def pair (c : Geo ℝ) : ℝ × ℝ := (c.lat, c.lon)

/-- Search.hpp:50-71: what the callback for elements gets from the one visitor which all external builders share. -/
def exports (w : World A L D S Q) (fc : Style.FilterCollection) (q : QuadKey) (es : List El) : Outcome (List (Exported ℝ)) :=
  Api.visitAll (0, 0) (fun i => .ok (String.ofList (w.strings.getString i))) (fun e => .ok (declarations w fc q.lod (DirectImport.toEl e)))
    (fun c => w.elevation q (DirectImport.geo c)) ⟨[], ⟨[], 0, 0⟩, ⟨[], 0, 0⟩⟩ (es.map (DiskImport.mapCoords pair))

/-- Search.hpp:41-73: what the callback for elements gets, and the result. After an exception what was told before is left out. -/
noncomputable def getData [LinearOrder K] (w : World A L D S Q) (st : State K S) (style : List Char) (q : QuadKey) : State K S × List (Exported ℝ) × Result :=
  match getStyleProvider w st.sheets style with
  | (sheets, .throw e) => (⟨sheets, st.stores⟩, [], .returned [e])
  | (sheets, .ub u) => (⟨sheets, st.stores⟩, [], .ub u)
  | (sheets, .ok fc) =>
    let st' : State K S := ⟨sheets, (GeoStore.step w.iface st.stores (.tile q)).1⟩
    match (LoadTile.loadTile w.iface w.strings fc w.sorted w.order st.stores q).bind fun t => exports w fc q ((outside t).map (·.2)) with
    | .ok l => (st', l, .returned [])
    | .throw e => (st', [], .returned [e])
    | .ub u => (st', [], .ub u)

/-- ExportLib.cpp:31-93, as far as it is modelled. -/
inductive Call (K : Type) where
  | registerStylesheet (path : List Char)
  | registerInMemoryStore (key : K)
  | addElement (key : K) (style : List Char) (id : UInt64) (vertices : List ℝ) (tags : List String) (startLod endLod : Int)
  | addXml (key : K) (style path : List Char) (target : Import.Target)
  | getData (style : List Char) (q : QuadKey)

/-- One call; `registerStylesheet` (Configuration.hpp:27-31) is not protected by `safeExecute`. -/
noncomputable def step [LinearOrder K] (w : World A L D S Q) (st : State K S) : Call K → State K S × List (Exported ℝ) × Result
  | .registerStylesheet path =>
    match getStyleProvider w st.sheets path with
    | (sheets, .ok _) => (⟨sheets, st.stores⟩, [], .returned [])
    | (sheets, .throw e) => (⟨sheets, st.stores⟩, [], .escaped e)
    | (sheets, .ub u) => (⟨sheets, st.stores⟩, [], .ub u)
  | .registerInMemoryStore key => (⟨st.sheets, (GeoStore.step w.iface st.stores (.register key w.memory)).1⟩, [], .returned [])
  | .addElement key style id vertices tags s e => let r := addElement w st key style id vertices tags s e; (r.1, [], r.2)
  | .addXml key style path target => let r := addXml w st key style path target; (r.1, [], r.2)
  | .getData style q => getData w st style q

/-- The state after some calls; files change in between. -/
noncomputable def run [LinearOrder K] (st : State K S) : List (World A L D S Q × Call K) → State K S
  | [] => st
  | (w, c) :: rest => run (step w st c).1 rest

end Verif.Session
