import Verif.Model.Session
import Verif.Props.LoadTileSpec
import Verif.Props.ApiSpec

/-! # Specification of calls of the C API one after the other (C106, C107) -/
namespace Verif.SessionSpec
open Verif.Clipper (El)
open Verif.Style (Rule Str)
open Verif.StyleSpec Verif.LoadTileSpec
open Verif.Session (World State)
open Verif.Api (Exported)

variable {A L D K S Q : Type}

/-- A path consists of its directory, which is empty or ends with a separator, and a name without separators. -/
def InDirectory (path dir : List Char) : Prop :=
  ∃ name, path = dir ++ name ∧ '/' ∉ name ∧ '\\' ∉ name ∧ (dir = [] ∨ dir.getLast? = some '/' ∨ dir.getLast? = some '\\')

/-- The file is there, is a stylesheet with these rules, and the rules are accepted. -/
def Written (w : World A L D S Q) (path : List Char) (rules : List Rule) : Prop :=
  ∃ dir text g, ∃ entries : List (MapCssSpec.Entry A L), InDirectory path dir ∧ w.files path = some text ∧ MapCssSpec.Reads (w.tools dir) text g entries ∧ MapCssSpec.Gap g ∧
    rules = rulesOf entries ∧ (Style.build w.strings rules).isOk = true

/-- The file is there and is a stylesheet, but its rules are refused. -/
def Refused (w : World A L D S Q) (path : List Char) (e : String) : Prop :=
  ∃ dir text g, ∃ entries : List (MapCssSpec.Entry A L), InDirectory path dir ∧ w.files path = some text ∧ MapCssSpec.Reads (w.tools dir) text g entries ∧ MapCssSpec.Gap g ∧
    Style.build w.strings (rulesOf entries) = .throw e

/-- The rules which are in force for a path: those of the stylesheet which was read for it, or those which are in the file now. -/
def InForce (w : World A L D S Q) (st : State K S) (path : List Char) (rules : List Rule) : Prop :=
  (∃ fc, st.sheets.find path = some fc ∧ Style.build w.strings rules = .ok fc) ∨ (st.sheets.find path = none ∧ Written w path rules)

/-- The builders of the library, by the names which stylesheets use. -/
def inbuilt : List Str := ["terrain".toList, "building".toList, "tree".toList, "barrier".toList, "lamp".toList]

open Classical in
/-- The other builders which the rules name for an element. -/
noncomputable def otherBuilders (senv : Style.Env D) (rules : List Rule) (lod : ℤ) (e : El) : List Str :=
  (((decls senv rules lod e).filter fun d => d.key = "builder".toList).map (·.value)).dedup.filter fun b => b ∉ inbuilt

/-- What the caller is to be told of these elements: every part once for each builder which is not one of the library. -/
noncomputable def toTell (senv : Style.Env D) (rules : List Rule) (lod : ℤ) (found : List El) : List El :=
  (found.flatMap QuadKeyBuilderSpec.parts).flatMap fun e => (otherBuilders senv rules lod e).map fun _ => e

/-- The places which are told: those of the element, but the place (0, 0) for a relation. -/
def places : El → List (Geo ℝ)
  | .node _ _ c => [c]
  | .way _ _ cs | .area _ _ cs => cs
  | .relation _ _ _ => [⟨0, 0⟩]

/-- What the callback is told of an element: id, the texts of tags, longitude, latitude and height of its places, and each declared key with its last value. -/
structure Tells (w : World A L D S Q) (rules : List Rule) (q : QuadKey) (e : El) (r : Exported ℝ) : Prop where
  id : r.id = e.id
  tags : r.tags = e.tags.flatMap fun t => [String.ofList (w.strings.getString t.key), String.ofList (w.strings.getString t.value)]
  vertices : r.vertices = (places e).flatMap fun c => [c.lon, c.lat, w.elevation q c]
  style : ∃ ps : List (Str × Str), r.style = ps.flatMap (fun p => [String.ofList p.1, String.ofList p.2]) ∧ (ps.map (·.1)).Nodup ∧
    ∀ k v, (k, v) ∈ ps ↔ lastValue (decls w.strings rules q.lod e) k = some v

/-- The orders of hash maps and sets. -/
structure Orders (w : World A L D S Q) : Prop where
  sorted : ∀ l, (w.sorted l).Perm l
  order : ∀ l, (w.order l).Perm l
  pairs : ∀ l, (w.pairs l).Perm l

open Classical in
/-- The element which a caller describes: one place is a node, a line which ends where it begins is an area, any other line is a way. -/
noncomputable def described (eps : ℝ) (id : UInt64) (tags : List Tag) (places : List (Geo ℝ)) : El :=
  match places with
  | [c] => .node id tags c
  | c :: cs => if ∃ z, cs.getLast? = some z ∧ |c.lat - z.lat| < eps ∧ |c.lon - z.lon| < eps then .area id tags (c :: cs) else .way id tags (c :: cs)
  | [] => .way id tags []

/-- Numbers of the tags, in the order in which they were given. -/
def numbered (senv : Style.Env D) (tags : List (String × String)) : List Tag := tags.map fun t => ⟨senv.getId t.1.toList, senv.getId t.2.toList⟩

open Verif.Session (Call)
open Verif.ApiSpec (Supported)

/-- The call names the stylesheet. -/
def Names (path : List Char) : Call K → Prop
  | .registerStylesheet p => p = path
  | .registerInMemoryStore _ => False
  | .addElement _ style _ _ _ _ _ => style = path
  | .addXml _ style _ _ => style = path
  | .getData style _ => style = path

/-- The arguments are those which callers are to give: levels which are supported, at least one place, pairs of coordinates and pairs of texts. -/
def Orderly : Call K → Prop
  | .addElement _ _ _ vertices tags s e => Supported s ∧ Supported e ∧
    (∃ cs : List (Geo ℝ), cs ≠ [] ∧ vertices = cs.flatMap fun c => [c.lat, c.lon]) ∧ ∃ ts : List (String × String), tags = ts.flatMap fun t => [t.1, t.2]
  | _ => True

/-- How a call tells that it failed: through the callback for errors, but an exception leaves the call which registers a stylesheet. -/
def failed (e : String) : Call K → Api.Result
  | .registerStylesheet _ => .escaped e
  | _ => .returned [e]

/-- No data is read from this file. -/
def NoData (path : List Char) : Call K → Prop
  | .addXml _ _ p _ => p ≠ path
  | _ => True

end Verif.SessionSpec
