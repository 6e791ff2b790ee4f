import Verif.Props.ShapeImportSpec
import Verif.Props.Shape
import Verif.Props.JsonImport

/-! # C105: imported shape files -/
namespace Verif.Props
open Verif.ShapeImportSpec Verif.DirectImport
open Verif.Clipper (El)
open Verif.Import (Env Target collect)
open Verif.ImportSpec (Used Sensible seen)
open Verif.GeoStoreSpec (Stores update)
open Verif.GeoStore (memIface)
open Verif.BboxSpec Verif.ElementStoreSpec
open Verif.Props.ImportProof
open Verif.Props.GeoStoreProof (Abs)

namespace ShapeImportProof

theorem each_append {α E : Type} (f : α → Outcome (List E)) {xs : List α} {es : List (List E)} (h : List.Forall₂ (fun x e => f x = .ok e) xs es) (ys : List α) :
    DirectImport.each f (xs ++ ys) = (es.flatten ++ (DirectImport.each f ys).1, (DirectImport.each f ys).2) := by
  induction h with
  | nil => simp
  | cons h1 _ ih => simp [DirectImport.each, after, h1, Told.andThen, ih]

theorem tags_row {fields : List (String × FieldType)} : ∀ {row : List Cell} {values : List (Option String)}, IsRow fields row values →
    parseTags fields row = (fields.zip values).filterMap fun x => x.2.map fun v => ⟨x.1.1, v⟩ := by
  induction fields with
  | nil =>
    intro row values h
    cases row <;> simp [parseTags]
  | cons f fields ih =>
    rintro row values ⟨h1, h2⟩
    cases row with
    | nil => simp at h2
    | cons c row =>
      simp only [List.zip_cons_cons] at h1
      cases h1 with
      | @cons _ v _ values hv h1 =>
        have := ih (row := row) ⟨h1, by simpa using h2⟩
        obtain ⟨name, type⟩ := f
        simp only at hv
        unfold parseTags
        cases hv with
        | empty _ _ h => simp [h, this]
        | string _ h => simp [h, this, cellText]
        | integer _ h => simp [h, this, cellText]
        | double _ h => simp [h, this, cellText]

theorem tagged {env : Env} (hsort : OsmSpec.Sorts env.sort) {fields : List (String × FieldType)} {row : List Cell} {values : List (Option String)} (h : IsRow fields row values) :
    Tagged env.getId fields values (Osm.convertTags env.getId env.sort (parseTags fields row)) := by
  rw [tags_row h]
  unfold Osm.convertTags
  refine ⟨(hsort _).1.trans (.of_eq ?_), (hsort _).2⟩
  rw [List.map_filterMap]
  congr 1
  funext x
  cases x.2 <;> rfl

theorem coincide {eps : ℝ} {a b : Geo ℝ} : Osm.geoEq eps a b = true ↔ OsmSpec.Coincide eps a b := by
  simp [Osm.geoEq, OsmSpec.Coincide]

theorem record_ok {env : Env} (hsort : OsmSpec.Sorts env.sort) (beyond : Nat) {fields : List (String × FieldType)} {x : Option Record × List Cell}
    {y : Option (Figure × List (Option String))} (h : IsEntry fields x y) :
    ∃ es, visitRecord env (some beyond) fields x = .ok es ∧ match y with
      | some f => ∃ e tags, es = [e] ∧ Tagged env.getId fields f.2 tags ∧ Shows env.eps tags f.1 e
      | none => es = [] := by
  obtain ⟨o, row⟩ := x
  cases y with
  | none =>
    obtain ⟨⟨n, ob⟩, h1, h2⟩ := h
    simp only at h1
    subst h1
    refine ⟨[], ?_, rfl⟩
    simp only [visitRecord, visitShape]
    rcases h2 with h2 | ⟨h2, h3⟩
    · have : kindOf n = .other := by
        simp only [List.mem_cons, List.not_mem_nil, or_false] at h2
        rcases h2 with rfl | rfl | rfl <;> rfl
      simp only [this]
    · have : kindOf n = .arc := by
        simp only [List.mem_cons, List.not_mem_nil, or_false] at h2
        rcases h2 with rfl | rfl | rfl <;> rfl
      simp only [this]
      unfold Shape.visitArc
      rw [if_pos (by simp only at h3; omega)]
  | some f =>
    obtain ⟨⟨n, ob⟩, h1, h2, h3⟩ := h
    simp only at h1 h3
    subst h1
    have ht := tagged (env := env) hsort h3
    obtain ⟨f, values⟩ := f
    simp only [visitRecord, visitShape]
    generalize Osm.convertTags env.getId env.sort (parseTags fields row) = tags at ht
    cases f with
    | point c =>
      obtain ⟨h4, h5⟩ := h2
      have : kindOf n = .point := by
        simp only [List.mem_cons, List.not_mem_nil, or_false] at h4
        rcases h4 with rfl | rfl | rfl <;> rfl
      simp only at h5
      refine ⟨[.node 0 tags c], by simp only [this, Shape.visitPoint, h5, List.head?_cons], _, tags, rfl, ht, rfl⟩
    | line cs =>
      obtain ⟨h4, h5, h6, h7⟩ := h2
      have : kindOf n = .arc := by
        simp only [List.mem_cons, List.not_mem_nil, or_false] at h4
        rcases h4 with rfl | rfl | rfl <;> rfl
      obtain ⟨v, ps, ir⟩ := ob
      simp only at h5 h7
      subst h5 h7
      obtain ⟨a, ha⟩ : ∃ a, v.head? = some a := by cases v with | nil => exact absurd rfl h6 | cons a l => exact ⟨a, rfl⟩
      have hz := List.getLast?_eq_getLast_of_ne_nil h6
      refine ⟨_, by simp only [this]; exact C66_line_partial _ v a _ ha hz ir tags, _, tags, rfl, ht, a, _, ha, hz, ?_⟩
      by_cases hc : OsmSpec.Coincide env.eps a (v.getLast h6)
      · exact .inl ⟨hc, by rw [if_pos (coincide.2 hc)]⟩
      · exact .inr ⟨hc, by rw [if_neg (fun h => hc (coincide.1 h))]⟩
    | polygon parts =>
      obtain ⟨h4, h5, h6, h7, h8⟩ := h2
      have : kindOf n = .polygon := by
        simp only [List.mem_cons, List.not_mem_nil, or_false] at h4
        rcases h4 with rfl | rfl | rfl <;> rfl
      obtain ⟨v, ps, ir⟩ := ob
      simp only at h5 h7 h8
      subst h5 h7 h8
      obtain ⟨members, g1, g2, g3⟩ := C50_relation parts h6 beyond tags
      refine ⟨_, by simp only [this]; exact g1, _, tags, rfl, ht, members, rfl, ?_⟩
      rw [List.forall₂_iff_get]
      refine ⟨g2.symm, fun k hk hk' => ?_⟩
      obtain ⟨g4, g5⟩ := g3 k (parts.get ⟨k, hk⟩) (by simp)
      have hne := h6 (parts.get ⟨k, hk⟩) (List.get_mem _ _)
      have hmem : members[k]? = some (members.get ⟨k, hk'⟩) := by simp
      rw [hmem] at g4 g5
      rcases hp : parts.get ⟨k, hk⟩ with _ | ⟨c, _ | ⟨d, l⟩⟩
      · exact absurd hp hne
      · exact .inl ⟨c, rfl, Option.some.inj (g4 c hp)⟩
      · exact .inr ⟨by simp, by rw [← hp]; exact Option.some.inj (g5 (by rw [hp]; simp))⟩

theorem shown_points {eps : ℝ} {tags : List Tag} {f : Figure} {e : El} (h : Shows eps tags f e) : ∀ p ∈ ClipperSpec.points e, p ∈ places f := by
  intro p hp
  cases f with
  | point c => cases h; simpa [ClipperSpec.points, ClipperSpec.leaves, ClipperSpec.coords, places] using hp
  | line cs =>
    obtain ⟨a, z, -, -, ⟨-, rfl⟩ | ⟨-, rfl⟩⟩ := h <;> simpa [ClipperSpec.points, ClipperSpec.leaves, ClipperSpec.coords, places] using hp
  | polygon parts =>
    obtain ⟨members, rfl, hm⟩ := h
    simp only [ClipperSpec.points, ClipperSpec.leaves, List.mem_flatMap] at hp
    obtain ⟨x, hx, hp⟩ := hp
    simp only [places, List.mem_flatten]
    induction hm with
    | nil => simp [ClipperSpec.leavesAll] at hx
    | @cons part y parts ys h1 _ ih =>
      simp only [ClipperSpec.leavesAll, List.mem_append] at hx
      rcases hx with hx | hx
      · refine ⟨part, by simp, ?_⟩
        rcases h1 with ⟨c, rfl, rfl⟩ | ⟨-, rfl⟩ <;> simp only [ClipperSpec.leaves, List.mem_singleton] at hx <;> subst hx <;> simpa [ClipperSpec.coords] using hp
      · obtain ⟨q, h2, h3⟩ := ih hx
        exact ⟨q, by simp [h2], h3⟩

/-- What is told for the entries at the beginning. -/
theorem entries_told {env : Env} (hsort : OsmSpec.Sorts env.sort) (beyond : Nat) {fields : List (String × FieldType)} {first : List (Option Record × List Cell)}
    {entries : List (Option (Figure × List (Option String)))} (h : List.Forall₂ (IsEntry fields) first entries) (rest : List (Option Record × List Cell)) :
    ∃ els, DirectImport.each (visitRecord env (some beyond) fields) (first ++ rest) =
        (els ++ (DirectImport.each (visitRecord env (some beyond) fields) rest).1, (DirectImport.each (visitRecord env (some beyond) fields) rest).2) ∧
      List.Forall₂ (fun (f : Figure × List (Option String)) e => ∃ tags, Tagged env.getId fields f.2 tags ∧ Shows env.eps tags f.1 e) (entries.filterMap id) els := by
  induction h with
  | nil => exact ⟨[], by simp, .nil⟩
  | @cons x y first entries h1 _ ih =>
    obtain ⟨els, h2, h3⟩ := ih
    obtain ⟨es, h4, h5⟩ := record_ok (env := env) hsort beyond h1
    refine ⟨es ++ els, ?_, ?_⟩
    · rw [List.cons_append, DirectImport.each, h4]
      simp only [after, Told.andThen, h2, List.append_assoc]
    · cases y with
      | none => simp only at h5; subst h5; simpa using h3
      | some f =>
        obtain ⟨e, tags, rfl, h6, h7⟩ := h5
        simpa using List.Forall₂.cons ⟨tags, h6, h7⟩ h3

theorem points_globe {getId : String → UInt32} {eps : ℝ} {fields : List (String × FieldType)} {entries : List (Option (Figure × List (Option String)))} (hg : OnEarth entries) {els : List El}
    (h : List.Forall₂ (fun (f : Figure × List (Option String)) e => ∃ tags, Tagged getId fields f.2 tags ∧ Shows eps tags f.1 e) (entries.filterMap id) els) :
    ∀ e ∈ els, ∀ p ∈ ClipperSpec.points e, OnGlobe p := by
  intro e he p hp
  obtain ⟨f, h1, tags, -, h2⟩ := JsonImportProof.forall₂_right h e he
  exact hg f (by simpa using h1) p (shown_points h2 p hp)

theorem told_begins {env : Env} (hsort : OsmSpec.Sorts env.sort) (beyond : Nat) {files : Files} {fields : List (String × FieldType)}
    {entries : List (Option (Figure × List (Option String)))} {rest : List (Option Record × List Cell)} (h : Begins files fields entries rest) :
    ∃ els, shapeTold env (some beyond) files =
        (els ++ (DirectImport.each (visitRecord env (some beyond) fields) rest).1, (DirectImport.each (visitRecord env (some beyond) fields) rest).2) ∧
      List.Forall₂ (fun (f : Figure × List (Option String)) e => ∃ tags, Tagged env.getId fields f.2 tags ∧ Shows env.eps tags f.1 e) (entries.filterMap id) els := by
  obtain ⟨hne, records, rows, first, h1, h2, h3, h4, h5⟩ := h
  obtain ⟨els, g1, g2⟩ := entries_told (env := env) hsort beyond h5 rest
  refine ⟨els, ?_, g2⟩
  unfold shapeTold
  simp only [h1, h2]
  rw [if_neg hne, if_neg (by simpa using h3), h4, g1]

end ShapeImportProof

open ShapeImportProof DirectProof

variable {K : Type} [LinearOrder K]

/-- C105: a shape file with its table is imported, and afterwards every tile shows, besides what it has shown before, exactly the points, lines and polygons which belong there: each of
them once, with the values of its row as tags, a line as way or, if it is closed, as area, a polygon as relation of its parts, clipped if the stylesheet wants that. The stores under other
keys are as before, and all stores can be used and imported into again. Partial: records of other figures are left out without a failure (`entries` may contain them as `none`); the number which
is read behind the part table (`C50_violated_read`) has to be there; fields have one of three types; the stores are in memory. -/
theorem C105_import_partial (env : Env) (hsort : OsmSpec.Sorts env.sort) (beyond : Nat) (tokens : El → List UInt32)
    {m : GeoStore.Map K (MemStore.Store El)} {A : Stores K (MemStore.Store El)} (hm : Abs m A) (hu : Used tokens A) {k : K} {s : MemStore.Store El} (hk : A k = some s)
    {target : Target} (ht : Sensible target) {files : Files} {fields : List (String × FieldType)} {entries : List (Option (Figure × List (Option String)))}
    (hf : Begins files fields entries []) (hg : OnEarth entries) :
    ∃ m' s' els, importShape (memIface tokens) env (some beyond) m k target files = (m', .done) ∧ Abs m' (update A k s') ∧ Used tokens (update A k s') ∧
      List.Forall₂ (fun f e => ∃ tags, Tagged env.getId fields f.2 tags ∧ Shows env.eps tags f.1 e) (entries.filterMap id) els ∧
      ∀ q, ∃ old new, (GeoStore.step (memIface tokens) m (.tile q)).2 = .elements old ∧ (GeoStore.step (memIface tokens) m' (.tile q)).2 = .elements new ∧
        new.Perm (old ++ els.filterMap (seen env.eng env.style target q)) := by
  obtain ⟨els, h1, h2⟩ := told_begins (env := env) hsort beyond hf
  simp only [DirectImport.each, List.append_nil] at h1
  obtain ⟨m', s', a1, a2, a3, a4⟩ := told_mem env tokens hm hu hk ht (els, .ok ()) (points_globe hg h2)
  exact ⟨m', s', els, by rw [importShape, h1]; exact a1, a2, a3, h2, a4⟩

/-- C105 is false for files which are refused: if a record cannot be read then the import fails with an exception, but all records before it are stored: afterwards every tile shows them,
too. -/
theorem C105_violated_refused (env : Env) (hsort : OsmSpec.Sorts env.sort) (beyond : Nat) (tokens : El → List UInt32)
    {m : GeoStore.Map K (MemStore.Store El)} {A : Stores K (MemStore.Store El)} (hm : Abs m A) (hu : Used tokens A) {k : K} {s : MemStore.Store El} (hk : A k = some s)
    {target : Target} (ht : Sensible target) {files : Files} {fields : List (String × FieldType)} {entries : List (Option (Figure × List (Option String)))}
    {row : List Cell} {rest : List (Option Record × List Cell)} (hf : Begins files fields entries ((none, row) :: rest)) (hg : OnEarth entries) :
    ∃ m' s' els e, importShape (memIface tokens) env (some beyond) m k target files = (m', .failed (.throw e)) ∧ Abs m' (update A k s') ∧ Used tokens (update A k s') ∧
      List.Forall₂ (fun f e => ∃ tags, Tagged env.getId fields f.2 tags ∧ Shows env.eps tags f.1 e) (entries.filterMap id) els ∧
      ∀ q, ∃ old new, (GeoStore.step (memIface tokens) m (.tile q)).2 = .elements old ∧ (GeoStore.step (memIface tokens) m' (.tile q)).2 = .elements new ∧
        new.Perm (old ++ els.filterMap (seen env.eng env.style target q)) := by
  obtain ⟨els, h1, h2⟩ := told_begins (env := env) hsort beyond hf
  simp only [DirectImport.each, visitRecord, after, List.append_nil] at h1
  obtain ⟨m', s', a1, a2, a3, a4⟩ := told_mem env tokens hm hu hk ht (els, .throw "domain_error") (points_globe hg h2)
  exact ⟨m', s', els, _, by rw [importShape, h1]; exact a1, a2, a3, h2, a4⟩

/-- C105: files which do not belong together are refused before anything is stored: if one of them cannot be opened, if the table has no fields, or if the numbers of records differ. -/
theorem C105_pair (env : Env) (beyond : Option Nat) (tokens : El → List UInt32)
    {m : GeoStore.Map K (MemStore.Store El)} {A : Stores K (MemStore.Store El)} (hm : Abs m A) (hu : Used tokens A) {k : K} {s : MemStore.Store El} (hk : A k = some s)
    {target : Target} (ht : Sensible target) {files : Files}
    (hf : files.shp = none ∨ files.dbf = none ∨ ∃ records table, files.shp = some records ∧ files.dbf = some table ∧ (table.fields = [] ∨ records.length ≠ table.rows.length)) :
    ∃ m' s' e, importShape (memIface tokens) env beyond m k target files = (m', .failed (.throw e)) ∧ Abs m' (update A k s') ∧ Used tokens (update A k s') ∧
      ∀ q, ∃ old new, (GeoStore.step (memIface tokens) m (.tile q)).2 = .elements old ∧ (GeoStore.step (memIface tokens) m' (.tile q)).2 = .elements new ∧ new.Perm old := by
  have h : shapeTold env beyond files = ([], .throw "domain_error") := by
    obtain ⟨shp, dbf⟩ := files
    unfold shapeTold
    rcases hf with h | h | ⟨records, table, h1, h2, h3⟩
    · simp only at h; subst h; rfl
    · simp only at h; subst h; cases shp <;> rfl
    · simp only at h1 h2
      subst h1 h2
      simp only
      rcases h3 with h3 | h3
      · rw [if_pos h3]
      · split <;> rfl
  obtain ⟨m', s', a1, a2, a3, a4⟩ := told_mem env tokens hm hu hk ht ([], .throw "domain_error") (by simp)
  exact ⟨m', s', _, by rw [importShape, h]; exact a1, a2, a3, fun q => by simpa using a4 q⟩

/-- C105 is false for lines of several parts and for points together: a file of such records is imported without a failure, and nothing of it is shown. -/
theorem C105_violated_dropped (env : Env) (hsort : OsmSpec.Sorts env.sort) (beyond : Nat) (tokens : El → List UInt32)
    {m : GeoStore.Map K (MemStore.Store El)} {A : Stores K (MemStore.Store El)} (hm : Abs m A) (hu : Used tokens A) {k : K} {s : MemStore.Store El} (hk : A k = some s)
    {target : Target} (ht : Sensible target) {records : List Record} {rows : List (List Cell)} {fields : List (String × FieldType)} (hf : fields ≠ [])
    (hl : records.length = rows.length) (hr : ∀ r ∈ records, Unsupported r) :
    ∃ m', importShape (memIface tokens) env (some beyond) m k target ⟨some (records.map some), some ⟨fields, rows⟩⟩ = (m', .done) ∧
      ∀ q, ∃ old new, (GeoStore.step (memIface tokens) m (.tile q)).2 = .elements old ∧ (GeoStore.step (memIface tokens) m' (.tile q)).2 = .elements new ∧ new.Perm old := by
  have hb : Begins ⟨some (records.map some), some ⟨fields, rows⟩⟩ fields (records.map fun _ => none) [] := by
    refine ⟨hf, _, rows, _, rfl, rfl, by simpa using hl, (List.append_nil _).symm, ?_⟩
    clear hf
    induction records generalizing rows with
    | nil => simp
    | cons r records ih =>
      cases rows with
      | nil => simp at hl
      | cons row rows =>
        simp only [List.map_cons, List.zip_cons_cons]
        exact .cons ⟨r, rfl, hr r (by simp)⟩ (ih (by simpa using hl) fun r h => hr r (by simp [h]))
  obtain ⟨m', s', els, h1, -, -, h2, h3⟩ := C105_import_partial env hsort beyond tokens hm hu hk ht hb (by intro f hf; simp at hf)
  have he : els = [] := by
    have h0 : (records.map fun _ => (none : Option (Figure × List (Option String)))).filterMap id = [] := by
      clear * -
      induction records <;> simp_all
    rw [h0] at h2
    cases h2
    rfl
  subst he
  exact ⟨m', h1, fun q => by simpa using h3 q⟩

/-- C105 is false for polygons: importing a file whose next record is a polygon, the last part of which has at least two vertices, is undefined, whatever its target is. -/
theorem C105_violated_polygon {S Q : Type} (I : GeoStore.Iface S El Q) (env : Env) (m : GeoStore.Map K S) (k : K) (target : Target) {fields : List (String × FieldType)} (hf : fields ≠ [])
    {r : Record} {row : List Cell} {records : List (Option Record)} {rows : List (List Cell)} (hl : records.length = rows.length) {parts : List (List (Geo ℝ))} (hr : Describes r (.polygon parts))
    {last : List (Geo ℝ)} (hlast : parts.getLast? = some last) (h2 : 2 ≤ last.length) {s : S} {A : Stores K S} (hm : Abs m A) (hk : A k = some s) :
    ∃ w, (importShape I env none m k target ⟨some (some r :: records), some ⟨fields, row :: rows⟩⟩).2 = .failed (.ub w) := by
  obtain ⟨n, v, ps, ir⟩ := r
  obtain ⟨h4, h5, h6, h7, h8⟩ := hr
  simp only at h4 h5 h7 h8
  subst h5 h7 h8
  have hk' : kindOf n = .polygon := by
    simp only [List.mem_cons, List.not_mem_nil, or_false] at h4
    rcases h4 with rfl | rfl | rfl <;> rfl
  have ht : shapeTold env none ⟨some (some (n, ⟨parts.flatten, ShapeSpec.starts 0 parts, parts.map fun _ => true⟩) :: records), some ⟨fields, row :: rows⟩⟩ =
      ([], .ub "read behind the part table") := by
    unfold shapeTold
    simp only [List.length_cons, hl, ne_eq, not_true_eq_false, if_false, hf, List.zip_cons_cons, DirectImport.each, visitRecord, visitShape, hk', Shape.visitPolygon,
      C50_violated_read parts h6 last hlast h2, Outcome.bind, after]
  obtain ⟨e1, e2⟩ := hm.subscript hk
  exact ⟨"read behind the part table", by simp only [importShape, ht, importTold, collect, GeoStore.step, e1, e2, GeoStore.importFile, Bool.false_eq_true, if_false, finish]⟩

/-- A point with a name and without a number, and a polygon of two parts: the hypotheses of `C105_import_partial` are met, and with one more record which cannot be read those of
`C105_violated_refused`. -/
example (a b c : Geo ℝ) (rest : List (Option Record × List Cell)) (hr : rest = [] ∨ rest = [(none, [])]) :
    Begins ⟨some ([some (1, ⟨[a], [], []⟩), some (5, ⟨[a, b, c, a, b], [0, 4], [true, true]⟩)] ++ rest.map (·.1)),
        some ⟨[("name", .string), ("size", .integer)], [[⟨false, "x", "0", "0"⟩, ⟨true, "", "0", "0"⟩], [⟨true, "", "0", "0"⟩, ⟨false, "7", "7", "7"⟩]] ++ rest.map (·.2)⟩⟩
      [("name", .string), ("size", .integer)] [some (.point a, [some "x", none]), some (.polygon [[a, b, c, a], [b]], [none, some "7"])] rest := by
  refine ⟨by simp, _, _, [(some (1, ⟨[a], [], []⟩), [⟨false, "x", "0", "0"⟩, ⟨true, "", "0", "0"⟩]),
    (some (5, ⟨[a, b, c, a, b], [0, 4], [true, true]⟩), [⟨true, "", "0", "0"⟩, ⟨false, "7", "7", "7"⟩])], rfl, rfl, ?_, ?_, ?_⟩
  · rcases hr with rfl | rfl <;> rfl
  · rcases hr with rfl | rfl <;> rfl
  · refine .cons ⟨_, rfl, ⟨by simp, rfl⟩, .cons (.string _ rfl) (.cons (.empty _ _ rfl) .nil), rfl⟩ (.cons ⟨_, rfl, ⟨by simp, rfl, by simp, rfl, rfl⟩,
      .cons (.empty _ _ rfl) (.cons (.integer _ rfl) .nil), rfl⟩ .nil)

/-- A line of two parts is not supported. -/
example (a b : Geo ℝ) : Unsupported (3, ⟨[a, b, b, a], [0, 2], [true, true]⟩) := .inr ⟨by simp, by simp⟩

end Verif.Props
