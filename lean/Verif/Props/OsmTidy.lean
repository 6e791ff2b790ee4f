import Verif.Props.OsmTidySpec
import Verif.Props.RingNest
import Verif.Props.OsmTagged

/-! # C123: whether the relations of an OSM file can be resolved is seen in the file -/
namespace Verif.Props
open Verif.Clipper (El)
open Verif.Style (Rule FilterCollection Str)
open Verif.StyleSpec Verif.LoadTileSpec Verif.QuadKeyBuilderSpec Verif.SceneSpec Verif.DirectLoadSpec Verif.OsmWordsSpec Verif.OsmIdsSpec Verif.OsmTidySpec
open Verif.LoadTile
open Verif.Import (Env Target)
open Verif.ImportSpec (seen)
open Verif.OsmXmlSpec (Doc)
open Verif.ImportRelationsSpec (Describes MemberOf)
open Verif.ResolveSpec (Becomes IsKind)
open Verif.GeoStoreSpec (Stores)
open Verif.PersistentStore (Store)
open Verif.DiskImport Verif.DiskImportSpec
open Verif.Props.GeoStoreProof (Abs)
open Verif.Props.ImportProof (Small)

namespace OsmTidyProof

section
variable {D : Type} {senv : Style.Env D} {P : Str → Prop} {d : Doc} {eps : ℝ} {x : Resolve.Data ℝ}

/-- The relation of the file which is behind an entry. -/
theorem entry_relation (h : Describes eps (fun s => senv.getId s.toList) d x) {y : UInt64 × List Tag × List Resolve.Member} (hy : y ∈ x.relations) :
    ∃ r ∈ d.relations, y.1 = UInt64.ofNat r.id ∧ ImportSpec.Tagged (fun s => senv.getId s.toList) r.tags y.2.1 ∧ List.Forall₂ MemberOf r.members y.2.2 := by
  obtain ⟨rs, r1, r2⟩ := h.relations
  exact JsonImportProof.forall₂_right r1 _ (r2.symm.subset hy)

theorem says_iff (hw : OsmWords senv P d) (hk : senv.getString (senv.getId "type".toList) = "type".toList) {kind : Str} (hb : senv.getString (senv.getId kind) = kind)
    {r : OsmXml.Relation} (hr : r ∈ d.relations) {own : List Tag} (ht : ImportSpec.Tagged (fun s => senv.getId s.toList) r.tags own) :
    (⟨senv.getId "type".toList, senv.getId kind⟩ : Tag) ∈ own ↔ Says r kind := by
  rw [ht.1.mem_iff, List.mem_map]
  have hin : r.tags ∈ written d := List.mem_append_right _ (List.mem_map.2 ⟨r, hr, rfl⟩)
  constructor
  · rintro ⟨t, htm, he⟩
    simp only [String.toList_ofList, Tag.mk.injEq] at he
    obtain ⟨h1, h2, -⟩ := hw.strings _ hin t htm
    exact ⟨t, htm, by rw [← h1, he.1, hk], by rw [← h2, he.2, hb]⟩
  · rintro ⟨t, htm, h1, h2⟩
    refine ⟨t, htm, ?_⟩
    simp only [String.toList_ofList, h1, h2]

theorem multipolygon_iff (hw : OsmWords senv P d) (hk : Kinds senv) {r : OsmXml.Relation} (hr : r ∈ d.relations) {own : List Tag}
    (ht : ImportSpec.Tagged (fun s => senv.getId s.toList) r.tags own) : IsKind (fun s => senv.getId s.toList) own .multipolygon ↔ Multipolygon r :=
  says_iff hw hk.type hk.multipolygon hr ht

theorem building_iff (hw : OsmWords senv P d) (hk : Kinds senv) {r : OsmXml.Relation} (hr : r ∈ d.relations) {own : List Tag}
    (ht : ImportSpec.Tagged (fun s => senv.getId s.toList) r.tags own) : IsKind (fun s => senv.getId s.toList) own .building ↔ Building r :=
  and_congr (not_congr (multipolygon_iff hw hk hr ht)) (says_iff hw hk.type hk.building hr ht)

theorem plain_of (hw : OsmWords senv P d) (hk : Kinds senv) {r : OsmXml.Relation} (hr : r ∈ d.relations) {own : List Tag}
    (ht : ImportSpec.Tagged (fun s => senv.getId s.toList) r.tags own) (h : ¬ Multipolygon r ∧ ¬ Building r) : IsKind (fun s => senv.getId s.toList) own .plain := by
  have h1 := mt (multipolygon_iff hw hk hr ht).1 h.1
  refine ⟨h1, fun h2 => h.2 ((building_iff hw hk hr ht).1 ⟨h1, h2⟩)⟩

theorem member_way {m : OsmXml.Member} {y : Resolve.Member} (h : MemberOf m y) (hy : y.type = "w") : m.type = "way".toList := by
  rcases h.2.2 with ⟨-, h⟩ | ⟨h, -⟩ | ⟨-, -, h⟩
  · rw [h] at hy; exact absurd hy (by decide)
  · exact h
  · rw [h] at hy; exact absurd hy (by decide)

theorem member_other {m : OsmXml.Member} {y : Resolve.Member} (h : MemberOf m y) (h1 : y.type ≠ "n") (h2 : y.type ≠ "w") : m.type ≠ "node".toList ∧ m.type ≠ "way".toList := by
  rcases h.2.2 with ⟨-, h⟩ | ⟨-, h⟩ | ⟨h3, h4, -⟩
  · exact absurd h h1
  · exact absurd h h2
  · exact ⟨h3, h4⟩

theorem forall₂_left {α β : Type} {R : α → β → Prop} {l : List α} {l' : List β} (h : List.Forall₂ R l l') : ∀ a ∈ l, ∃ b ∈ l', R a b := by
  induction h with
  | nil => simp
  | cons h _ ih =>
    intro i hi
    rcases List.mem_cons.1 hi with rfl | hi
    · exact ⟨_, List.mem_cons_self, h⟩
    · obtain ⟨e, he, hs⟩ := ih i hi
      exact ⟨e, List.mem_cons_of_mem _ he, hs⟩

/-- A way of the file is there as way or area. -/
theorem way_there (h : Describes eps (fun s => senv.getId s.toList) d x) {w : OsmXml.Way} (hw : w ∈ d.ways) :
    x.ctx.wayMap.find (UInt64.ofNat w.id) ≠ none ∨ x.ctx.areaMap.find (UInt64.ofNat w.id) ≠ none := by
  obtain ⟨els, e1, e2⟩ := h.elements
  have hi : ImportSpec.Item.way w ∈ ImportSpec.items d := List.mem_append_right _ (List.mem_map.2 ⟨w, hw, rfl⟩)
  obtain ⟨e, he, hs⟩ := forall₂_left e1 _ hi
  have hp := e2.subset he
  obtain ⟨tags, cs, -, -, ⟨-, rfl⟩ | ⟨-, ps, rfl, -⟩⟩ := hs
  · left
    simp only [ImportRelationsSpec.plain, List.mem_append, List.mem_map, reduceCtorEq, and_false, exists_false, or_false, false_or, Element.way.injEq] at hp
    obtain ⟨a, ha, hid, -⟩ := hp
    rw [Ne, Assoc.find_eq_none_iff]
    exact fun hn => hn a ha hid
  · right
    simp only [ImportRelationsSpec.plain, List.mem_append, List.mem_map, reduceCtorEq, and_false, exists_false, or_false, false_or, Element.area.injEq] at hp
    obtain ⟨a, ha, hid, -⟩ := hp
    rw [Ne, Assoc.find_eq_none_iff]
    exact fun hn => hn a ha hid

theorem area_points (h : Describes eps (fun s => senv.getId s.toList) d x) {i : UInt64} {a} (ha : x.ctx.areaMap.find i = some a) : a.coordinates ≠ [] := by
  obtain ⟨els, e1, e2⟩ := h.elements
  have hp : (.area i a.tags a.coordinates : El) ∈ ImportRelationsSpec.plain x := List.mem_append_right _ (List.mem_map.2 ⟨(i, a), Assoc.mem_of_find _ _ _ ha, rfl⟩)
  obtain ⟨item, -, hs⟩ := JsonImportProof.forall₂_right e1 _ (e2.symm.subset hp)
  cases item with
  | node n => obtain ⟨tags, -, he⟩ := hs; cases he
  | way w =>
    obtain ⟨tags, cs, -, -, ⟨-, he⟩ | ⟨hring, ps, he, hps, -⟩⟩ := hs
    · cases he
    · injection he with _ _ he
      rw [he]
      intro h0
      have hl := hring.1
      have : cs.dropLast.length = 0 := by
        rcases hps with hps | hps
        · rw [← hps, h0]; rfl
        · rw [← List.length_reverse, ← hps, h0]; rfl
      rw [List.length_dropLast] at this
      omega

/-- A closed way of the file is an area. -/
theorem closed_area (h : Describes eps (fun s => senv.getId s.toList) d x) (hd : ImportSpec.Sound d) (heps : 0 < eps)
    (hn : (x.ctx.wayMap.map (·.1) ++ x.ctx.areaMap.map (·.1)).Nodup) {w : OsmXml.Way} (hw : w ∈ d.ways) (h4 : 4 ≤ w.refs.length) (hc : w.refs.head? = w.refs.getLast?) :
    x.ctx.wayMap.find (UInt64.ofNat w.id) = none ∧ ∃ a, x.ctx.areaMap.find (UInt64.ofNat w.id) = some a ∧ a.coordinates ≠ [] := by
  obtain ⟨els, e1, e2⟩ := h.elements
  have hi : ImportSpec.Item.way w ∈ ImportSpec.items d := List.mem_append_right _ (List.mem_map.2 ⟨w, hw, rfl⟩)
  obtain ⟨e, he, hs⟩ := forall₂_left e1 _ hi
  have hp := e2.subset he
  obtain ⟨tags, cs, -, hcs, hcase⟩ := hs
  have hlen := hcs.length_eq
  have hring : ImportSpec.Ring eps cs := by
    refine ⟨by omega, ?_⟩
    obtain ⟨a, rest, rfl⟩ := List.exists_cons_of_length_pos (show 0 < cs.length by omega)
    obtain ⟨z, hz⟩ := Option.isSome_iff_exists.1 (show ((a :: rest).getLast?).isSome by simp)
    refine ⟨a, z, rfl, hz, ?_⟩
    have hsame : a = z := by
      cases hrefs : w.refs with
      | nil => rw [hrefs] at h4; simp at h4
      | cons i is =>
        rw [hrefs] at hcs hc
        have h1 : ∃ n ∈ d.nodes, n.id = i ∧ a = ImportSpec.place n := by cases hcs; assumption
        have h2 : ∀ {l : List Nat} {cs : List (Geo ℝ)}, List.Forall₂ (fun i c => ∃ n ∈ d.nodes, n.id = i ∧ c = ImportSpec.place n) l cs → ∀ i z, l.getLast? = some i →
            cs.getLast? = some z → ∃ n ∈ d.nodes, n.id = i ∧ z = ImportSpec.place n := by
          intro l cs hf
          induction hf with
          | nil => intro i z h; simp at h
          | @cons b c l' cs' hb hl ih =>
            intro i z h3 h4
            cases hl with
            | nil =>
              simp only [List.getLast?_singleton, Option.some.injEq] at h3 h4
              rw [← h3, ← h4]
              exact hb
            | cons hb' hl' =>
              rw [List.getLast?_cons_cons] at h3 h4
              exact ih i z h3 h4
        obtain ⟨n, hnm, hni, rfl⟩ := h1
        obtain ⟨n', hnm', hni', rfl⟩ := h2 hcs i z (by rw [← hc]; rfl) hz
        rw [List.inj_on_of_nodup_map hd.nodes hnm hnm' (by rw [hni, hni'])]
    rw [hsame]
    simp [OsmSpec.Coincide, heps]
  rcases hcase with ⟨hno, -⟩ | ⟨-, ps, rfl, -⟩
  · exact absurd hring hno
  · simp only [ImportRelationsSpec.plain, List.mem_append, List.mem_map, reduceCtorEq, and_false, exists_false, or_false, false_or, Element.area.injEq] at hp
    obtain ⟨a, ha, hid, -⟩ := hp
    have hfind : x.ctx.areaMap.find (UInt64.ofNat w.id) = some a.2 := Assoc.find_of_mem _ _ _ (List.nodup_append.1 hn).2.1 (by rw [← hid]; exact ha)
    refine ⟨(Assoc.find_eq_none_iff _ _).2 fun b hb hbe => ?_, a.2, hfind, area_points h hfind⟩
    exact (List.nodup_append.1 hn).2.2 b.1 (List.mem_map.2 ⟨b, hb, rfl⟩) a.1 (List.mem_map.2 ⟨a, ha, rfl⟩) (by rw [hbe, hid])

/-- A simple multipolygon has an area for every member. -/
theorem simple_areas (h : Describes eps (fun s => senv.getId s.toList) d x) (hd : ImportSpec.Sound d) (heps : 0 < eps)
    (hn : (x.ctx.wayMap.map (·.1) ++ x.ctx.areaMap.map (·.1)).Nodup) {r : OsmXml.Relation} (hs : Simple d r) {ms : List Resolve.Member} (hm : List.Forall₂ MemberOf r.members ms)
    (renv : Resolve.Env ℝ) (he : renv.eps = eps) : ∃ areas, ResolveSpec.Areas renv x ms areas ∧ areas.length = ms.length := by
  have key : ∀ {rm : List OsmXml.Member} {ms : List Resolve.Member}, List.Forall₂ MemberOf rm ms → (∀ m ∈ rm, m ∈ r.members) →
      (∀ m ∈ ms, m.type = "w") ∧ ∃ ps : List (Multipolygon.Member (Geo ℝ) × Multipolygon.Seq (Geo ℝ)), List.Forall₂ (ResolveSpec.Finds x) ms (ps.map Prod.fst) ∧
        (∀ p ∈ ps, MultipolygonSpec.LineOf p.1 p.2) ∧ (∀ p ∈ ps, Multipolygon.isClosed (Osm.geoEq eps) p.2 = true) ∧
        (MultipolygonSpec.linesOf ["outer"] ps).length = rm.countP (fun m => decide (m.role = "outer".toList)) ∧
        (MultipolygonSpec.linesOf ["outer"] ps).length + (MultipolygonSpec.linesOf ["inner"] ps).length = ms.length := by
    intro rm ms hf
    induction hf with
    | nil => exact fun _ => ⟨by simp, [], .nil, by simp, by simp, rfl, rfl⟩
    | @cons m y rm ms hmy _ ih =>
      intro hsub
      obtain ⟨i1, ps, i2, i3, i4, i5, i6⟩ := ih fun m hm => hsub m (List.mem_cons_of_mem _ hm)
      obtain ⟨hty, hrole, w, hw, hid, h4, hc⟩ := hs.1 m (hsub m List.mem_cons_self)
      obtain ⟨hnone, a, hfind, hne⟩ := closed_area h hd heps hn hw h4 hc
      rw [hid, ← hmy.1] at hnone hfind
      have hyw : y.type = "w" := by
        rcases hmy.2.2 with ⟨h, -⟩ | ⟨-, h⟩ | ⟨-, h, -⟩
        · rw [hty] at h; exact absurd h (by decide)
        · exact h
        · exact absurd hty h
      obtain ⟨c, t, hct⟩ := List.exists_cons_of_ne_nil hne
      have hro : y.role = "outer" ↔ m.role = "outer".toList := by
        rw [hmy.2.1]
        exact ⟨fun h => by rw [← h, String.toList_ofList], fun h => by rw [h, String.ofList_toList]⟩
      have hri : y.role = "inner" ↔ m.role = "inner".toList := by
        rw [hmy.2.1]
        exact ⟨fun h => by rw [← h, String.toList_ofList], fun h => by rw [h, String.ofList_toList]⟩
      refine ⟨?_, (⟨y.refId, y.role, .area a.coordinates⟩, ⟨y.refId, c :: t ++ [c]⟩) :: ps, ?_, ?_, ?_, ?_, ?_⟩
      · intro z hz
        rcases List.mem_cons.1 hz with rfl | hz
        · exact hyw
        · exact i1 z hz
      · exact .cons ⟨rfl, rfl, .inr (.inl ⟨hnone, a, hfind, rfl⟩)⟩ i2
      · intro p hp
        rcases List.mem_cons.1 hp with rfl | hp
        · exact ⟨rfl, by simp, .inr ⟨c, t, by simp only [hct], rfl⟩⟩
        · exact i3 p hp
      · intro p hp
        rcases List.mem_cons.1 hp with rfl | hp
        · have hl : (c :: t ++ [c]).getLast? = some c := by
            rw [List.getLast?_append]
            rfl
          simp only [Multipolygon.isClosed, hl]
          simp [Multipolygon.same, Osm.geoEq, heps]
        · exact i4 p hp
      · rw [List.countP_cons]
        simp only [MultipolygonSpec.linesOf, List.mem_singleton] at i5 ⊢
        by_cases ho : m.role = "outer".toList
        · rw [List.filter_cons_of_pos (by simpa using hro.2 ho), List.map_cons, List.length_cons, i5, if_pos (by simpa using ho)]
        · rw [List.filter_cons_of_neg (by simpa using mt hro.1 ho), i5, if_neg (by simpa using ho)]
          rfl
      · simp only [MultipolygonSpec.linesOf, List.mem_singleton] at i6 ⊢
        rcases hrole with ho | hin
        · have hno : ¬ y.role = "inner" := fun h => by rw [hro.2 ho] at h; exact absurd h (by decide)
          rw [List.filter_cons_of_pos (by simpa using hro.2 ho), List.filter_cons_of_neg (by simpa using hno), List.map_cons, List.length_cons, List.length_cons]
          omega
        · have hno : ¬ y.role = "outer" := fun h => by rw [hri.2 hin] at h; exact absurd h (by decide)
          rw [List.filter_cons_of_neg (by simpa using hno), List.filter_cons_of_pos (by simpa using hri.2 hin), List.map_cons, List.length_cons, List.length_cons]
          omega
  obtain ⟨k1, ps, k2, k3, k4, k5, k6⟩ := key hm fun _ h => h
  rw [hs.2] at k5
  obtain ⟨outer, ho⟩ := List.length_eq_one_iff.1 k5
  refine ⟨Multipolygon.simpleCase (Osm.geoEq eps) Osm.isClockwise outer (MultipolygonSpec.linesOf ["inner"] ps), ⟨ps.map Prod.fst, ?_, ?_⟩, ?_⟩
  · rw [List.filter_eq_self.2 fun m hm => by simpa using k1 m hm]
    exact k2
  · rw [he]
    unfold Multipolygon.process
    rw [MultipolygonProof.collect_lines ps k3]
    simp only [Outcome.bind]
    rw [MultipolygonProof.tagged_outers, MultipolygonProof.tagged_inners, ho]
    simp only
    rw [if_pos]
    rw [List.all_eq_true]
    intro p hp
    unfold MultipolygonProof.tagged at hp
    obtain ⟨q, hq, rfl⟩ := List.mem_map.1 hp
    exact k4 q (List.mem_filter.1 hq).1
  · rw [ho, List.length_singleton] at k6
    simp only [Multipolygon.simpleCase, List.length_cons, List.length_map]
    omega

/-- No number is used twice in the maps. -/
theorem maps_nodup (h : Describes eps (fun s => senv.getId s.toList) d x) (hs : Small d) (hd : ImportSpec.Sound d) :
    (x.ctx.nodeMap.map (·.1)).Nodup ∧ (x.ctx.wayMap.map (·.1) ++ x.ctx.areaMap.map (·.1)).Nodup := by
  obtain ⟨els, e1, e2⟩ := h.elements
  have key : ∀ {is : List ImportSpec.Item} {els : List El}, List.Forall₂ (ImportSpec.Shows eps (fun s => senv.getId s.toList) d) is els →
      els.filterMap (fun | .node i _ _ => some i | _ => none) = is.filterMap (fun | .node n => some (UInt64.ofNat n.id) | .way _ => none) ∧
      els.filterMap (fun | .way i _ _ => some i | .area i _ _ => some i | _ => none) = is.filterMap (fun | .node _ => none | .way w => some (UInt64.ofNat w.id)) := by
    intro is els hf
    induction hf with
    | nil => exact ⟨rfl, rfl⟩
    | @cons i e _ _ hsh _ ih =>
      cases i with
      | node n =>
        obtain ⟨tags, -, rfl⟩ := hsh
        exact ⟨by simp only [List.filterMap_cons, ih.1], by simp only [List.filterMap_cons, ih.2]⟩
      | way w =>
        obtain ⟨tags, cs, -, -, ⟨-, rfl⟩ | ⟨-, ps, rfl, -⟩⟩ := hsh
        · exact ⟨by simp only [List.filterMap_cons, ih.1], by simp only [List.filterMap_cons, ih.2]⟩
        · exact ⟨by simp only [List.filterMap_cons, ih.1], by simp only [List.filterMap_cons, ih.2]⟩
  obtain ⟨k1, k2⟩ := key e1
  have p1 := (e2.filterMap (fun | .node i _ _ => some i | _ => none : El → Option UInt64))
  have p2 := (e2.filterMap (fun | .way i _ _ => some i | .area i _ _ => some i | _ => none : El → Option UInt64))
  rw [k1] at p1
  rw [k2] at p2
  have n1 := ImportProof.nodup_ofNat hd.nodes hs.1
  have n2 := ImportProof.nodup_ofNat hd.ways (fun w hw => (hs.2 w hw).1)
  constructor
  · have := p1.nodup_iff.1 (by simpa [ImportSpec.items, List.filterMap_append, List.filterMap_map, Function.comp_def] using n1)
    simpa [ImportRelationsSpec.plain, List.filterMap_append, List.filterMap_map, Function.comp_def] using this
  · have := p2.nodup_iff.1 (by simpa [ImportSpec.items, List.filterMap_append, List.filterMap_map, Function.comp_def] using n2)
    simpa [ImportRelationsSpec.plain, List.filterMap_append, List.filterMap_map, Function.comp_def] using this

/-- A relation of the file is there. -/
theorem relation_there (h : Describes eps (fun s => senv.getId s.toList) d x) {r : OsmXml.Relation} (hr : r ∈ d.relations) : (x.relations.find (UInt64.ofNat r.id)).isSome := by
  obtain ⟨rs, r1, r2⟩ := h.relations
  obtain ⟨y, hy, hs⟩ := forall₂_left r1 r hr
  rw [Option.isSome_iff_ne_none]
  intro hn
  exact (Assoc.find_eq_none_iff _ _).1 hn y (r2.subset hy) hs.1

open Classical in
/-- All members of a whole building are parts of it. -/
theorem whole_parts (h : Describes eps (fun s => senv.getId s.toList) d x) {r : OsmXml.Relation} (hs : Whole d r) {ms : List Resolve.Member} (hm : List.Forall₂ MemberOf r.members ms) :
    ∃ ks, List.Forall₂ (ResolveSpec.Names x) (ms.filter fun m => decide (m.role ≠ "outline" ∧ ∃ k, ResolveSpec.Names x m k)) ks ∧ ks.length = ms.length := by
  have hall : ∀ y ∈ ms, y.role ≠ "outline" ∧ ∃ k, ResolveSpec.Names x y k := by
    intro y hy
    obtain ⟨m, hmm, hmy⟩ := JsonImportProof.forall₂_right hm y hy
    obtain ⟨hrole, hcase⟩ := hs m hmm
    refine ⟨fun he => hrole ?_, ?_⟩
    · rw [← he, hmy.2.1, String.toList_ofList]
    · rcases hcase with ⟨hty, w, hw, hid⟩ | ⟨hn, hw, r', hr', hid⟩
      · have hyw : y.type = "w" := by
          rcases hmy.2.2 with ⟨h, -⟩ | ⟨-, h⟩ | ⟨-, h, -⟩
          · rw [hty] at h; exact absurd h (by decide)
          · exact h
          · exact absurd hty h
        have hthere := way_there h hw
        rw [hid, ← hmy.1] at hthere
        by_cases ha : x.ctx.areaMap.find y.refId = none
        · exact ⟨.way y.refId, .inr (.inr (.inl ⟨hyw, rfl, ha, Option.isSome_iff_ne_none.2 (hthere.resolve_right fun h => h ha)⟩))⟩
        · exact ⟨.area y.refId, .inr (.inl ⟨hyw, rfl, Option.isSome_iff_ne_none.2 ha⟩)⟩
      · have hthere := relation_there h hr'
        rw [hid, ← hmy.1] at hthere
        rcases hmy.2.2 with ⟨h, -⟩ | ⟨h, -⟩ | ⟨-, -, h⟩
        · exact absurd h hn
        · exact absurd h hw
        · exact ⟨.relation y.refId, .inr (.inr (.inr ⟨by rw [h]; decide, by rw [h]; decide, rfl, hthere⟩))⟩
  rw [List.filter_eq_self.2 fun y hy => by simpa using hall y hy]
  clear hm
  induction ms with
  | nil => exact ⟨[], .nil, rfl⟩
  | cons y ms ih =>
    obtain ⟨k, hk⟩ := (hall y List.mem_cons_self).2
    obtain ⟨ks, h1, h2⟩ := ih fun z hz => hall z (List.mem_cons_of_mem _ hz)
    exact ⟨k :: ks, .cons hk h1, by rw [List.length_cons, h2, List.length_cons]⟩

theorem follows_contains (hw : OsmWords senv P d) (hk : Kinds senv) (ht : Tidy d) (h : Describes eps (fun s => senv.getId s.toList) d x) {a b : UInt64}
    (hf : ResolveSpec.Follows (fun s => senv.getId s.toList) x a b) : Contains d a b := by
  obtain ⟨own, ms, m, hfind, hm, rfl, hsome, hcase⟩ := hf
  obtain ⟨r, hr, hid, htag, hmem⟩ := entry_relation h (Assoc.mem_of_find _ _ _ hfind)
  obtain ⟨m', hm', hof⟩ := JsonImportProof.forall₂_right hmem m hm
  obtain ⟨y, hy⟩ := Option.isSome_iff_exists.1 hsome
  obtain ⟨r', hr', hid', -, -⟩ := entry_relation h (Assoc.mem_of_find _ _ _ hy)
  have hplain : ¬ Multipolygon r → m.type ≠ "n" → m.type ≠ "w" → Contains d a m.refId := fun h1 h2 h3 =>
    ⟨r, hr, m', hm', r', hr', hid.symm, hof.1.symm, hid'.symm, h1, member_other hof h2 h3⟩
  rcases hcase with ⟨hkind, hty, hn1, hn2⟩ | ⟨hkind, h1, h2⟩ | ⟨hkind, h1, h2, -⟩
  · exfalso
    rcases ht.apart r hr ((multipolygon_iff hw hk hr htag).1 hkind) m' hm' (member_way hof hty) with ⟨w, hwm, he⟩ | hno
    · rw [hof.1, ← he] at hn1 hn2
      rcases way_there h hwm with h | h
      · exact h hn1
      · exact h hn2
    · exact hno r' hr' (by rw [← hid', ← hof.1])
  · exact hplain (mt (multipolygon_iff hw hk hr htag).2 hkind.1) h1 h2
  · exact hplain (mt (multipolygon_iff hw hk hr htag).2 hkind.1) h1 h2

end

/-- The relations of a tidy file can be resolved. -/
theorem sound_of_tidy {D : Type} {senv : Style.Env D} {P : Str → Prop} {d : Doc} (hw : OsmWords senv P d) (hk : Kinds senv) (ht : Tidy d) (hs : Small d) (hd : ImportSpec.Sound d)
    (hsr : ∀ r ∈ d.relations, r.id < 2 ^ 64) (hr : (d.relations.map (·.id)).Nodup) (renv : Resolve.Env ℝ) (hg : renv.getId = fun s => senv.getId s.toList)
    (hc : renv.contains = RingContains.contains) (heps : 0 < renv.eps) {x : Resolve.Data ℝ} (h : Describes renv.eps (fun s => senv.getId s.toList) d x) : ResolveSpec.Sound renv x := by
  obtain ⟨n1, n2⟩ := maps_nodup h hs hd
  have hstr : ∀ s : Str, s ≠ [] → senv.getString (senv.getId s) = s → senv.getId s ≠ 0xFFFFFFFF := by
    intro s h0 hb he
    rw [he, hw.mark] at hb
    exact h0 hb.symm
  refine ⟨n1, (List.nodup_append.1 n2).1, (List.nodup_append.1 n2).2.1, ?_, ?_, ?_, ?_, ?_, ?_, ?_⟩
  · obtain ⟨rs, r1, r2⟩ := h.relations
    have h3 : rs.map (·.1) = d.relations.map (fun r => UInt64.ofNat r.id) := by
      clear r2 hsr hr
      generalize d.relations = l at r1
      induction r1 with
      | nil => rfl
      | cons hr _ ih => rw [List.map_cons, ih, hr.1]; rfl
    exact (r2.map (·.1)).nodup_iff.1 (by rw [h3]; exact ImportProof.nodup_ofNat hr hsr)
  · intro a ha
    rw [hg] at ha
    exact ht.acyclic a (Relation.TransGen.mono (fun _ _ => follows_contains hw hk ht h) a a ha)
  · intro y hy
    obtain ⟨r, hr, -, htag, -⟩ := entry_relation h hy
    have hgood := OsmWordsProof.good_tagged hw (List.mem_append_right _ (List.mem_map.2 ⟨r, hr, rfl⟩)) htag
    have hnd : (y.2.1.map Tag.key).Nodup := by
      have hp := htag.1.map Tag.key
      refine hp.nodup_iff.2 ?_
      rw [List.map_map]
      have hin : r.tags ∈ written d := List.mem_append_right _ (List.mem_map.2 ⟨r, hr, rfl⟩)
      have ho := hw.once _ hin
      rw [List.nodup_iff_pairwise_ne, List.pairwise_map] at ho ⊢
      refine List.Pairwise.imp_of_mem (fun {a b} ha hb hne he => hne ?_) ho
      simp only [Function.comp_apply, String.toList_ofList] at he
      rw [← (hw.strings _ hin a ha).1, he, (hw.strings _ hin b hb).1]
    refine ⟨?_, fun t htm => ?_⟩
    · have h1 : (y.2.1.map Tag.key).Pairwise (· ≤ ·) := List.pairwise_map.2 hgood.sorted
      exact (h1.and hnd).imp fun hab => UInt32.lt_of_le_of_ne hab.1 hab.2
    · obtain ⟨key, value, rfl, -, -, hne⟩ := hgood.plain t htm
      have h1 := (senv.getId key).toNat_lt
      have h2 : (senv.getId key).toNat ≠ 4294967295 := fun he => hne (UInt32.toNat_inj.1 he)
      rw [UInt32.lt_iff_toNat_lt]
      have e : (0xFFFFFFFF : UInt32).toNat = 4294967295 := rfl
      simp only [e]
      omega
  · rw [hg]
    exact ⟨hstr _ (by decide) hk.type, hstr _ (by decide) hk.multipolygon, hstr _ (by decide) hk.building⟩
  · intro y hy _
    have hfind : ∀ m : Resolve.Member, ∃ r, ResolveSpec.Finds x m r ∧ r.found ≠ .area [] := by
      intro m
      cases h1 : x.ctx.wayMap.find m.refId with
      | some w => exact ⟨⟨m.refId, m.role, .way w.coordinates⟩, ⟨rfl, rfl, .inl ⟨w, h1, rfl⟩⟩, by simp⟩
      | none =>
        cases h2 : x.ctx.areaMap.find m.refId with
        | some a => exact ⟨⟨m.refId, m.role, .area a.coordinates⟩, ⟨rfl, rfl, .inr (.inl ⟨h1, a, h2, rfl⟩)⟩, by simpa using area_points h h2⟩
        | none =>
          cases h3 : x.relations.find m.refId with
          | some r => exact ⟨⟨m.refId, m.role, .relation⟩, ⟨rfl, rfl, .inr (.inr (.inl ⟨h1, h2, by rw [h3]; rfl, rfl⟩))⟩, by simp⟩
          | none => exact ⟨⟨m.refId, m.role, .missing⟩, ⟨rfl, rfl, .inr (.inr (.inr ⟨h1, h2, h3, rfl⟩))⟩, by simp⟩
    choose f hf1 hf2 using hfind
    obtain ⟨areas, ha⟩ := C36_assembled (Osm.geoEq renv.eps) Osm.isClockwise ((y.2.2.filter fun m => decide (m.type = "w")).map f) (fun m hm => by
      obtain ⟨m', -, rfl⟩ := List.mem_map.1 hm
      exact hf2 m')
    refine ⟨areas, _, ?_, by rw [hc]; exact ha⟩
    rw [List.forall₂_map_right_iff]
    exact List.forall₂_same.2 fun m _ => hf1 m
  · intro a b own ms hfol hfind
    rw [hg] at hfol ⊢
    have hcon := follows_contains hw hk ht h hfol
    obtain ⟨r, hr, hid, htag, hmem⟩ := entry_relation h (Assoc.mem_of_find _ _ _ hfind)
    rcases ht.nested r hr ⟨a, by rw [← hid]; exact hcon⟩ with hno | ⟨hmul, hsim⟩ | ⟨hbui, hwhole⟩
    · exact .inl (plain_of hw hk hr htag hno)
    · right
      have hkind := (multipolygon_iff hw hk hr htag).2 hmul
      obtain ⟨areas, ha, hlen⟩ := simple_areas h hd heps n2 hsim hmem renv rfl
      exact ⟨areas.map .new, .inl ⟨by rw [hg]; exact hkind, areas, ha, rfl⟩, by rw [List.length_map, hlen]⟩
    · right
      obtain ⟨ks, hks, hlen⟩ := whole_parts h hwhole hmem
      exact ⟨ks.map .old, .inr (.inl ⟨by rw [hg]; exact (building_iff hw hk hr htag).2 hbui, ks, hks, rfl⟩), by rw [List.length_map, hlen]⟩
  · intro y hy hkind hlen i hout hpart
    rw [hg] at hkind hpart
    obtain ⟨r, hr, -, htag, hmem⟩ := entry_relation h hy
    obtain ⟨m, hm, hty, hrole, rfl, -, -⟩ := hout
    obtain ⟨j, own, ms, hfind, hb, m2, hm2, hnames⟩ := hpart
    obtain ⟨r2, hr2, -, htag2, hmem2⟩ := entry_relation h (Assoc.mem_of_find _ _ _ hfind)
    obtain ⟨w, hwm, hof⟩ := JsonImportProof.forall₂_right hmem m hm
    obtain ⟨w2, hwm2, hof2⟩ := JsonImportProof.forall₂_right hmem2 m2 hm2
    have hl := htag.1.length_eq
    rw [List.length_map] at hl
    rcases hnames with ⟨-, h, -⟩ | ⟨hty2, h, -⟩ | ⟨-, h, -⟩ | ⟨-, -, h, -⟩
    · cases h
    · injection h with h
      refine ht.unmixed r hr ((multipolygon_iff hw hk hr htag).1 hkind) (by omega) w hwm (member_way hof hty) ?_ r2 hr2 ((building_iff hw hk hr2 htag2).1 hb) w2 hwm2 (member_way hof2 hty2) ?_
      · rw [hof.2.1] at hrole
        rw [← hrole, String.toList_ofList]
      · rw [← hof.1, ← hof2.1, h]
    · cases h
    · cases h

end OsmTidyProof
open OsmTidyProof

/-- C123 (partial): the relations of every tidy file can be resolved, in any order, with the test for rings which the code uses. Missing: in other relations,
multipolygons which are not simple and buildings with an outline, nodes or missing members; rounding. -/
theorem C123_resolved_partial {D : Type} (senv : Style.Env D) {P : Str → Prop} {doc : Doc} (hw : OsmWords senv P doc) (hk : Kinds senv) (ht : Tidy doc) (hd : ImportSpec.Sound doc)
    (hr : (doc.relations.map (·.id)).Nodup) {w : List Char} (hp : OsmXmlSpec.PrintsBody doc w) (renv : Resolve.Env ℝ) (hg : renv.getId = fun s => senv.getId s.toList)
    (hc : renv.contains = RingContains.contains) (heps : 0 < renv.eps) {x : Resolve.Data ℝ} (h : Describes renv.eps (fun s => senv.getId s.toList) doc x) : ResolveSpec.Sound renv x :=
  sound_of_tidy hw hk ht (ImportProof.small_body hp) hd (ImportRelationsProof.small_relations hp) hr renv hg hc heps h

/-- C123 (partial): `C122_tagged_osm_partial` for tidy files: that the relations can be resolved is not assumed but follows from what is written. Missing: what C121 leaves open but the conditions
on ids and relations; relations which contain buildings with an outline or missing members, or multipolygons which are not simple. -/
theorem C123_osm_partial {K : Type} [LinearOrder K] (S : Studio) (hS : S.Ready) (T : MapCss.Tools Atlas.TextureAtlas LsysText.System) (hT : T.atlas = Atlas.parse S.outside)
    (hL : T.lsystem = LsysText.parse) {css g : List Char} {entries : List (MapCssSpec.Entry Atlas.TextureAtlas LsysText.System)} (hcss : MapCssSpec.Reads T css g entries)
    (hgap : MapCssSpec.Gap g) (hacc : (Style.build S.senv (rulesOf entries)).isOk = true) {P : Str → Prop} (hmen : Mentions (rulesOf entries) P) (hskip : P "skip".toList)
    (hclip : P "clip".toList) (hkeys : ∀ k ∈ keys, P k) (hchoosy : Choosy (rulesOf entries)) (d : Doubles) (tokens : PersistentStore.El → List UInt32) (bad : UInt32 → Prop) (env : Env)
    {garbage : QuadKey → UInt32} (hg : ∀ q, bad (garbage q)) {m : GeoStore.Map K Store} {B : Stores K Store} (hm : Abs m B) {C : K → QuadKey → List El}
    (hC : ∀ k s, B k = some s → Holds d tokens bad s (C k)) {k : K} {s : Store} (hk : B k = some s) {target : Target} (ht : ImportSpec.Sensible target)
    (hsort : OsmSpec.Sorts env.sort) {h w u : List Char} {doc : Doc} (hh : OsmXmlSpec.Head h) (hw : OsmXmlSpec.PrintsBody doc w)
    (hf : ∃ v, w = '<' :: v) (hb : doc.bounds ≠ none ∨ doc.nodes ≠ []) (hd : ImportSpec.Sound doc) (hr : (doc.relations.map (·.id)).Nodup) (hwords : OsmWords S.senv P doc)
    (hids : OwnTaggedIds doc) (hkinds : Kinds S.senv) (htidy : Tidy doc) (hcontains : env.contains = RingContains.contains)
    (heps : 0 < env.eps) :
    ∃ fc systems texts xs, Sheet T S css entries fc systems texts xs ∧
      ∃ x, Describes env.eps (fun s => S.senv.getId s.toList) doc x ∧ ResolveSpec.Sound (withSheet env S.senv fc).resolver x ∧
        ∃ es, List.Forall₂ (fun key e => Becomes (withSheet env S.senv fc).resolver x (.old key) e) (ResolveSpec.All x) es ∧
          ((∀ q, ∀ e ∈ es.filterMap (seen env.eng (wanted S.senv (rulesOf entries)) target q), Storable d tokens bad e) →
          (∀ q, size d (C k q ++ es.filterMap (seen env.eng (wanted S.senv (rulesOf entries)) target q)) < 2 ^ 32) →
          ∀ order : List UInt64 → List UInt64, (∀ l, (order l).Perm l) → ∃ N, ∀ n ≥ N,
            ∃ m', Import.importXml (diskIface d tokens garbage) { withSheet env S.senv fc with order := order, stack := n } m k target (h ++ (w ++ u)) = (m', .done) ∧
              (∀ (U : PbfFile.Tools) (cs : List PbfFileSpec.Content) (bytes : List UInt8), PbfFileSpec.FileOf U cs bytes → PbfFileSpec.Holds doc cs →
                PbfFile.importPbf (diskIface d tokens garbage) U { withSheet env S.senv fc with order := order, stack := n } m k target bytes = (m', .done)) ∧
              ∀ q, ∃ old pal, (GeoStore.step (diskIface d tokens garbage) m (.tile q)).2 = .elements old ∧ Palette.palette S.cast S.outside texts q = .ok pal ∧
                pal.textures = Atlas.provide S.outside (entries.filterMap MapCssSpec.Entry.texture?) ∧
                ((∀ e ∈ old.flatMap parts, AllReadable S.senv P e) → DistinctIds S.senv (rulesOf entries) q.lod old → ForeignTagged old doc →
                  ∀ stores, stores.Perm (disks m') → ∀ garbage' : QuadKey → UInt32, (∀ q, bad (garbage' q)) → ∀ qs : List QuadKey,
                  ∀ sorted order : List (List Char) → List (List Char), (∀ l, (sorted l).Perm l) → (∀ l, (order l).Perm l) →
                    ∃ t, loadTile (diskIface d tokens garbage') S.senv fc sorted order
                        (GeoStore.run (diskIface d tokens garbage') GeoStore.init (registrations stores ++ qs.map .tile)).1 q = .ok t ∧
                      Scene S (rulesOf entries) P fc systems xs pal q (old ++ es.filterMap (seen env.eng (wanted S.senv (rulesOf entries)) target q)) t)) := by
  obtain ⟨fc, systems, texts, xs, h1, x, h2, h3⟩ := C122_tagged_osm_partial S hS T hT hL hcss hgap hacc hmen hskip hclip hkeys hchoosy d tokens bad env hg hm hC hk ht hsort (u := u) hh hw hf hb hd hr
    hwords hids
  have hsound := C123_resolved_partial S.senv hwords hkinds htidy hd hr hw (withSheet env S.senv fc).resolver rfl hcontains heps h2
  obtain ⟨es, h4, h5⟩ := h3 hsound
  exact ⟨fc, systems, texts, xs, h1, x, h2, hsound, es, h4, h5⟩

/-- The file with a node and a building relation is tidy. -/
example : Tidy ImportRelationsProof.sample := by
  have hno : ∀ a b, ¬ Contains ImportRelationsProof.sample a b := by
    rintro a b ⟨r, hr, m, hm, -, -, -, -, -, -, h, -⟩
    rw [List.mem_singleton.1 hr] at hm
    rw [List.mem_singleton.1 hm] at h
    exact h rfl
  have hmulti : ∀ r ∈ ImportRelationsProof.sample.relations, ¬ Multipolygon r := by
    rintro r hr ⟨t, ht, -, h⟩
    rw [List.mem_singleton.1 hr] at ht
    rw [List.mem_singleton.1 ht] at h
    exact absurd h (by decide)
  exact ⟨fun a h => (Relation.TransGen.tail'_iff.1 h).elim fun b hb => hno _ _ hb.2, fun r hr h => absurd h (hmulti r hr), fun r _ ⟨a, h⟩ => absurd h (hno _ _), fun r hr h => absurd h (hmulti r hr)⟩

/-- A file with a multipolygon of one way, which is in a site, is not tidy if the way is missing; with the multipolygon outside of the site it is. -/
example : let multi : OsmXml.Relation := ⟨5, [⟨"way".toList, 7, "outer".toList⟩], [⟨"type".toList, "multipolygon".toList⟩, ⟨"natural".toList, "water".toList⟩]⟩
    Tidy ⟨none, [], [], [multi, ⟨6, [⟨"node".toList, 1, []⟩], [⟨"type".toList, "site".toList⟩]⟩]⟩ ∧
    ¬ Tidy ⟨none, [], [], [multi, ⟨6, [⟨"relation".toList, 5, []⟩], [⟨"type".toList, "site".toList⟩]⟩]⟩ := by
  intro multi
  have hm5 : Multipolygon multi := ⟨_, List.mem_cons_self, rfl, rfl⟩
  have hm6 : ∀ ms, ¬ Multipolygon ⟨6, ms, [⟨"type".toList, "site".toList⟩]⟩ := by
    rintro ms ⟨t, ht, -, h⟩
    rw [List.mem_singleton.1 ht] at h
    exact absurd h (by decide)
  constructor
  · have hno : ∀ a b, ¬ Contains ⟨none, [], [], [multi, ⟨6, [⟨"node".toList, 1, []⟩], [⟨"type".toList, "site".toList⟩]⟩]⟩ a b := by
      rintro a b ⟨r, hr, m, hm, -, -, -, -, -, hn, h, -⟩
      rcases List.mem_cons.1 hr with rfl | hr
      · exact hn hm5
      · rw [List.mem_singleton.1 hr] at hm
        rw [List.mem_singleton.1 hm] at h
        exact h rfl
    refine ⟨fun a h => (Relation.TransGen.tail'_iff.1 h).elim fun b hb => hno _ _ hb.2, fun r hr h m hm _ => ?_, fun r _ ⟨a, h⟩ => absurd h (hno _ _), fun r hr h hl => ?_⟩
    · rcases List.mem_cons.1 hr with rfl | hr
      · right
        rw [List.mem_singleton.1 hm]
        intro r' hr'
        rcases List.mem_cons.1 hr' with rfl | hr'
        · decide
        · rw [List.mem_singleton.1 hr']
          decide
      · rw [List.mem_singleton.1 hr] at h
        exact absurd h (hm6 _)
    · rcases List.mem_cons.1 hr with rfl | hr
      · exact absurd hl (by decide)
      · rw [List.mem_singleton.1 hr] at h
        exact absurd h (hm6 _)
  · intro h
    rcases h.nested multi List.mem_cons_self ⟨6, _, List.mem_cons_of_mem _ List.mem_cons_self, _, List.mem_cons_self, multi, List.mem_cons_self, rfl, rfl, rfl, hm6 _, by decide, by decide⟩ with h | ⟨-, h, -⟩ | ⟨h, -⟩
    · exact h.1 hm5
    · obtain ⟨-, -, w, hw, -⟩ := h _ List.mem_cons_self
      cases hw
    · exact h.1 hm5

/-- A site which contains a multipolygon with a closed outer way and a closed inner way: the file is tidy. -/
example : let multi : OsmXml.Relation := ⟨5, [⟨"way".toList, 7, "outer".toList⟩, ⟨"way".toList, 8, "inner".toList⟩], [⟨"type".toList, "multipolygon".toList⟩, ⟨"natural".toList, "water".toList⟩]⟩
    Tidy ⟨none, [], [⟨7, [1, 2, 3, 1], []⟩, ⟨8, [4, 5, 6, 4], []⟩], [multi, ⟨6, [⟨"relation".toList, 5, []⟩], [⟨"type".toList, "site".toList⟩]⟩]⟩ := by
  intro multi
  have hm5 : Multipolygon multi := ⟨_, List.mem_cons_self, rfl, rfl⟩
  have hm6 : ∀ ms, ¬ Multipolygon ⟨6, ms, [⟨"type".toList, "site".toList⟩]⟩ := by
    rintro ms ⟨t, ht, -, h⟩
    rw [List.mem_singleton.1 ht] at h
    exact absurd h (by decide)
  generalize hdoc : (⟨none, [], [⟨7, [1, 2, 3, 1], []⟩, ⟨8, [4, 5, 6, 4], []⟩], [multi, ⟨6, [⟨"relation".toList, 5, []⟩], [⟨"type".toList, "site".toList⟩]⟩]⟩ : OsmXmlSpec.Doc) = doc
  have hrel : ∀ r ∈ doc.relations, r = multi ∨ r = ⟨6, [⟨"relation".toList, 5, []⟩], [⟨"type".toList, "site".toList⟩]⟩ := by
    subst hdoc
    intro r hr
    simpa using hr
  have hways : (⟨7, [1, 2, 3, 1], []⟩ : OsmXml.Way) ∈ doc.ways ∧ (⟨8, [4, 5, 6, 4], []⟩ : OsmXml.Way) ∈ doc.ways := by
    subst hdoc
    simp
  have hcon : ∀ a b, Contains doc a b → a = 6 ∧ b = 5 := by
    rintro a b ⟨r, hr, m, hm, -, -, ha, hb, -, hn, -, -⟩
    rcases hrel r hr with rfl | rfl
    · exact absurd hm5 hn
    · rw [List.mem_singleton.1 hm] at hb
      exact ⟨ha.symm, hb.symm⟩
  have hmem : ∀ m ∈ multi.members, m.type = "way".toList ∧ (m.role = "outer".toList ∨ m.role = "inner".toList) ∧
      ∃ w ∈ doc.ways, UInt64.ofNat w.id = UInt64.ofNat m.ref ∧ 4 ≤ w.refs.length ∧ w.refs.head? = w.refs.getLast? := by
    intro m hm
    rcases List.mem_cons.1 hm with rfl | hm
    · exact ⟨rfl, .inl rfl, _, hways.1, rfl, by decide, rfl⟩
    · rw [List.mem_singleton.1 hm]
      exact ⟨rfl, .inr rfl, _, hways.2, rfl, by decide, rfl⟩
  refine ⟨fun a h => ?_, fun r hr h m hm _ => ?_, fun r hr h => ?_, fun r hr h hl => ?_⟩
  · obtain ⟨b, h1, -⟩ := Relation.TransGen.head'_iff.1 h
    obtain ⟨c, -, h2⟩ := Relation.TransGen.tail'_iff.1 h
    have h3 := (hcon _ _ h1).1
    rw [(hcon _ _ h2).2] at h3
    exact absurd h3 (by decide)
  · rcases hrel r hr with rfl | rfl
    · obtain ⟨-, -, w, hw, hid, -⟩ := hmem m hm
      exact .inl ⟨w, hw, hid⟩
    · exact absurd h (hm6 _)
  · rcases hrel r hr with rfl | rfl
    · exact .inr (.inl ⟨hm5, hmem, by decide⟩)
    · obtain ⟨a, ha⟩ := h
      exact absurd (hcon _ _ ha).2 (by decide)
  · rcases hrel r hr with rfl | rfl
    · exact absurd hl (by decide)
    · exact absurd h (hm6 _)

/-- A site which contains a building of two parts, in which every member is a way of the file: the file is tidy. -/
example : let house : OsmXml.Relation := ⟨5, [⟨"way".toList, 7, "part".toList⟩, ⟨"way".toList, 8, "part".toList⟩], [⟨"type".toList, "building".toList⟩]⟩
    Tidy ⟨none, [], [⟨7, [1, 2, 3, 1], []⟩, ⟨8, [4, 5, 6, 4], []⟩], [house, ⟨6, [⟨"relation".toList, 5, []⟩], [⟨"type".toList, "site".toList⟩]⟩]⟩ := by
  intro house
  have hm5 : ¬ Multipolygon house := by
    rintro ⟨t, ht, -, h⟩
    rw [List.mem_singleton.1 ht] at h
    exact absurd h (by decide)
  have hm6 : ∀ ms, ¬ Multipolygon ⟨6, ms, [⟨"type".toList, "site".toList⟩]⟩ := by
    rintro ms ⟨t, ht, -, h⟩
    rw [List.mem_singleton.1 ht] at h
    exact absurd h (by decide)
  generalize hdoc : (⟨none, [], [⟨7, [1, 2, 3, 1], []⟩, ⟨8, [4, 5, 6, 4], []⟩], [house, ⟨6, [⟨"relation".toList, 5, []⟩], [⟨"type".toList, "site".toList⟩]⟩]⟩ : OsmXmlSpec.Doc) = doc
  have hrel : ∀ r ∈ doc.relations, r = house ∨ r = ⟨6, [⟨"relation".toList, 5, []⟩], [⟨"type".toList, "site".toList⟩]⟩ := by
    subst hdoc
    intro r hr
    simpa using hr
  have hways : (⟨7, [1, 2, 3, 1], []⟩ : OsmXml.Way) ∈ doc.ways ∧ (⟨8, [4, 5, 6, 4], []⟩ : OsmXml.Way) ∈ doc.ways := by
    subst hdoc
    simp
  have hcon : ∀ a b, Contains doc a b → a = 6 ∧ b = 5 := by
    rintro a b ⟨r, hr, m, hm, -, -, ha, hb, -, -, -, hw⟩
    rcases hrel r hr with rfl | rfl
    · rcases List.mem_cons.1 hm with rfl | hm
      · exact absurd rfl hw
      · rw [List.mem_singleton.1 hm] at hw
        exact absurd rfl hw
    · rw [List.mem_singleton.1 hm] at hb
      exact ⟨ha.symm, hb.symm⟩
  have hmulti : ∀ r ∈ doc.relations, ¬ Multipolygon r := by
    intro r hr
    rcases hrel r hr with rfl | rfl
    · exact hm5
    · exact hm6 _
  refine ⟨fun a h => ?_, fun r hr h => absurd h (hmulti r hr), fun r hr h => ?_, fun r hr h => absurd h (hmulti r hr)⟩
  · obtain ⟨b, h1, -⟩ := Relation.TransGen.head'_iff.1 h
    obtain ⟨c, -, h2⟩ := Relation.TransGen.tail'_iff.1 h
    have h3 := (hcon _ _ h1).1
    rw [(hcon _ _ h2).2] at h3
    exact absurd h3 (by decide)
  · rcases hrel r hr with rfl | rfl
    · refine .inr (.inr ⟨⟨hm5, _, List.mem_cons_self, rfl, rfl⟩, fun m hm => ?_⟩)
      rcases List.mem_cons.1 hm with rfl | hm
      · exact ⟨by decide, .inl ⟨rfl, _, hways.1, rfl⟩⟩
      · rw [List.mem_singleton.1 hm]
        exact ⟨by decide, .inl ⟨rfl, _, hways.2, rfl⟩⟩
    · obtain ⟨a, ha⟩ := h
      exact absurd (hcon _ _ ha).2 (by decide)

end Verif.Props
