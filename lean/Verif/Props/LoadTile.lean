import Verif.Props.LoadTileSpec
import Verif.Props.ImportRelations
import Verif.Props.Style
import Verif.Props.MapCss
import Verif.Props.QuadKeyBuilder

/-! # C98: what builders get after an OSM file was imported -/
namespace Verif.Props
open Verif.Clipper (El)
open Verif.Style (Rule Declaration Str FilterCollection)
open Verif.StyleSpec Verif.LoadTile Verif.LoadTileSpec Verif.QuadKeyBuilderSpec

namespace LoadTileProof
variable {D : Type} {senv : Style.Env D} {rules : List Rule} {fc : FilterCollection} {P : Str → Prop}

theorem toRule_rulesOf {A L : Type} (entries : List (MapCssSpec.Entry A L)) : (entries.filterMap MapCssSpec.Entry.rule?).map toRule = rulesOf entries := rfl

theorem style_of (hok : Style.build senv rules = .ok fc) (hm : Mentions rules P) {e : El} (hr : Readable senv P e) (lod : ℤ) :
    IsStyleOf senv P (Style.forElement senv fc e lod.toNat) (decls senv rules lod e) := by
  unfold decls
  split
  · rename_i ds rest h
    exact C28_identifier_partial senv rules fc hok e lod.toNat P hm hr.1.back ds rest h
  · rename_i h
    exact C28_cascade_partial senv rules fc hok e lod.toNat P hm hr.1 hr.2 h

theorem storing_eq (hok : Style.build senv rules = .ok fc) (hm : Mentions rules P) (hs : P "skip".toList) (hc : P "clip".toList) {e : El} (hr : Readable senv P e)
    (lod : ℤ) : storing senv fc e lod = wanted senv rules e lod := by
  have h := style_of hok hm hr lod
  obtain ⟨h1, -, -, h4⟩ := h
  unfold storing wanted has LoadTile.empty
  simp only [h1 _ hs, h1 _ hc]
  congr 1
  rw [Bool.eq_iff_iff, List.isEmpty_iff, decide_eq_true_eq, h4]

variable {sorted order : List (List Char) → List (List Char)}

theorem building_empty (hok : Style.build senv rules = .ok fc) (hm : Mentions rules P) {e : El} (hr : Readable senv P e) (lod : ℤ) :
    (building senv fc sorted lod e).empty = false ↔ decls senv rules lod e ≠ [] := by
  obtain ⟨-, -, -, h4⟩ := style_of hok hm hr lod
  rw [Ne, ← h4]
  simp [building, LoadTile.empty]

theorem building_mem (hsorted : ∀ l, (sorted l).Perm l) (hok : Style.build senv rules = .ok fc) (hm : Mentions rules P) {e : El} (hr : Readable senv P e) (lod : ℤ)
    (b : List Char) : b ∈ (building senv fc sorted lod e).builders ↔ ⟨"builder".toList, b⟩ ∈ decls senv rules lod e := by
  obtain ⟨-, h2, -, -⟩ := style_of hok hm hr lod
  rw [← h2]
  exact (hsorted _).mem_iff

theorem builders_nodup (e : El) (n : Nat) : (Style.forElement senv fc e n).builders.Nodup := by
  have h0 : Style.emptyStyle.builders.Nodup := by simp [Style.emptyStyle]
  unfold Style.forElement
  split
  · rename_i st h
    unfold Style.buildFromIdentifier at h
    split at h
    · cases h
    · split at h
      · cases h
      · cases h
        exact (StyleProof.fold_put senv _ _).2.2.1 h0
  · unfold Style.buildFromCondition
    rw [StyleProof.buildFromCondition_eq]
    exact (StyleProof.fold_put senv _ _).2.2.1 h0

theorem building_nodup (hsorted : ∀ l, (sorted l).Perm l) (lod : ℤ) (e : El) : (building senv fc sorted lod e).builders.Nodup :=
  (hsorted _).nodup_iff.2 (builders_nodup e _)

theorem mem_clippedIds {i : UInt64} {l : List El} : i ∈ clippedIds l ↔ ∃ ms, Element.relation i [] ms ∈ l := by
  induction l with
  | nil => simp [clippedIds]
  | cons e l ih =>
    match e with
    | .node .. => simp [clippedIds, ih]
    | .way .. => simp [clippedIds, ih]
    | .area .. => simp [clippedIds, ih]
    | .relation _ (_ :: _) _ => simp [clippedIds, ih]
    | .relation j [] ms =>
      simp only [clippedIds, List.mem_cons, ih, Element.relation.injEq, true_and]
      constructor
      · rintro (rfl | ⟨ms', h⟩)
        · exact ⟨ms, .inl ⟨rfl, rfl⟩⟩
        · exact ⟨ms', .inr h⟩
      · rintro ⟨ms', ⟨rfl, -⟩ | h⟩
        · exact .inl rfl
        · exact .inr ⟨ms', h⟩

theorem distinct_perm {lod : ℤ} {l l' : List El} (h : l.Perm l') (hd : DistinctIds senv rules lod l) : DistinctIds senv rules lod l' := by
  have hp := h.flatMap_right (f := parts)
  refine ⟨(hp.pairwise_iff ?_).1 hd.1, fun e he h1 h2 h3 => hd.2 e (hp.mem_iff.2 he) h1 h2 ?_⟩
  · intro a b hab h1 h2 h3
    exact (hab h2 h1 h3.symm).symm
  · obtain ⟨ms, h4⟩ := mem_clippedIds.1 h3
    exact mem_clippedIds.2 ⟨ms, h.mem_iff.2 h4⟩

/-- What the builders get for the elements which were found. -/
theorem build_found (hsorted : ∀ l, (sorted l).Perm l) (hok : Style.build senv rules = .ok fc) (hm : Mentions rules P) {lod : ℤ} {found : List El}
    (hr : ∀ e ∈ found.flatMap parts, Readable senv P e) (hd : DistinctIds senv rules lod found) (b : List Char) :
    visited b (QuadKeyBuilder.build (building senv fc sorted lod) order found) = buildWith senv rules lod b found := by
  rw [C26_exactly_partial (hstyle := building_nodup hsorted lod)]
  · unfold buildWith
    refine List.filter_congr fun e he => ?_
    rw [Bool.eq_iff_iff, Bool.and_eq_true, decide_eq_true_eq, decide_eq_true_eq, building_mem hsorted hok hm (hr e he), Bool.not_eq_true',
      building_empty hok hm (hr e he)]
    exact ⟨fun h => h.2, fun h => ⟨List.ne_nil_of_mem h, h⟩⟩
  · refine (List.Pairwise.and_mem.1 hd.1).imp ?_
    rintro a e ⟨ha, he, h⟩ h1 h2 h3
    exact h ((building_empty hok hm (hr a ha) lod).1 h1) ((building_empty hok hm (hr e he) lod).1 h2) (.inr h3)
  · intro e he h1 h2
    exact hd.2 e he ((building_empty hok hm (hr e he) lod).1 h1) h2

/-- Loading a tile of stores which find these elements. -/
theorem load_found {K S Q : Type} [LinearOrder K] (I : GeoStore.Iface S El Q) {m : GeoStore.Map K S} {q : QuadKey} {found l : List El}
    (hf : (GeoStore.step I m (.tile q)).2 = .elements found) (hp : found.Perm l)
    (hsorted : ∀ l, (sorted l).Perm l) (horder : ∀ l, (order l).Perm l) (hok : Style.build senv rules = .ok fc) (hm : Mentions rules P)
    (hr : ∀ e ∈ l.flatMap parts, Readable senv P e) (hd : DistinctIds senv rules q.lod l) :
    ∃ t, loadTile I senv fc sorted order m q = .ok t ∧ ∀ b, LifeCycle b t ∧ (visited b t).Perm (buildWith senv rules q.lod b l) := by
  have hpp := hp.flatMap_right (f := parts)
  refine ⟨QuadKeyBuilder.build (building senv fc sorted q.lod) order found, by simp only [loadTile, hf], fun b => ⟨C26_life_cycle _ _ (building_nodup hsorted q.lod) horder _ b, ?_⟩⟩
  rw [build_found hsorted hok hm (fun e he => hr e (hpp.mem_iff.1 he)) (distinct_perm hp.symm hd)]
  exact hpp.filter _

theorem seen_congr {eng : Clipper.Engine} {target : Import.Target} {q : QuadKey} {s s' : El → ℤ → ElementStore.StyleInfo} {e : El} (h : s e q.lod = s' e q.lod) :
    ImportSpec.seen eng s target q e = ImportSpec.seen eng s' target q e := by
  unfold ImportSpec.seen
  rw [h]

end LoadTileProof

open LoadTileProof
open Verif.ImportSpec Verif.ImportRelationsSpec Verif.GeoStoreSpec
open Verif.OsmXmlSpec (Doc Head PrintsBody)
open GeoStoreProof

/-- C98 (partial): a stylesheet and an OSM file are read, the file is imported, and a tile is loaded. Then every builder gets exactly the elements of the stores and of
the file which are to be seen in the tile and for which the rules of the stylesheet name this builder. Missing: ids which are there twice (`C26_violated_same_id`), and what
C97 leaves open. -/
theorem C98_load_partial {K A L D : Type} [LinearOrder K] (T : MapCss.Tools A L) {css g : List Char} {entries : List (MapCssSpec.Entry A L)}
    (hcss : MapCssSpec.Reads T css g entries) (hg : MapCssSpec.Gap g) (senv : Style.Env D) (hacc : (Style.build senv (rulesOf entries)).isOk = true)
    {P : Str → Prop} (hm : Mentions (rulesOf entries) P) (hskip : P "skip".toList) (hclip : P "clip".toList)
    (env : Import.Env) (hsort : OsmSpec.Sorts env.sort) (tokens : El → List UInt32) {m : GeoStore.Map K (MemStore.Store El)}
    {B : Stores K (MemStore.Store El)} (hB : Abs m B) (hu : Used tokens B) {k : K} {s : MemStore.Store El} (hk : B k = some s) {target : Import.Target} (ht : Sensible target)
    {h w u : List Char} {d : Doc} (hh : Head h) (hw : PrintsBody d w) (hf : ∃ v, w = '<' :: v) (hb : d.bounds ≠ none ∨ d.nodes ≠ []) (hd : Sound d)
    (hr : (d.relations.map (·.id)).Nodup) :
    ∃ fc, (∃ depth, ∀ n ≥ depth, openSheet T senv n css = .ok fc) ∧
      ∃ x, Describes env.eps (fun s => senv.getId s.toList) d x ∧ (ResolveSpec.Sound (withSheet env senv fc).resolver x →
        ∃ es, List.Forall₂ (fun key e => ResolveSpec.Becomes (withSheet env senv fc).resolver x (.old key) e) (ResolveSpec.All x) es ∧ ((∀ e ∈ es, Readable senv P e) →
          ∀ order : List UInt64 → List UInt64, (∀ l, (order l).Perm l) → ∃ N, ∀ n ≥ N,
            ∃ m', Import.importXml (GeoStore.memIface tokens) { withSheet env senv fc with order := order, stack := n } m k target (h ++ (w ++ u)) = (m', .done) ∧
              ∀ q, ∃ old, (GeoStore.step (GeoStore.memIface tokens) m (.tile q)).2 = .elements old ∧
                ∀ l, l = old ++ es.filterMap (seen env.eng (wanted senv (rulesOf entries)) target q) →
                  (∀ e ∈ l.flatMap parts, Readable senv P e) → DistinctIds senv (rulesOf entries) q.lod l →
                  ∀ sorted order : List (List Char) → List (List Char), (∀ l, (sorted l).Perm l) → (∀ l, (order l).Perm l) →
                    ∃ t, loadTile (GeoStore.memIface tokens) senv fc sorted order m' q = .ok t ∧
                      ∀ b, LifeCycle b t ∧ (visited b t).Perm (buildWith senv (rulesOf entries) q.lod b l))) := by
  obtain ⟨fc, hok⟩ : ∃ fc, Style.build senv (rulesOf entries) = .ok fc := by
    cases hx : Style.build senv (rulesOf entries) with
    | ok fc => exact ⟨fc, rfl⟩
    | throw e => rw [hx] at hacc; cases hacc
    | ub e => rw [hx] at hacc; cases hacc
  obtain ⟨depth, hdepth⟩ := C60_parse_partial T css g entries hcss hg
  refine ⟨fc, ⟨depth, fun n hn => ?_⟩, ?_⟩
  · obtain ⟨sheet, h1, h2⟩ := hdepth n hn
    rw [openSheet, h1]
    simp only [Outcome.bind]
    rw [h2.1, toRule_rulesOf, hok]
  obtain ⟨x, hx, himp⟩ := C97_import_partial (withSheet env senv fc) hsort tokens hB hu hk ht (u := u) hh hw hf hb hd hr
  refine ⟨x, hx, fun hsound => ?_⟩
  obtain ⟨es, h1, h2⟩ := himp hsound
  refine ⟨es, h1, fun hread order hord => ?_⟩
  obtain ⟨N, hN⟩ := h2 order hord
  refine ⟨N, fun n hn => ?_⟩
  obtain ⟨m', s', a1, -, -, a4⟩ := hN n hn
  refine ⟨m', a1, fun q => ?_⟩
  obtain ⟨old, new, b1, b2, b3⟩ := a4 q
  refine ⟨old, b1, fun l hl hreadl hdis sorted order' hsorted horder => ?_⟩
  refine load_found _ b2 ?_ hsorted horder hok hm hreadl hdis
  rw [hl]
  refine b3.trans (List.Perm.of_eq ?_)
  congr 1
  refine List.filterMap_congr fun e he => seen_congr (storing_eq hok hm hskip hclip (hread e he) q.lod)

namespace LoadTileProof.Sample
open MapCssSpec MapCssExample

/-- `node|z1-16[a=b]{builder:c;}` -/
def css : List Char := ['n', 'o', 'd', 'e', '|', 'z', '1', '-', '1', '6', '[', 'a', '=', 'b', ']', '{', 'b', 'u', 'i', 'l', 'd', 'e', 'r', ':', 'c', ';', '}']

def rule : MapCss.Rule := ⟨[⟨[['n', 'o', 'd', 'e']], ⟨1, 16⟩, [⟨['a'], ['='], ['b']⟩]⟩], [⟨['b', 'u', 'i', 'l', 'd', 'e', 'r'], ['c']⟩]⟩

theorem rule_prints : PrintsRule rule css :=
  .mk _ ['n', 'o', 'd', 'e', '|', 'z', '1', '-', '1', '6', '[', 'a', '=', 'b', ']'] ⟨['b', 'u', 'i', 'l', 'd', 'e', 'r'], ['c']⟩
    ['b', 'u', 'i', 'l', 'd', 'e', 'r', ':', 'c', ';'] [] [] [] []
    (.mk _ _ [] [] (.elements [] ['n', 'o', 'd', 'e'] [] [] ⟨1, 16⟩ ['|', 'z', '1', '-', '1', '6'] ⟨['a'], ['='], ['b']⟩ ['[', 'a', '=', 'b', ']'] [] [] .nil
      (by simp [ElementName]) .nil zoom_prints condition_prints .nil) .nil)
    ⟨[], [], .nil, .nil, ⟨⟨'b', _, rfl, by decide⟩, by decide⟩, word _ _ (by decide) (by decide) (by decide), rfl⟩ .nil .nil .nil

theorem reads : Reads tools css [] [.rule rule] := by
  have := Reads.rule (T := tools) rule css [] [] [] rule_prints (.done [])
  rwa [List.append_nil] at this

/-- The strings which have a number. -/
def table : List Str := [['a'], ['b'], "builder".toList, "skip".toList, "clip".toList, "type".toList, "multipolygon".toList, "building".toList]

/-- A string table; the numbers do not matter. -/
def strings : Style.Env Nat := ⟨fun s => UInt32.ofNat (table.idxOf s), fun i => table.getD i.toNat [], fun s => s.length, fun a b => decide (a < b), fun _ => none⟩

/-- A file with a node which has the tag of the rule. -/
def doc : Doc := ⟨none, [⟨1, 0, 0, [⟨['a'], ['b']⟩]⟩], [], []⟩

def node : El := .node 1 [⟨0, 1⟩] ⟨0, 0⟩

theorem id_a : strings.getId "a".toList = 0 := by decide
theorem id_b : strings.getId "b".toList = 1 := by decide

theorem mentions : Mentions (rulesOf (A := Unit) (L := Unit) [.rule rule]) (· ∈ table) := by
  simp only [Mentions, rulesOf, rule, MapCssSpec.Entry.rule?]
  decide

theorem accepted : (Style.build strings (rulesOf (A := Unit) (L := Unit) [.rule rule])).isOk = true := by
  rfl

theorem back : ∀ s ∈ table, strings.getString (strings.getId s) = s := by decide

theorem readable : Readable strings (· ∈ table) node := by
  refine ⟨⟨back, ?_⟩, by simp [node, Element.tags], ?_⟩
  · intro t ht _ _
    simp only [node, Element.tags, List.mem_singleton] at ht
    subst ht
    decide
  · intro k _ a ha b hb _ _
    simp only [node, Element.tags, List.mem_singleton] at ha hb
    rw [ha, hb]

theorem node_decls : decls strings (rulesOf (A := Unit) (L := Unit) [.rule rule]) 1 node = [⟨"builder".toList, ['c']⟩] := by
  have h : idRules strings (1 : ℤ).toNat node.id (rulesOf (A := Unit) (L := Unit) [.rule rule]) = [] := by decide
  have ha : Applies strings (1 : ℤ).toNat node.tags ⟨[['n', 'o', 'd', 'e']], ⟨1, 16⟩, [⟨['a'], ['='], ['b']⟩]⟩ := by
    refine ⟨by unfold InZoom; decide, fun c hc => ?_⟩
    rw [List.mem_singleton.1 hc]
    exact ⟨⟨0, 1⟩, by simp [node, Element.tags], by decide, .inr (.inl ⟨rfl, by decide⟩)⟩
  have hk : kindName (Style.kindOfElement node) = ['n', 'o', 'd', 'e'] := rfl
  unfold decls
  rw [h]
  simp only [declared, applied, rulesOf, rule, MapCssSpec.Entry.rule?, List.filterMap_cons, List.filterMap_nil, List.map_cons, List.map_nil, List.flatMap_cons, List.flatMap_nil,
    List.append_nil]
  rw [if_pos ⟨hk.symm, ha⟩]
  rfl

theorem prints : PrintsBody doc (OsmXmlProof.nodeWith ['b'] ++ "</osm>".toList) := by
  have h1 : PrintsBody doc ([] ++ ((OsmXmlProof.nodeWith ['b'] ++ []) ++ ([] ++ ([] ++ "</osm>".toList)))) :=
    OsmXmlProof.seq .nil (OsmXmlProof.seq (.cons _ [] _ [] (OsmXmlProof.nodeWith_prints (by decide)) .nil) (OsmXmlProof.seq .nil
      (OsmXmlProof.seq .nil (OsmXmlProof.token_plain _))))
  simpa using h1

theorem described {eps : ℝ} {x : Resolve.Data ℝ} (h : Describes eps (fun s => strings.getId s.toList) doc x) :
    x.relations = [] ∧ ∃ n : Osm.Node ℝ, x.ctx.nodeMap = [(1, n)] ∧ n.tags = [⟨0, 1⟩] ∧ n.coordinate = ⟨0, 0⟩ ∧ x.ctx.wayMap = [] ∧ x.ctx.areaMap = [] := by
  obtain ⟨⟨els, h1, h2⟩, rs, h3, h4⟩ := h
  constructor
  · simp only [doc] at h3
    cases h3
    exact (List.nil_perm.1 h4)
  · simp only [doc, ImportSpec.items, List.map_cons, List.map_nil, List.append_nil] at h1
    cases h1 with
    | @cons _ e _ l he hl =>
      cases hl
      have hp : plain x = [e] := (List.singleton_perm.1 h2).symm
      obtain ⟨tags, ht, rfl⟩ := he
      have ht' : tags = [⟨0, 1⟩] := by
        have := ht.1
        simp only [List.map_cons, List.map_nil] at this
        exact List.perm_singleton.1 this
      subst ht'
      unfold plain at hp
      cases hn : x.ctx.nodeMap with
      | nil =>
        rw [hn] at hp
        cases hw : x.ctx.wayMap with
        | nil =>
          rw [hw] at hp
          cases ha : x.ctx.areaMap with
          | nil => rw [ha] at hp; simp at hp
          | cons a l => rw [ha] at hp; simp at hp
        | cons w l => rw [hw] at hp; simp at hp
      | cons n l =>
        rw [hn] at hp
        simp only [List.map_cons, List.cons_append, List.cons.injEq, Element.node.injEq, List.append_eq_nil_iff, List.map_eq_nil_iff] at hp
        obtain ⟨⟨a1, a2, a3⟩, ⟨a4, a5⟩, a6⟩ := hp
        obtain ⟨i, n⟩ := n
        simp only at a1 a2 a3
        subst a1
        refine ⟨n, by rw [a4]; rfl, a2, ?_, a5, a6⟩
        rw [a3]
        simp [place]

theorem sound {env : Resolve.Env ℝ} (henv : env.getId = fun s => strings.getId s.toList) {x : Resolve.Data ℝ} (h : x.relations = [] ∧ ∃ n : Osm.Node ℝ, x.ctx.nodeMap = [(1, n)] ∧
    n.tags = [⟨0, 1⟩] ∧ n.coordinate = ⟨0, 0⟩ ∧ x.ctx.wayMap = [] ∧ x.ctx.areaMap = []) : ResolveSpec.Sound env x := by
  obtain ⟨h0, n, h1, -, -, h2, h3⟩ := h
  have hf : ∀ a b, ¬ ResolveSpec.Follows env.getId x a b := by
    rintro a b ⟨own, ms, m', hf, -⟩
    simp [h0, Assoc.find] at hf
  refine ⟨by simp [h1], by simp [h2], by simp [h3], by simp [h0], ?_, by simp [h0], ?_, by simp [h0], ?_, by simp [h0]⟩
  · intro a ha
    obtain ⟨b, -, hb⟩ := Relation.TransGen.tail'_iff.1 ha
    exact hf _ _ hb
  · rw [henv]
    decide
  · intro a b own ms h4
    exact absurd h4 (hf _ _)

theorem becomes {env : Resolve.Env ℝ} {x : Resolve.Data ℝ} (h : x.relations = [] ∧ ∃ n : Osm.Node ℝ, x.ctx.nodeMap = [(1, n)] ∧
    n.tags = [⟨0, 1⟩] ∧ n.coordinate = ⟨0, 0⟩ ∧ x.ctx.wayMap = [] ∧ x.ctx.areaMap = []) {es : List El}
    (he : List.Forall₂ (fun key e => ResolveSpec.Becomes env x (.old key) e) (ResolveSpec.All x) es) : es = [node] := by
  obtain ⟨h0, n, h1, h4, h5, h2, h3⟩ := h
  simp only [ResolveSpec.All, h0, h1, h2, h3, List.map_nil, List.map_cons, List.nil_append, List.append_nil] at he
  cases he with
  | cons hb hl =>
    cases hl
    cases hb with
    | @node _ n' hf =>
      simp only [h1, Assoc.find, if_true, Option.some.injEq] at hf
      subst hf
      simp [node, h4, h5, ResolveSpec.marks, ResolveSpec.times, h0]

theorem node_seen (eng : Clipper.Engine) {style : El → ℤ → ElementStore.StyleInfo} (h : style node 1 = ⟨false, false, false⟩) :
    seen eng style (.range ⟨1, 1⟩) ⟨1, 1, 1⟩ node = some node := by
  unfold seen
  rw [if_pos]
  · simp [h]
  · refine ⟨⟨le_rfl, le_rfl⟩, by rw [h]; exact ⟨rfl, rfl⟩, ⟨by unfold TilesSpec.Valid; decide, ⟨0, 0⟩, ?_, ?_⟩⟩
    · intro b hb
      exact hb _ (by simp [node, ClipperSpec.points, ClipperSpec.leaves, ClipperSpec.coords])
    · have e0 : Mercator.tileYToLat 1 1 = 0 := by
        simp only [Mercator.tileYToLat, Mercator.sinh_half]; norm_num
      have e1 : Mercator.tileYToLat 2 1 < 0 := by
        rw [Mercator.tileYToLat_lt_iff (by norm_num)]
        have h2 := Mercator.row_tileYToLat 1 1
        rw [e0] at h2
        rw [h2]; norm_num
      simp only [MercatorSpec.Owns, Mercator.tileBox]
      refine ⟨by simp only [Mercator.tileXToLon]; norm_num, .inl (by simp only [Mercator.tileXToLon]; norm_num), by rw [e0], .inl ?_⟩
      simpa using e1

end LoadTileProof.Sample
open LoadTileProof.Sample

/-- A stylesheet with one rule and a file with one node: `C98_load_partial` tells that the builder `c` gets the node, in the tile of the first level where it is. -/
example (tokens : El → List UInt32) (env : Import.Env) (hsort : OsmSpec.Sorts env.sort) (hord : ∀ l, (env.order l).Perm l) :
    ∃ fc depth m stack, openSheet MapCssExample.tools strings depth css = .ok fc ∧
      Import.importXml (GeoStore.memIface tokens) { withSheet env strings fc with stack := stack } (GeoStore.step (GeoStore.memIface tokens) GeoStore.init (.register 5 MemStore.init)).1 5
        (.range ⟨1, 1⟩) (OsmXmlProof.start ++ (OsmXmlProof.nodeWith ['b'] ++ "</osm>".toList)) = (m, .done) ∧
      ∃ t, loadTile (GeoStore.memIface tokens) strings fc id id m ⟨1, 1, 1⟩ = .ok t ∧ visited ['c'] t = [node] := by
  let A : Stores Nat (MemStore.Store El) := fun k => if k = 5 then some MemStore.init else none
  have hA : Abs (GeoStore.step (GeoStore.memIface tokens) GeoStore.init (.register 5 MemStore.init)).1 A := by
    refine ⟨by simp [GeoStore.step, GeoStore.init, GeoStore.emplace], ?_⟩
    intro k p
    simp only [GeoStore.step, GeoStore.init, GeoStore.emplace, List.mem_singleton, Prod.mk.injEq, A]
    constructor
    · rintro ⟨rfl, rfl⟩; exact ⟨_, rfl, by simp⟩
    · rintro ⟨s, rfl, h⟩
      split at h
      · exact ⟨by assumption, by rw [h]⟩
      · cases h
  have hu : Used tokens A := by
    intro k s h
    simp only [A] at h
    split at h
    · exact ⟨[], (Option.some.inj h).symm⟩
    · cases h
  obtain ⟨fc, ⟨depth, h1⟩, x, hx, h2⟩ := C98_load_partial MapCssExample.tools reads .nil strings accepted mentions (by decide) (by decide) env hsort tokens hA hu (k := 5)
    (s := MemStore.init) (by simp [A]) (target := .range ⟨1, 1⟩) ⟨by decide, by decide⟩ (h := OsmXmlProof.start) (u := []) (OsmXmlProof.start_head (p := []) (.inl rfl) OsmXmlProof.clean_nil)
    prints ⟨_, rfl⟩ (.inr (by simp [doc])) ⟨by simp [doc], by simp [doc], by intro w hw; simp [doc] at hw, by
      intro n hn
      simp only [doc, List.mem_singleton] at hn
      subst hn
      norm_num [BboxSpec.OnGlobe, place]⟩ (by simp [doc])
  have hdes := described hx
  obtain ⟨es, h3, h4⟩ := h2 (sound rfl hdes)
  have hes := becomes hdes h3
  subst hes
  obtain ⟨N, h5⟩ := h4 (by intro e he; rw [List.mem_singleton.1 he]; exact readable) env.order hord
  obtain ⟨m', h6, h7⟩ := h5 N le_rfl
  obtain ⟨old, h8, h9⟩ := h7 ⟨1, 1, 1⟩
  have hold : old = [] := by
    have : (GeoStore.step (GeoStore.memIface tokens) (GeoStore.step (GeoStore.memIface tokens) GeoStore.init (.register 5 MemStore.init)).1 (.tile ⟨1, 1, 1⟩)).2 = .elements [] := rfl
    rw [this] at h8
    cases h8
    rfl
  subst hold
  have hw : wanted strings (rulesOf (A := Unit) (L := Unit) [.rule Sample.rule]) node 1 = ⟨false, false, false⟩ := by
    unfold wanted
    rw [node_decls]
    decide
  obtain ⟨t, h10, h11⟩ := h9 [node] (by simp [node_seen env.eng hw]) (by
      intro e he
      have : e = node := by simpa [parts, node] using he
      rw [this]
      exact readable) ⟨by simp [parts, node], by
      intro e he
      have : e = node := by simpa [parts, node] using he
      rw [this]
      simp [node, clippedIds]⟩ id id (fun _ => .refl _) (fun _ => .refl _)
  refine ⟨fc, depth, m', N, h1 depth le_rfl, by simpa [withSheet] using h6, t, h10, ?_⟩
  have h12 := (h11 ['c']).2
  have : buildWith strings (rulesOf (A := Unit) (L := Unit) [.rule Sample.rule]) 1 ['c'] [node] = [node] := by
    have hp : ([node] : List El).flatMap parts = [node] := rfl
    unfold buildWith
    rw [hp, List.filter_cons, if_pos]
    · rfl
    · rw [node_decls]
      decide
  rw [this] at h12
  exact List.perm_singleton.1 h12

end Verif.Props
