import Verif.Props.Import
import Verif.Props.Resolve
import Verif.Props.ImportRelationsSpec

/-! # C97: importing OSM files with relations -/
namespace Verif.Props
open Verif.Import Verif.ImportSpec Verif.ImportRelationsSpec
open Verif.Clipper (El)
open Verif.OsmXml (parse Event)
open Verif.OsmXmlSpec (Doc Head PrintsBody events)
open Verif.OsmStream (Entry Added visitAll added)
open Verif.ElementStoreSpec Verif.BboxSpec
open Verif.GeoStore (memIface)
open Verif.GeoStoreSpec (Stores update)
open GeoStoreProof

namespace ImportRelationsProof
open ImportProof Verif.Multipolygon

/-! ## The areas of a multipolygon are made of the places of its lines -/

section
variable {C : Type} {P : C → Prop}

def On (P : C → Prop) (s : Seq C) : Prop := ∀ c ∈ s.coordinates, P c

theorem tryAdd_on {eq : C → C → Bool} {a b r : Seq C} (ha : On P a) (hb : On P b) (h : tryAdd eq a b = some r) : On P r := by
  unfold tryAdd at h
  intro c hc
  repeat' split at h
  all_goals first | (cases h; done) | skip
  all_goals
    cases h
    simp only [List.mem_append, List.mem_reverse] at hc
    rcases hc with hc | hc
    · first | exact ha c (List.dropLast_subset _ hc) | exact hb c hc
    · first | exact hb c hc | exact ha c (List.mem_of_mem_tail hc)

theorem extend_on {eq : C → C → Bool} (ss : List (Seq C)) : ∀ {ring r : Seq C} {rest : List (Seq C)}, On P ring → (∀ s ∈ ss, On P s) → Multipolygon.extend eq ring ss = some (r, rest) →
    On P r ∧ ∀ s ∈ rest, On P s := by
  induction ss with
  | nil => intro ring r rest _ _ h; cases h
  | cons s ss ih =>
    intro ring r rest hr hs h
    unfold Multipolygon.extend at h
    cases ht : tryAdd eq ring s with
    | some a =>
      rw [ht] at h
      cases h
      exact ⟨tryAdd_on hr (hs s (by simp)) ht, fun x hx => hs x (by simp [hx])⟩
    | none =>
      rw [ht] at h
      simp only [Option.map_eq_some_iff] at h
      obtain ⟨⟨a, b⟩, h1, h2⟩ := h
      cases h2
      obtain ⟨g1, g2⟩ := ih hr (fun x hx => hs x (by simp [hx])) h1
      refine ⟨g1, fun x hx => ?_⟩
      rcases List.mem_cons.1 hx with rfl | hx
      · exact hs _ (by simp)
      · exact g2 x hx

theorem closeRing_on {eq : C → C → Bool} {ring : Seq C} {closed : List (Seq C)} (hr : On P ring) (hc : ∀ s ∈ closed, On P s) :
    (∀ s ∈ (closeRing eq ring closed).1, On P s) ∧ ∀ s, (closeRing eq ring closed).2 = some s → On P s := by
  unfold closeRing
  split
  · refine ⟨fun s hs => ?_, by simp⟩
    simp only [List.mem_append, List.mem_singleton] at hs
    rcases hs with hs | rfl
    · exact hc s hs
    · exact hr
  · exact ⟨hc, fun s h => by cases h; exact hr⟩

theorem ringLoop_on {eq : C → C → Bool} (n : Nat) : ∀ {ss closed : List (Seq C)} {cur : Option (Seq C)}, (∀ s ∈ ss, On P s) → (∀ s ∈ closed, On P s) →
    (∀ s, cur = some s → On P s) → ∀ s ∈ ringLoop eq n ss closed cur, On P s := by
  induction n with
  | zero => intro ss closed cur _ hc _; exact hc
  | succ n ih =>
    intro ss closed cur hs hc hr
    unfold ringLoop
    cases cur with
    | none =>
      simp only
      cases hl : ss.getLast? with
      | none => exact hc
      | some a =>
        have := closeRing_on (eq := eq) (hs a (List.mem_of_getLast? hl)) hc
        exact ih (fun s h => hs s (List.dropLast_subset _ h)) this.1 this.2
    | some ring =>
      simp only
      split
      · exact hc
      · cases he : Multipolygon.extend eq ring ss with
        | none => simp
        | some x =>
          obtain ⟨r, rest⟩ := x
          obtain ⟨g1, g2⟩ := extend_on ss (hr _ rfl) hs he
          have := closeRing_on (eq := eq) g1 hc
          exact ih g2 this.1 this.2

theorem insert_on {eq : C → C → Bool} {cw : List C → Bool} {l : List C} {b : Bool} (h : ∀ c ∈ l, P c) : ∀ c ∈ insertCoordinates eq cw l b, P c := by
  intro c hc
  unfold insertCoordinates at hc
  simp only at hc
  repeat' split at hc
  · exact h c (List.dropLast_subset _ hc)
  · exact h c hc
  · exact h c (List.mem_reverse.1 (List.mem_of_mem_tail hc))
  · exact h c (List.mem_reverse.1 hc)

theorem findOuter_mem {contains : List C → List C → Bool} (post : List (Seq C)) : ∀ {pre rest : List (Seq C)} {o : Seq C}, findOuter contains pre post = some (o, rest) →
    (o ∈ pre ++ post) ∧ ∀ s ∈ rest, s ∈ pre ++ post := by
  induction post with
  | nil => intro pre rest o h; cases h
  | cons c post ih =>
    intro pre rest o h
    unfold findOuter at h
    split at h
    · have := ih h; simpa [List.append_assoc] using this
    · cases h
      refine ⟨by simp, fun s hs => ?_⟩
      simp only [List.mem_append, List.mem_cons] at hs ⊢
      tauto

theorem findInners_mem {contains : List C → List C → Bool} {o : Seq C} (post : List (Seq C)) : ∀ {pre : List (Seq C)},
    (∀ s ∈ (findInners contains o pre post).1, s ∈ pre ++ post) ∧ ∀ s ∈ (findInners contains o pre post).2, s ∈ pre ++ post := by
  induction post with
  | nil => intro pre; simp [findInners]
  | cons c post ih =>
    intro pre
    unfold findInners
    split
    · obtain ⟨h1, h2⟩ := ih (pre := pre)
      refine ⟨fun s hs => ?_, fun s hs => ?_⟩
      · rcases List.mem_cons.1 hs with rfl | hs
        · simp
        · have := h1 s hs
          simp only [List.mem_append, List.mem_cons] at this ⊢
          tauto
      · have := h2 s hs
        simp only [List.mem_append, List.mem_cons] at this ⊢
        tauto
    · obtain ⟨h1, h2⟩ := ih (pre := pre ++ [c])
      simp only [List.append_assoc, List.singleton_append] at h1 h2
      exact ⟨h1, h2⟩

theorem fillLoop_on {eq : C → C → Bool} {cw : List C → Bool} {contains : List C → List C → Bool} (n : Nat) : ∀ {rings : List (Seq C)} {areas : List (NewArea C)},
    (∀ s ∈ rings, On P s) → fillLoop eq cw contains n rings = .ok areas → ∀ a ∈ areas, ∀ c ∈ a.coordinates, P c := by
  induction n with
  | zero =>
    intro rings areas _ h
    cases rings with
    | nil => simp only [fillLoop, Outcome.ok.injEq] at h; subst h; simp
    | cons => simp [fillLoop] at h
  | succ n ih =>
    intro rings areas hr h
    cases rings with
    | nil => simp only [fillLoop, Outcome.ok.injEq] at h; subst h; simp
    | cons r rings =>
      unfold fillLoop at h
      cases ho : findOuter contains [] (r :: rings) with
      | none => rw [ho] at h; cases h
      | some x =>
        obtain ⟨o, rest⟩ := x
        rw [ho] at h
        obtain ⟨g1, g2⟩ := findOuter_mem _ ho
        obtain ⟨i1, i2⟩ := findInners_mem (contains := contains) (o := o) rest (pre := [])
        simp only at h
        cases hf : fillLoop eq cw contains n (findInners contains o [] rest).2 with
        | throw e => rw [hf] at h; cases h
        | ub e => rw [hf] at h; cases h
        | ok more =>
          rw [hf] at h
          simp only [Outcome.bind, Outcome.ok.injEq] at h
          subst h
          have hin : ∀ s ∈ rest, On P s := fun s hs => hr s (by simpa using g2 s hs)
          intro a ha
          simp only [List.cons_append, List.mem_cons, List.mem_append, List.mem_map] at ha
          rcases ha with rfl | ⟨i, hi, rfl⟩ | ha
          · exact insert_on (hr o (by simpa using g1))
          · exact insert_on (hin i (by simpa using i1 i hi))
          · exact ih (fun s hs => hin s (by simpa using i2 s hs)) hf a ha

theorem complexCase_on {eq : C → C → Bool} {cw : List C → Bool} {contains : List C → List C → Bool} {ss : List (Seq C)} {areas : List (NewArea C)} (h : ∀ s ∈ ss, On P s)
    (hc : complexCase eq cw contains ss = .ok areas) : ∀ a ∈ areas, ∀ c ∈ a.coordinates, P c :=
  fillLoop_on _ (ringLoop_on _ h (by simp) (by simp)) hc

theorem collect_on (ms : List (Multipolygon.Member C)) : ∀ {l : List (Bool × Seq C)}, (∀ m ∈ ms, ∀ cs, (m.found = .way cs ∨ m.found = .area cs) → ∀ c ∈ cs, P c) →
    Multipolygon.collect ms = .ok (some l) → ∀ s ∈ l, On P s.2 := by
  induction ms with
  | nil => intro l _ h; simp only [Multipolygon.collect, Outcome.ok.injEq, Option.some.injEq] at h; subst h; simp
  | cons m ms ih =>
    intro l hm h
    unfold Multipolygon.collect at h
    cases hc : memberCoordinates m.found with
    | throw e => rw [hc] at h; cases h
    | ub e => rw [hc] at h; cases h
    | ok r =>
      rw [hc] at h
      simp only [Outcome.bind] at h
      cases r with
      | none => simp at h
      | some cs =>
        have hcs : ∀ c ∈ cs, P c := by
          cases hf : m.found with
          | way l => rw [hf] at hc; cases hc; exact hm m (by simp) _ (.inl hf)
          | relation => rw [hf] at hc; cases hc; simp
          | missing => rw [hf] at hc; cases hc
          | area l =>
            rw [hf] at hc
            cases l with
            | nil => cases hc
            | cons a l =>
              cases hc
              have := hm m (by simp) _ (.inr hf)
              intro c hc
              simp only [List.cons_append, List.mem_cons, List.mem_append, List.not_mem_nil, or_false] at hc
              rcases hc with rfl | hc | rfl
              · exact this _ (by simp)
              · exact this _ (by simp [hc])
              · exact this _ (by simp)
        simp only at h
        cases hr : Multipolygon.collect ms with
        | throw e => rw [hr] at h; cases h
        | ub e => rw [hr] at h; cases h
        | ok o =>
          rw [hr] at h
          simp only [Outcome.ok.injEq] at h
          cases o with
          | none => simp at h
          | some rest =>
            have ih' := ih (fun m' hm' => hm m' (by simp [hm'])) hr
            simp only [Option.map_some, Option.some.injEq] at h
            subst h
            intro s hs
            repeat' split at hs
            · exact ih' s hs
            · rcases List.mem_cons.1 hs with rfl | hs
              · exact hcs
              · exact ih' s hs
            · rcases List.mem_cons.1 hs with rfl | hs
              · exact hcs
              · exact ih' s hs
            · exact ih' s hs

theorem process_on {eq : C → C → Bool} {cw : List C → Bool} {contains : List C → List C → Bool} {ms : List (Multipolygon.Member C)} {areas : List (NewArea C)}
    (hm : ∀ m ∈ ms, ∀ cs, (m.found = .way cs ∨ m.found = .area cs) → ∀ c ∈ cs, P c) (h : process eq cw contains ms = .ok areas) :
    ∀ a ∈ areas, ∀ c ∈ a.coordinates, P c := by
  unfold process at h
  cases hc : Multipolygon.collect ms with
  | throw e => rw [hc] at h; cases h
  | ub e => rw [hc] at h; cases h
  | ok r =>
    rw [hc] at h
    simp only [Outcome.bind] at h
    cases r with
    | none => simp only [Outcome.ok.injEq] at h; subst h; simp
    | some ss =>
      have hon := collect_on ms hm hc
      have hall : ∀ s ∈ ss.map (·.2), On P s := by
        intro s hs
        obtain ⟨x, hx, rfl⟩ := List.mem_map.1 hs
        exact hon x hx
      simp only at h
      split at h
      · rename_i outer ho
        split at h
        · simp only [Outcome.ok.injEq] at h
          subst h
          intro a ha
          simp only [simpleCase, List.mem_cons, List.mem_map] at ha
          have hout : On P outer := by
            have : outer ∈ (ss.filter (·.1)).map (·.2) := by rw [ho]; simp
            obtain ⟨x, hx, rfl⟩ := List.mem_map.1 this
            exact hon x (List.mem_filter.1 hx).1
          rcases ha with rfl | ⟨i, ⟨x, hx, rfl⟩, rfl⟩
          · exact insert_on hout
          · exact insert_on (hon x (List.mem_filter.1 hx).1)
        · exact complexCase_on hall h
      · exact complexCase_on hall h

end

/-! ## The relations which are remembered -/

/-- How a relation is remembered. -/
def stored (env : Env) (r : OsmXml.Relation) : UInt64 × List Tag × List Resolve.Member :=
  (UInt64.ofNat r.id, Osm.convertTags env.getId env.sort (r.tags.map rawTag), r.members.map member)

theorem fold_stored (env : Env) (rs : List OsmXml.Relation) : ∀ m : Assoc UInt64 (List Tag × List Resolve.Member),
    (rs.map fun r => UInt64.ofNat r.id).Nodup → (∀ r ∈ rs, m.find (UInt64.ofNat r.id) = none) →
    (rs.foldl (fun m r => m.set (UInt64.ofNat r.id) (Osm.convertTags env.getId env.sort (r.tags.map rawTag), r.members.map member)) m) = (rs.map (stored env)).reverse ++ m := by
  induction rs with
  | nil => intro m _ _; rfl
  | cons r rs ih =>
    intro m hn hm
    simp only [List.map_cons, List.nodup_cons] at hn
    rw [List.foldl_cons, OsmStreamProof.set_fresh _ _ _ (hm r (by simp)), ih _ hn.2]
    · simp [stored]
    · intro x hx
      have hne : UInt64.ofNat x.id ≠ UInt64.ofNat r.id := fun h => hn.1 (List.mem_map.2 ⟨x, hx, h⟩)
      have := hm x (by simp [hx])
      rw [Assoc.find_eq_none_iff] at this ⊢
      intro e he
      rcases List.mem_cons.1 he with rfl | he
      · exact fun h => hne h.symm
      · exact this e he

theorem relations_perm (env : Env) {rs : List OsmXml.Relation} (hn : (rs.map fun r => UInt64.ofNat r.id).Nodup) : (rs.map (stored env)).Perm (relations env rs) := by
  have := fold_stored env rs [] hn (by simp [Assoc.find])
  unfold relations
  rw [this, List.append_nil]
  exact (List.reverse_perm _).symm

/-- What the visitor is told about relations. -/
def told (d : Doc) : List OsmXml.Relation := d.relations.map fun r => ⟨r.id, r.members.map fun m => ⟨OsmXmlSpec.short m.type, m.ref, m.role⟩, r.tags⟩

theorem told_events (d : Doc) : (events d).filterMap relationOf = told d := by
  unfold events told
  have h1 : (d.bounds.toList.map fun b => Event.bounds (OsmXmlSpec.number b .minLat) (OsmXmlSpec.number b .minLon) (OsmXmlSpec.number b .maxLat)
      (OsmXmlSpec.number b .maxLon)).filterMap relationOf = [] := by cases d.bounds <;> simp [relationOf]
  have h2 : (d.nodes.map Event.node).filterMap relationOf = [] := by simp [relationOf]
  have h3 : (d.ways.map Event.way).filterMap relationOf = [] := by simp [relationOf]
  rw [List.filterMap_append, List.filterMap_append, List.filterMap_append, h1, h2, h3]
  simp [List.filterMap_map, Function.comp_def, relationOf]

theorem memberOf (m : OsmXml.Member) : MemberOf m (member ⟨OsmXmlSpec.short m.type, m.ref, m.role⟩) := by
  refine ⟨rfl, rfl, ?_⟩
  unfold member OsmXmlSpec.short
  simp only
  by_cases h1 : m.type = "node".toList
  · exact .inl ⟨h1, by rw [if_pos h1]; rfl⟩
  · rw [if_neg h1]
    by_cases h2 : m.type = "way".toList
    · exact .inr (.inl ⟨h2, by rw [if_pos h2]; rfl⟩)
    · exact .inr (.inr ⟨h1, h2, by rw [if_neg h2]; rfl⟩)

theorem plain_eq {ctx : Osm.Context ℝ} (h : Wf ctx) (rs : Assoc UInt64 (List Tag × List Resolve.Member)) : plain ⟨ctx, rs⟩ = (added ctx).map ImportProof.element := by
  simp only [plain, added, List.map_append, List.map_map]
  congr 1
  · congr 1
    · exact List.map_congr_left fun x hx => by simp only [Function.comp_apply, ImportProof.element, h.nodes.2 x hx]
    · exact List.map_congr_left fun x hx => by simp only [Function.comp_apply, ImportProof.element, h.ways.2 x hx]
  · exact List.map_congr_left fun x hx => by simp only [Function.comp_apply, ImportProof.element, h.areas.2 x hx]

/-! ## Places of elements -/

open Verif.ResolveSpec (Becomes Consists Finds Areas) in
/-- If all nodes and lines are on the globe, then so is everything which becomes of them. -/
theorem becomes_globe {env : Resolve.Env ℝ} {x : Resolve.Data ℝ} (hg : ∀ e ∈ plain x, ∀ p ∈ ClipperSpec.points e, OnGlobe p) {r : Resolve.Ref ℝ} {e : El} (h : Becomes env x r e)
    (hr : ∀ a, r = .new a → ∀ c ∈ a.coordinates, OnGlobe c) : ∀ p ∈ ClipperSpec.points e, OnGlobe p := by
  have hway : ∀ i w, x.ctx.wayMap.find i = some w → ∀ c ∈ w.coordinates, OnGlobe c := by
    intro i w hf c hc
    refine hg (.way i w.tags w.coordinates) ?_ c (by simpa [ClipperSpec.points, ClipperSpec.leaves, ClipperSpec.coords] using hc)
    simp only [plain, List.mem_append, List.mem_map]
    exact .inl (.inr ⟨(i, w), Assoc.mem_of_find _ _ _ hf, rfl⟩)
  have harea : ∀ i w, x.ctx.areaMap.find i = some w → ∀ c ∈ w.coordinates, OnGlobe c := by
    intro i w hf c hc
    refine hg (.area i w.tags w.coordinates) ?_ c (by simpa [ClipperSpec.points, ClipperSpec.leaves, ClipperSpec.coords] using hc)
    simp only [plain, List.mem_append, List.mem_map]
    exact .inr ⟨(i, w), Assoc.mem_of_find _ _ _ hf, rfl⟩
  refine Becomes.rec (motive_1 := fun r e _ => (∀ a, r = .new a → ∀ c ∈ a.coordinates, OnGlobe c) → ∀ p ∈ ClipperSpec.points e, OnGlobe p)
    (motive_2 := fun rs es _ => (∀ r ∈ rs, ∀ a, r = .new a → ∀ c ∈ a.coordinates, OnGlobe c) → ∀ p ∈ (ClipperSpec.leavesAll es).flatMap ClipperSpec.coords, OnGlobe p)
    ?_ ?_ ?_ ?_ ?_ ?_ ?_ h hr
  · intro i n hf _ p hp
    refine hg (.node i n.tags n.coordinate) ?_ p (by simpa [ClipperSpec.points, ClipperSpec.leaves, ClipperSpec.coords] using hp)
    simp only [plain, List.mem_append, List.mem_map]
    exact .inl (.inl ⟨(i, n), Assoc.mem_of_find _ _ _ hf, rfl⟩)
  · intro i w hf _ p hp
    exact hway i w hf p (by simpa [ClipperSpec.points, ClipperSpec.leaves, ClipperSpec.coords] using hp)
  · intro i w hf _ p hp
    exact harea i w hf p (by simpa [ClipperSpec.points, ClipperSpec.leaves, ClipperSpec.coords] using hp)
  · intro i own ms tags refs es hf _ hc _ ih _ p hp
    refine ih ?_ p (by simpa [ClipperSpec.points, ClipperSpec.leaves] using hp)
    rcases hc with ⟨-, areas, ⟨rs, h1, h2⟩, rfl⟩ | ⟨-, ks, -, rfl⟩ | ⟨-, ks, -, -, -, -, rfl⟩
    · intro r hr a ha
      subst ha
      simp only [List.mem_map, Resolve.Ref.new.injEq, exists_eq_right] at hr
      refine process_on (P := OnGlobe) ?_ h2 a hr
      intro m hm cs hcs
      have : ∃ y, Finds x y m := by
        clear h2
        generalize (ms.filter fun m => decide (m.type = "w")) = l at h1
        induction h1 with
        | nil => simp at hm
        | cons h _ ih =>
          rcases List.mem_cons.1 hm with rfl | hm
          · exact ⟨_, h⟩
          · exact ih hm
      obtain ⟨y, -, -, hy⟩ := this
      rcases hy with ⟨w, g1, g2⟩ | ⟨-, w, g1, g2⟩ | ⟨-, -, -, g2⟩ | ⟨-, -, -, g2⟩
      · rw [g2] at hcs
        rcases hcs with hcs | hcs <;> cases hcs
        exact hway _ _ g1
      · rw [g2] at hcs
        rcases hcs with hcs | hcs <;> cases hcs
        exact harea _ _ g1
      · rw [g2] at hcs
        rcases hcs with hcs | hcs <;> cases hcs
      · rw [g2] at hcs
        rcases hcs with hcs | hcs <;> cases hcs
    · intro r hr a ha; subst ha; simp at hr
    · intro r hr a ha; subst ha; simp at hr
  · intro a i _ hr p hp
    exact hr a rfl p (by simpa [ClipperSpec.points, ClipperSpec.leaves, ClipperSpec.coords] using hp)
  · intro _ p hp; simp [ClipperSpec.leavesAll] at hp
  · intro r e rs es _ _ ih1 ih2 hr p hp
    simp only [ClipperSpec.leavesAll, List.flatMap_append, List.mem_append] at hp
    rcases hp with hp | hp
    · exact ih1 (hr r (by simp)) p hp
    · exact ih2 (fun x hx => hr x (by simp [hx])) p hp

theorem small_relations {d : Doc} {w : List Char} (h : PrintsBody d w) : ∀ r ∈ d.relations, r.id < 2 ^ 64 := by
  obtain ⟨_, _, -, ⟨_, _, -, ⟨_, _, -, ⟨_, _, hr, -, -⟩, -⟩, -⟩, -⟩ := h
  intro r hr'
  obtain ⟨v, -, _, _, -, ⟨_, _, ⟨_, _, -, hi, -⟩, -⟩, -⟩ := each_mem hr r hr'
  obtain ⟨_, _, _, -, -, h, -⟩ := hi
  exact h

end ImportRelationsProof
open ImportProof ImportRelationsProof

variable {K : Type} [LinearOrder K]

/-- What is read if the visitor is told the elements of a file in order: of every element what is seen of it. -/
theorem ImportRelationsProof.events_seen (env : Env) (hsort : OsmSpec.Sorts env.sort) {target : Target} (ht : Sensible target) {d : Doc} (hs : Small d) (hd : Sound d)
    (hsr : ∀ r ∈ d.relations, r.id < 2 ^ 64) (hr : (d.relations.map (·.id)).Nodup) :
    ∃ x, Describes env.eps env.getId d x ∧ (ResolveSpec.Sound env.resolver x →
      ∃ es, List.Forall₂ (fun key e => ResolveSpec.Becomes env.resolver x (.old key) e) (ResolveSpec.All x) es ∧
        ∀ order : List UInt64 → List UInt64, (∀ l, (order l).Perm l) → ∃ N, ∀ n ≥ N,
          ∃ ctx es' l, visitAll env.eps env.getId env.sort {} ((events d).filterMap entry) = .ok ctx ∧
            complete { env with order := order, stack := n } ctx ((events d).filterMap relationOf) = .ok es' ∧ collect { env with order := order, stack := n } target es' = .ok l ∧
            ∀ q, (l.flatten.filter fun x => x.1 = q).map (·.2) = es.filterMap (seen env.eng env.style target q)) := by
  obtain ⟨ctx, els, h1, hshow, hperm, hloc⟩ := visit_ok env hsort hs hd
  have hwf := visitAll_wf _ wf_start h1
  have hplain := plain_eq hwf (relations env (told d))
  have hnd : ((told d).map fun r => UInt64.ofNat r.id).Nodup := by
    have := nodup_ofNat hr hsr
    simpa [told, Function.comp_def] using this
  refine ⟨⟨ctx, relations env (told d)⟩, ⟨⟨els, hshow, by rw [hplain]; exact hperm.symm⟩, (told d).map (stored env), ?_, relations_perm env hnd⟩, fun hx => ?_⟩
  · unfold told
    rw [List.map_map, List.forall₂_map_right_iff]
    refine List.forall₂_same.2 fun r _ => ⟨rfl, ?_, ?_⟩
    · exact tagged_of (OsmProof.tagsOf_convert _ _ hsort _)
    · simp only [Function.comp_apply, stored, List.map_map, List.forall₂_map_right_iff]
      exact List.forall₂_same.2 fun m _ => memberOf m
  · obtain ⟨-, es, g1, g2⟩ := C96_relations_partial env.resolver hsort _ hx
    refine ⟨es, g1, fun order hord => ?_⟩
    obtain ⟨N, hN⟩ := g2 (order ((relations env (told d)).map (·.1))) (hord _)
    refine ⟨N, fun n hn => ?_⟩
    have hglobe : ∀ e ∈ es, ∀ p ∈ ClipperSpec.points e, OnGlobe p := by
      intro e he
      have hmem : ∃ key, ResolveSpec.Becomes env.resolver ⟨ctx, relations env (told d)⟩ (.old key) e := by
        clear hN g2
        generalize ResolveSpec.All ⟨ctx, relations env (told d)⟩ = l at g1
        induction g1 with
        | nil => simp at he
        | cons h _ ih =>
          rcases List.mem_cons.1 he with rfl | he
          · exact ⟨_, h⟩
          · exact ih he
      obtain ⟨key, hb⟩ := hmem
      refine becomes_globe (fun e' he' => ?_) hb (fun a ha => by cases ha)
      rw [hplain] at he'
      exact (hloc e' (hperm.mem_iff.1 he')).2
    obtain ⟨l, h5, h6⟩ := collect_seen { env with order := order, stack := n } ht es hglobe
    have hc : complete { env with order := order, stack := n } ctx (told d) = .ok es := hN n hn
    exact ⟨ctx, es, l, h1, by rw [told_events]; exact hc, h5, h6⟩

/-- What is read from a file: of every element what is seen of it. -/
theorem ImportRelationsProof.read_seen (env : Env) (hsort : OsmSpec.Sorts env.sort) {target : Target} (ht : Sensible target)
    {h w u : List Char} {d : Doc} (hh : Head h) (hw : PrintsBody d w) (hf : ∃ v, w = '<' :: v) (hb : d.bounds ≠ none ∨ d.nodes ≠ []) (hd : Sound d)
    (hr : (d.relations.map (·.id)).Nodup) :
    ∃ x, Describes env.eps env.getId d x ∧ (ResolveSpec.Sound env.resolver x →
      ∃ es, List.Forall₂ (fun key e => ResolveSpec.Becomes env.resolver x (.old key) e) (ResolveSpec.All x) es ∧
        ∀ order : List UInt64 → List UInt64, (∀ l, (order l).Perm l) → ∃ N, ∀ n ≥ N,
          ∃ l, Import.read { env with order := order, stack := n } target (h ++ (w ++ u)) = .ok l ∧
            ∀ q, (l.flatten.filter fun x => x.1 = q).map (·.2) = es.filterMap (seen env.eng env.style target q)) := by
  obtain ⟨x, hx, himp⟩ := events_seen env hsort ht (small_body hw) hd (small_relations hw) hr
  refine ⟨x, hx, fun hsound => ?_⟩
  obtain ⟨es, g1, g2⟩ := himp hsound
  refine ⟨es, g1, fun order hord => ?_⟩
  obtain ⟨N, hN⟩ := g2 order hord
  refine ⟨N, fun n hn => ?_⟩
  obtain ⟨ctx, es', l, h1, h2, h3, h4⟩ := hN n hn
  exact ⟨l, by simp only [Import.read, C93_read (u := u) hh hw hf hb, h1, Outcome.bind, h2, h3], h4⟩

/-- C97: a file with relations is imported, too. When it is read, the maps of the visitor hold exactly what is written in the file; if the relations can be resolved in any order
(`ResolveSpec.Sound`, C96) and the stack is deep enough, then afterwards every tile shows, besides what it has shown before, exactly what becomes of the nodes, ways and relations
of the file and belongs there: each of them once, relations with their members, clipped if the stylesheet wants that. This does not depend on the order of the hash map.
Partial: what `Sound` excludes here and there, the stack, and the stores are in memory. -/
theorem C97_import_partial (env : Env) (hsort : OsmSpec.Sorts env.sort) (tokens : El → List UInt32) {m : GeoStore.Map K (MemStore.Store El)}
    {A : Stores K (MemStore.Store El)} (hm : Abs m A) (hu : Used tokens A) {k : K} {s : MemStore.Store El} (hk : A k = some s) {target : Target} (ht : Sensible target)
    {h w u : List Char} {d : Doc} (hh : Head h) (hw : PrintsBody d w) (hf : ∃ v, w = '<' :: v) (hb : d.bounds ≠ none ∨ d.nodes ≠ []) (hd : Sound d)
    (hr : (d.relations.map (·.id)).Nodup) :
    ∃ x, Describes env.eps env.getId d x ∧ (ResolveSpec.Sound env.resolver x →
      ∃ es, List.Forall₂ (fun key e => ResolveSpec.Becomes env.resolver x (.old key) e) (ResolveSpec.All x) es ∧
        ∀ order : List UInt64 → List UInt64, (∀ l, (order l).Perm l) → ∃ N, ∀ n ≥ N,
          ∃ m' s', importXml (memIface tokens) { env with order := order, stack := n } m k target (h ++ (w ++ u)) = (m', .done) ∧
            Abs m' (update A k s') ∧ Used tokens (update A k s') ∧
            ∀ q, ∃ old new, (GeoStore.step (memIface tokens) m (.tile q)).2 = .elements old ∧ (GeoStore.step (memIface tokens) m' (.tile q)).2 = .elements new ∧
              new.Perm (old ++ es.filterMap (seen env.eng env.style target q))) := by
  obtain ⟨x, hx, himp⟩ := read_seen env hsort ht (u := u) hh hw hf hb hd hr
  refine ⟨x, hx, fun hsound => ?_⟩
  obtain ⟨es, g1, g2⟩ := himp hsound
  refine ⟨es, g1, fun order hord => ?_⟩
  obtain ⟨N, hN⟩ := g2 order hord
  refine ⟨N, fun n hn => ?_⟩
  obtain ⟨l, hread, h6⟩ := hN n hn
  obtain ⟨m', s', a1, a2, a3, a4⟩ := addFile_mem hm hu hk l
  refine ⟨m', s', by simp only [importXml, hread, a1], a2, a3, fun q => ?_⟩
  obtain ⟨old, new, b1, b2, b3⟩ := a4 q
  exact ⟨old, new, b1, b2, b3.trans (by rw [h6])⟩

namespace ImportRelationsProof
open Verif.OsmXmlSpec Verif.Props.OsmXmlProof Verif.OsmXmlProof Verif.MapCssProof Verif.AtlasProof

/-- A file with a node and a building relation which names it. -/
def sample : Doc := ⟨none, [⟨1, 0, 0, [⟨['a'], ['b']⟩]⟩], [], [⟨5, [⟨"node".toList, 1, "part".toList⟩], [⟨"type".toList, "building".toList⟩]⟩]⟩

/-- `<relation id="5"><member type="node" ref="1" role="part"/><tag k="type" v="building"/></relation>` -/
theorem sample_relation : ∃ v, PrintsRelation ⟨5, [⟨"node".toList, 1, "part".toList⟩], [⟨"type".toList, "building".toList⟩]⟩ v := by
  have h5 : OsmXmlSpec.Id 5 ['5', '"'] := ⟨[], ['5'], [], blanks_nil, digits_one (n := 5) (by decide), by norm_num, blanks_nil, rfl⟩
  have hm : PrintsMember ⟨"node".toList, 1, "part".toList⟩ _ := OsmXmlProof.seq (word_plain _) (OsmXmlProof.seq (OsmXmlProof.seq (word_space _) (quoted (by decide)))
    (OsmXmlProof.seq (OsmXmlProof.seq (word_space _) id_one) (OsmXmlProof.seq (OsmXmlProof.seq (word_space _) (quoted (by decide))) (word_plain _))))
  have ht : PrintsTag ⟨"type".toList, "building".toList⟩ _ := OsmXmlProof.seq (word_plain _) (OsmXmlProof.seq (OsmXmlProof.seq (word_space _) (quoted (by decide)))
    (OsmXmlProof.seq (OsmXmlProof.seq (word_space _) (quoted (by decide))) (word_plain _)))
  exact ⟨_, by simp, OsmXmlProof.seq (token_plain _) (OsmXmlProof.seq (OsmXmlProof.seq (token_space _) h5) (OsmXmlProof.seq (token_plain _)
    (OsmXmlProof.seq (.cons _ [] _ [] hm .nil) (OsmXmlProof.seq (.cons _ [] _ [] ht .nil) (token_plain _)))))⟩

theorem sample_prints : ∃ w, PrintsBody sample w ∧ ∃ v, w = '<' :: v := by
  obtain ⟨v, hv⟩ := sample_relation
  have h1 : PrintsBody sample ([] ++ ((nodeWith ['b'] ++ []) ++ ([] ++ ((v ++ []) ++ "</osm>".toList)))) :=
    OsmXmlProof.seq .nil (OsmXmlProof.seq (.cons _ [] _ [] (nodeWith_prints (by decide)) .nil) (OsmXmlProof.seq .nil (OsmXmlProof.seq (.cons _ [] _ [] hv .nil) (token_plain _))))
  exact ⟨_, h1, _, rfl⟩

/-- Numbers of some strings. -/
def number : String → UInt32 := fun s => if s = "type" then 1 else if s = "multipolygon" then 2 else if s = "building" then 3 else 4

theorem sample_sound {eps : ℝ} {x : Resolve.Data ℝ} (sort : List Tag → List Tag) (contains : List (Geo ℝ) → List (Geo ℝ) → Bool) (unset : List (Geo ℝ) → UInt64)
    (h : Describes eps number sample x) : ResolveSpec.Sound ⟨eps, number, sort, contains, unset⟩ x := by
  obtain ⟨⟨els, h1, h2⟩, rs, h3, h4⟩ := h
  have hn1 : number "type" = 1 := rfl
  have hn2 : number "multipolygon" = 2 := by decide
  have hn3 : number "building" = 3 := by decide
  obtain ⟨y, hy, hrel⟩ : ∃ y : UInt64 × List Tag × List Resolve.Member, (y.1 = 5 ∧ y.2.1 = [⟨1, 3⟩] ∧ ∃ m, m.type = "n" ∧ y.2.2 = [m]) ∧ x.relations = [y] := by
    simp only [sample] at h3
    cases h3 with
    | @cons _ y _ l hy hl =>
      cases hl
      refine ⟨y, ⟨hy.1, ?_, ?_⟩, (List.singleton_perm.1 h4).symm⟩
      · have := hy.2.1.1
        simp only [List.map_cons, List.map_nil, String.ofList_toList, hn1, hn3] at this
        exact List.perm_singleton.1 this
      · have := hy.2.2
        cases hm : y.2.2 with
        | nil => rw [hm] at this; cases this
        | cons m ms =>
          rw [hm] at this
          cases this with
          | cons hk hms =>
            cases hms
            refine ⟨m, ?_, rfl⟩
            rcases hk.2.2 with ⟨-, h⟩ | ⟨h, -⟩ | ⟨h, -⟩
            · exact h
            · simp at h
            · simp at h
  obtain ⟨i, own, ms⟩ := y
  obtain ⟨rfl, rfl, m, hm, rfl⟩ := hy
  have hlen : (plain x).length = 1 := by
    rw [← h2.length_eq, ← h1.length_eq]
    rfl
  have hlens : x.ctx.nodeMap.length + x.ctx.wayMap.length + x.ctx.areaMap.length = 1 := by
    have := hlen
    simp only [plain, List.length_append, List.length_map] at this
    exact this
  have hshort : ∀ {V : Type} (l : List (UInt64 × V)), l.length ≤ 1 → (l.map (·.1)).Nodup := by
    intro V l hl
    match l, hl with
    | [], _ => simp
    | [a], _ => simp
  have hnot : ¬ ResolveSpec.IsKind number [⟨1, 3⟩] .multipolygon := by simp [ResolveSpec.IsKind, hn1, hn2]
  have hnotp : ¬ ResolveSpec.IsKind number [⟨1, 3⟩] .plain := by simp [ResolveSpec.IsKind, hn1, hn2, hn3]
  have hfind : ∀ a own ms, x.relations.find a = some (own, ms) → own = [⟨1, 3⟩] ∧ ms = [m] := by
    intro a own ms hf
    have := Assoc.mem_of_find _ _ _ hf
    rw [hrel] at this
    simp only [List.mem_singleton, Prod.mk.injEq] at this
    exact this.2
  have hfol : ∀ a b, ¬ ResolveSpec.Follows number x a b := by
    rintro a b ⟨own, ms, m', hf, hmem, -, -, hk⟩
    obtain ⟨rfl, rfl⟩ := hfind _ _ _ hf
    rw [List.mem_singleton.1 hmem] at hk
    rcases hk with ⟨hk, -⟩ | ⟨-, hk, -⟩ | ⟨hk, -⟩
    · exact hnot hk
    · exact hk hm
    · exact hnotp hk
  have hnone : ∀ r ∈ x.relations, ¬ ResolveSpec.IsKind number r.2.1 .multipolygon := by
    intro r hr
    rw [hrel] at hr
    rw [List.mem_singleton.1 hr]
    exact hnot
  refine ⟨hshort _ (by omega), hshort _ (by omega), hshort _ (by omega), hshort _ (by simp [hrel]), ?_, ?_, by simp only [hn1, hn2, hn3]; decide, ?_, ?_, ?_⟩
  · intro a ha
    obtain ⟨b, -, hb⟩ := Relation.TransGen.tail'_iff.1 ha
    exact hfol _ _ hb
  · intro r hr
    rw [hrel] at hr
    rw [List.mem_singleton.1 hr]
    simp
  · intro r hr hk; exact absurd hk (hnone r hr)
  · intro a b own ms hf; exact absurd hf (hfol _ _)
  · intro r hr hk; exact absurd hk (hnone r hr)

end ImportRelationsProof

/-- The hypotheses of `C97_import_partial` are met by a file with a building relation, and what the visitor knows can be resolved. -/
example : ∃ h w, Head h ∧ PrintsBody ImportRelationsProof.sample w ∧ (∃ v, w = '<' :: v) ∧ ImportRelationsProof.sample.nodes ≠ [] ∧ Sound ImportRelationsProof.sample ∧
    (ImportRelationsProof.sample.relations.map (·.id)).Nodup ∧ ∀ env : Env, env.getId = ImportRelationsProof.number → ∀ x,
      Describes env.eps env.getId ImportRelationsProof.sample x → ResolveSpec.Sound env.resolver x := by
  obtain ⟨w, h1, h2⟩ := ImportRelationsProof.sample_prints
  refine ⟨_, w, OsmXmlProof.start_head (p := []) (.inl rfl) OsmXmlProof.clean_nil, h1, h2, by simp [ImportRelationsProof.sample], ⟨by simp [ImportRelationsProof.sample],
    by simp [ImportRelationsProof.sample], ?_, ?_⟩, by simp [ImportRelationsProof.sample], ?_⟩
  · intro w hw; simp [ImportRelationsProof.sample] at hw
  · intro n hn
    simp only [ImportRelationsProof.sample, List.mem_singleton] at hn
    subst hn
    simp only [OnGlobe, place]
    norm_num
  · intro env he x hx
    rw [he] at hx
    have := ImportRelationsProof.sample_sound env.sort env.contains env.unset hx
    unfold Env.resolver
    rw [he]
    exact this

end Verif.Props
