import Verif.Proof.OsmXml

/-! # C93: OSM files in XML

Properties of formats/osm/xml/OsmXmlParser.cpp, see `Verif.Model.OsmXml` for what is modelled and `Verif.Props.OsmXmlSpec` for what files look like. -/
namespace Verif.Props
open Verif.OsmXml Verif.OsmXmlSpec
open Verif.OsmXmlProof
open Verif.AtlasSpec (Blank)
open Verif.MapCss (Res)
open Verif.MapCssSpec (Digits)
open Verif.LsysTextSpec (PrintsReal PrintsMantissa)

namespace OsmXmlProof

theorem gap_first {g s : List Char} (hg : Gap g) {v : List Char} (h : g ++ s = '<' :: v) : g = [] := by
  cases hg with
  | nil => rfl
  | blank c g hc _ =>
    simp at h
    rw [h.1] at hc
    simp [Blank] at hc
  | other a g ha _ =>
    obtain ⟨c, w, rfl, hc⟩ := attribute_head ha
    simp at h
    rw [h.1, alnum_iff] at hc
    exact absurd hc (by decide)

theorem token_begin {s w r : List Char} (h : Match (Token s) w r) {v : List Char} (e : w = '<' :: v) : s <+: w := by
  obtain ⟨_, ⟨g, hg, rfl⟩, rfl⟩ := h
  rw [List.append_assoc] at e ⊢
  rw [gap_first hg e]
  exact ⟨r, rfl⟩

/-- The first element is at the begin. -/
theorem body_begin {d : Doc} {w r : List Char} (h : Match (PrintsElements d) w r) {v : List Char} (e : w = '<' :: v) (hd : d.bounds ≠ none ∨ d.nodes ≠ []) :
    nodeText <+: w ∨ boundsText <+: w := by
  obtain ⟨t1, h1, h⟩ := match_seq.1 h
  obtain ⟨t2, h2, h⟩ := match_seq.1 h
  cases hb : d.bounds with
  | some ps =>
    rw [hb] at h1
    obtain ⟨u, h3, -⟩ := match_each_cons.1 h1
    obtain ⟨x, h4, -⟩ := match_seq.1 (match_and.1 (match_and.1 h3).2).2
    exact .inr (token_begin h4 e)
  | none =>
    rw [hb] at h1
    have := match_each_nil.1 h1
    subst this
    cases hn : d.nodes with
    | nil => simp [hb, hn] at hd
    | cons n ns =>
      rw [hn] at h2
      obtain ⟨u, h3, -⟩ := match_each_cons.1 h2
      obtain ⟨x, h4, -⟩ := match_seq.1 h3
      exact .inl (token_begin h4 e)

theorem body_elements {d : Doc} {w r : List Char} (h : Match (PrintsBody d) w r) : ∃ u, Match (PrintsElements d) w u := by
  obtain ⟨t1, h1, h⟩ := match_seq.1 h
  obtain ⟨t2, h2, h⟩ := match_seq.1 h
  obtain ⟨t3, h3, h⟩ := match_seq.1 h
  obtain ⟨t4, h4, h5⟩ := match_seq.1 h
  exact ⟨t4, seq_match h1 (seq_match h2 (seq_match h3 h4))⟩

theorem read {h w u : List Char} {d : Doc} (hh : Head h) (hw : PrintsBody d w) (hf : ∃ v, w = '<' :: v) (hd : d.bounds ≠ none ∨ d.nodes ≠ []) :
    parse (h ++ (w ++ u)) = (events d, .ok ()) := by
  have hm : Match (PrintsBody d) (w ++ u) u := ⟨w, hw, rfl⟩
  obtain ⟨v, e⟩ := hf
  obtain ⟨x, hx⟩ := body_elements hm
  unfold parse
  rw [prologue_ok hh (body_begin hx (v := v ++ u) (by rw [e]; rfl) hd)]
  simp only [elements_ok hm]

/-- Nodes, and then something which is not read. -/
theorem broken {ns : List Node} {w u h : List Char} (hh : Head h) (hw : Each PrintsNode ns w) (hf : ∃ v, w = '<' :: v) (hne : ns ≠ []) {es : List Event}
    (hu : ∀ t, Match (Each PrintsNode ns) t u → elements t = (es, .error)) : parse (h ++ (w ++ u)) = (es, .throw "domain_error") := by
  have hm : Match (Each PrintsNode ns) (w ++ u) u := ⟨w, hw, rfl⟩
  obtain ⟨v, e⟩ := hf
  have hx : Match (PrintsElements ⟨none, ns, [], []⟩) (w ++ u) u :=
    seq_match (match_each_nil.2 rfl) (seq_match hm (seq_match (match_each_nil.2 rfl) (match_each_nil.2 rfl)))
  unfold parse
  rw [prologue_ok hh (body_begin hx (v := v ++ u) (by rw [e]; rfl) (.inr hne))]
  simp only [hu _ hm]

theorem nodes_bounds {ns : List Node} {t u : List Char} {c : Char} (h : Match (Each PrintsNode ns) t u) (hu : Ahead [c] u) (hc : c ≠ 'b') :
    boundsPart t = ([], .ok () t) := by
  have : Ahead ['n', c] t := each_ahead (fun a t r h => ahead_mono (node_ahead a t r h) (by simp)) h (ahead_mono hu (by simp))
  unfold boundsPart
  rw [bounds_fail this (by simp [hc.symm])]

theorem broken_node {ns : List Node} {t u : List Char} (h : Match (Each PrintsNode ns) t u) (hu : Ahead ['n'] u) (he : node u = .error) :
    elements t = (ns.map .node, .error) := by
  unfold elements
  rw [nodes_bounds h hu (by decide), followed_ok]
  simp only [(loop_stop node_exact node_nil rfl _ (Nat.le_refl _) h).2 he, followed_error, List.nil_append]

theorem broken_way {ns : List Node} {t u : List Char} (h : Match (Each PrintsNode ns) t u) (hu : Ahead ['w'] u) (he : way u = .error) :
    elements t = (ns.map .node, .error) := by
  unfold elements
  rw [nodes_bounds h hu (by decide), followed_ok]
  simp only [(loop_stop node_exact node_nil rfl _ (Nat.le_refl _) h).1 (node_fail hu (by decide)), followed_ok,
    (loop_stop way_exact way_nil rfl _ (Nat.le_refl _) (match_each_nil.2 rfl)).2 he, followed_error, List.nil_append, List.map_nil, List.append_nil]

theorem broken_relation {ns : List Node} {t u : List Char} (h : Match (Each PrintsNode ns) t u) (hu : Ahead ['r'] u) (he : relation u = .error) :
    elements t = (ns.map .node, .error) := by
  unfold elements
  rw [nodes_bounds h hu (by decide), followed_ok]
  simp only [(loop_stop node_exact node_nil rfl _ (Nat.le_refl _) h).1 (node_fail hu (by decide)), followed_ok,
    (loop_stop way_exact way_nil rfl _ (Nat.le_refl _) (match_each_nil.2 rfl)).1 (way_fail hu (by decide)),
    (loop_stop relation_exact relation_nil rfl _ (Nat.le_refl _) (match_each_nil.2 rfl)).2 he, followed_error, List.nil_append, List.map_nil, List.append_nil]

theorem broken_end {ns : List Node} {t u : List Char} (h : Match (Each PrintsNode ns) t u) (hu : Ahead ['!'] u) : elements t = (ns.map .node, .error) := by
  unfold elements
  rw [nodes_bounds h hu (by decide), followed_ok]
  simp only [(loop_stop node_exact node_nil rfl _ (Nat.le_refl _) h).1 (node_fail hu (by decide)), followed_ok,
    (loop_stop way_exact way_nil rfl _ (Nat.le_refl _) (match_each_nil.2 rfl)).1 (way_fail hu (by decide)),
    (loop_stop relation_exact relation_nil rfl _ (Nat.le_refl _) (match_each_nil.2 rfl)).1 (relation_fail hu (by decide)), List.map_nil,
    ahead_token hu (show '/' ∉ ['!'] by decide), List.nil_append, List.append_nil, Res.expect]

/-- The smallest begin of a file -/
def start : List Char := "<?xml ?><osm>".toList

theorem start_head {p : List Char} (hp : p = [] ∨ ∃ q, p = '<' :: q) (hc : Clean p) : Head (start ++ p) :=
  .mk ' ' [] [] [] [] p (by simp [Blank]) .nil .nil .nil .nil hp hc

theorem clean_nil : Clean [] := by
  constructor <;> intro h <;> simpa using h.length_le

end OsmXmlProof
open OsmXmlProof

/-- A file which is written as it should be is read, and the visitor is told about all of its elements, in their order: bounds, nodes, ways, relations with all
their tags, references and members, and about nothing else. Attributes which are of no interest may be there, what is behind the end is not looked at. -/
theorem C93_read {h w u : List Char} {d : Doc} (hh : Head h) (hw : PrintsBody d w) (hf : ∃ v, w = '<' :: v) (hd : d.bounds ≠ none ∨ d.nodes ≠ []) :
    parse (h ++ (w ++ u)) = (events d, .ok ()) := read hh hw hf hd

/-- If a text is read without error then it is a file with these elements, and with bounds or a node. -/
theorem C93_sound {t : List Char} {es : List Event} (h : parse t = (es, .ok ())) :
    ∃ l d w u, t = l ++ (w ++ u) ∧ Lead l ∧ PrintsBody d w ∧ es = events d ∧ (d.bounds ≠ none ∨ d.nodes ≠ []) := by
  unfold parse at h
  split at h
  · rename_i x r hp
    obtain ⟨⟨l, hl, rfl⟩, hr⟩ := prologue_sound hp
    obtain ⟨d, y, h1, h2, h3⟩ := elements_spec r
    split at h
    · rename_i fs a z he
      rw [he] at h2 h3
      simp only [Prod.mk.injEq, and_true] at h
      subst h
      have hb := h3 z rfl
      obtain ⟨w, hw, rfl⟩ := hb
      refine ⟨l, d, w, z, rfl, hl, hw, h2, ?_⟩
      by_contra hcon
      push Not at hcon
      obtain ⟨t1, m1, m⟩ := match_seq.1 (⟨w, hw, rfl⟩ : Match (PrintsBody d) (w ++ z) z)
      obtain ⟨t2, m2, m⟩ := match_seq.1 m
      obtain ⟨t3, m3, m⟩ := match_seq.1 m
      obtain ⟨t4, m4, m5⟩ := match_seq.1 m
      rw [hcon.1] at m1
      rw [hcon.2] at m2
      have e1 := match_each_nil.1 m1
      have e2 := match_each_nil.1 m2
      have a3 : Ahead ['r', '/'] t3 :=
        each_ahead (fun a t r h => ahead_mono (relation_ahead a t r h) (by simp)) m4 (ahead_mono (token_ahead m5 : Ahead ['/'] t4) (by simp))
      have a2 : Ahead ['w', 'r', '/'] t2 := each_ahead (fun a t r h => ahead_mono (way_ahead a t r h) (by simp)) m3 (ahead_mono a3 (by simp))
      rw [← e2, ← e1] at a2
      rcases hr with hr | ⟨v, hv⟩ | ⟨v, hv⟩
      · obtain ⟨g, c, v, -, -, e⟩ := a2
        rw [hr] at e
        simp at e
      · have := ahead_token (d := 'n') (k := ['o', 'd', 'e']) a2 (by decide)
        rw [← hv] at this
        unfold token at this
        rw [lit_fail] at this
        exact this (by rw [skip_firm (show Firm (nodeText ++ v) from firm_head (by decide) (by decide) _)]; exact ⟨v, rfl⟩)
      · have := ahead_token (d := 'b') (k := ['o', 'u', 'n', 'd', 's']) a2 (by decide)
        rw [← hv] at this
        unfold token at this
        rw [lit_fail] at this
        exact this (by rw [skip_firm (show Firm (boundsText ++ v) from firm_head (by decide) (by decide) _)]; exact ⟨v, rfl⟩)
    · simp at h
  · simp at h

/-- Whatever the text is, also if it is refused: the visitor is told about nothing which is not written in it. The elements are those of a begin of the file,
none is left out, doubled or put in another order. The only failure is the reported one. -/
theorem C93_delivered (t : List Char) :
    ((parse t).1 = [] ∨ ∃ l d w u, t = l ++ (w ++ u) ∧ Lead l ∧ PrintsElements d w ∧ (parse t).1 = events d) ∧
      ((parse t).2 = .ok () ∨ (parse t).2 = .throw "domain_error") := by
  unfold parse
  split
  · rename_i x r hp
    obtain ⟨⟨l, hl, rfl⟩, -⟩ := prologue_sound hp
    obtain ⟨d, y, ⟨w, hw, rfl⟩, h2, -⟩ := elements_spec r
    split
    · rename_i fs a z he
      rw [he] at h2
      exact ⟨.inr ⟨l, d, w, y, rfl, hl, hw, h2⟩, .inl rfl⟩
    · rename_i fs a hne he
      rw [he] at h2
      exact ⟨.inr ⟨l, d, w, y, rfl, hl, hw, h2⟩, .inr rfl⟩
  · exact ⟨.inl rfl, .inr rfl⟩

/-! ## What is not as it should be -/

namespace OsmXmlProof

theorem escape_length (v : List Char) : v.length ≤ (escape v).length := by
  induction v with
  | nil => simp [escape]
  | cons c v ih =>
    rw [escape]
    split_ifs <;> simp <;> omega

theorem escape_longer {v : List Char} {c : Char} (hc : c ∈ v) (h : c ∈ ['&', '"', '<', '>']) : v.length < (escape v).length := by
  induction v with
  | nil => simp at hc
  | cons d v ih =>
    rw [escape]
    rcases List.mem_cons.1 hc with rfl | hc
    · have := escape_length v
      simp only [List.mem_cons, List.not_mem_nil, or_false] at h
      rcases h with rfl | rfl | rfl | rfl <;> simp <;> omega
    · have := ih hc
      split_ifs <;> simp <;> omega

theorem escape_quote (v : List Char) : '"' ∉ escape v := by
  induction v with
  | nil => simp [escape]
  | cons c v ih =>
    rw [escape, List.mem_append, not_or]
    refine ⟨?_, ih⟩
    split_ifs with h1 h2 h3 h4
    · decide
    · decide
    · decide
    · decide
    · simpa [eq_comm] using h2

theorem digits_one {n : Nat} (h : n < 10) : Digits [Char.ofNat (48 + n)] n := ⟨[n], by simp, by simpa using h, rfl, by simp⟩

theorem blanks_nil : Blanks [] := by simp [Blanks]

theorem space : Gap [' '] := .blank ' ' [] (by simp [Blank]) .nil

theorem real_zero : PrintsReal 0 ['0'] := by
  have := PrintsReal.mk false [] 0 ['0'] 0 [] .none (by simpa using PrintsMantissa.whole ['0'] 0 (digits_one (n := 0) (by decide))) .none
  simpa using this

/-- A node with one tag: `<node id="1" lat="0" lon="0"><tag k="a" v="..."/></node>` -/
def nodeWith (v : List Char) : List Char :=
  "<node".toList ++ (((' ' :: "id=\"".toList) ++ ['1', '"']) ++ (((' ' :: "lat=".toList) ++ ['"', '0', '"']) ++ (((' ' :: "lon=".toList) ++ ['"', '0', '"']) ++
    (">".toList ++ ((("<tag".toList ++ (((' ' :: "k=".toList) ++ ('"' :: (['a'] ++ ['"']))) ++ (((' ' :: "v=".toList) ++ ('"' :: (v ++ ['"']))) ++ "/>".toList))) ++
      []) ++ "</node>".toList)))))

theorem seq {P Q : List Char → Prop} {u v : List Char} (hu : P u) (hv : Q v) : OsmXmlSpec.Seq P Q (u ++ v) := ⟨u, v, hu, hv, rfl⟩

theorem token_plain (s : List Char) : Token s s := ⟨[], .nil, rfl⟩

theorem token_space (s : List Char) : Token s (' ' :: s) := ⟨[' '], space, rfl⟩

theorem word_plain (s : List Char) : Word s s := ⟨[], blanks_nil, rfl⟩

theorem word_space (s : List Char) : Word s (' ' :: s) := ⟨[' '], by simp [Blanks, Blank], rfl⟩

theorem quoted {s : List Char} (h : '"' ∉ s) : Quoted s ('"' :: (s ++ ['"'])) := ⟨h, [], blanks_nil, rfl⟩

theorem quoted_zero : QuotedReal 0 ['"', '0', '"'] := ⟨[], ['0'], blanks_nil, real_zero, rfl⟩

theorem id_one : OsmXmlSpec.Id 1 ['1', '"'] := ⟨[], ['1'], [], blanks_nil, digits_one (n := 1) (by decide), by norm_num, blanks_nil, rfl⟩

theorem nodeWith_prints {v : List Char} (hv : '"' ∉ v) : PrintsNode ⟨1, 0, 0, [⟨['a'], v⟩]⟩ (nodeWith v) := by
  have ht : PrintsTag ⟨['a'], v⟩ _ := seq (word_plain _) (seq (seq (word_space _) (quoted (s := ['a']) (by decide)))
    (seq (seq (word_space _) (quoted hv)) (word_plain _)))
  have he : NodeEnd [⟨['a'], v⟩] _ := .inl (seq (token_plain _) (seq (.cons _ [] _ [] ht .nil) (token_plain _)))
  have hn : PrintsNode ⟨1, 0, 0, [⟨['a'], v⟩]⟩ _ := seq (token_plain _) (seq (seq (token_space _) id_one) (seq (seq (token_space _) quoted_zero)
    (seq (seq (token_space _) quoted_zero) he)))
  exact hn

end OsmXmlProof
open OsmXmlProof

/-- Characters which XML writes in another way are not read back: a value with `&`, `"`, `<` or `>` is told as it is in the file, with `&amp;` and so on. -/
theorem C93_violated_escape {v : List Char} {c : Char} (hc : c ∈ v) (h : c ∈ ['&', '"', '<', '>']) :
    ∃ v', parse (start ++ (nodeWith (escape v) ++ "</osm>".toList)) = ([.node ⟨1, 0, 0, [⟨['a'], v'⟩]⟩], .ok ()) ∧ v' ≠ v := by
  refine ⟨escape v, ?_, fun e => ?_⟩
  · have hp := nodeWith_prints (escape_quote v)
    have hb : PrintsBody ⟨none, [⟨1, 0, 0, [⟨['a'], escape v⟩]⟩], [], []⟩ (nodeWith (escape v) ++ "</osm>".toList) :=
      ⟨[], _, .nil, ⟨nodeWith (escape v), "</osm>".toList, by simpa using Each.cons _ [] _ [] hp .nil, ⟨[], _, .nil, ⟨[], _, .nil,
        ⟨[], .nil, rfl⟩, rfl⟩, rfl⟩, rfl⟩, rfl⟩
    have := read (u := []) (start_head (.inl rfl) clean_nil) hb ⟨_, rfl⟩ (.inr (by simp))
    simpa [events] using this
  · have := escape_longer hc h
    rw [e] at this
    omega

/-- A file which is refused is not without effect: the nodes before the error have been told already. Here the error is a way without identifier. -/
theorem C93_violated_atomic {h w : List Char} {ns : List Node} (hh : Head h) (hw : Each PrintsNode ns w) (hf : ∃ v, w = '<' :: v) (hne : ns ≠ []) (v : List Char) :
    parse (h ++ (w ++ ("<way>".toList ++ v))) = (ns.map .node, .throw "domain_error") := by
  refine broken hh hw hf hne fun t ht => broken_way ht ⟨[], 'w', _, .nil, by simp, rfl⟩ ?_
  have h1 : token ['<', 'w', 'a', 'y'] ("<way>".toList ++ v) = .ok () ('>' :: v) :=
    (token_ok (hard_of (by decide) (by decide))).2 ⟨['<', 'w', 'a', 'y'], ⟨[], .nil, rfl⟩, rfl⟩
  unfold way
  rw [h1]
  have h2 : OsmXml.id ('>' :: v) = .fail := by
    unfold OsmXml.id idValue
    rw [word_skip, token, skip_firm (firm_head (by decide) (by decide) _)]
    simp [lit, idKey, MapCss.dropPrefix, Res.andThen]
  simp [Res.andThen, h2, Res.expect]

/-- A way without nodes, which editors may leave behind, makes the whole file refused. -/
theorem C93_violated_way {h w i : List Char} {n : Nat} {ns : List Node} (hh : Head h) (hw : Each PrintsNode ns w) (hf : ∃ v, w = '<' :: v) (hne : ns ≠ [])
    (hi : Id n i) (v : List Char) : parse (h ++ (w ++ ("<way id=\"".toList ++ (i ++ ("></way>".toList ++ v))))) = (ns.map .node, .throw "domain_error") := by
  refine broken hh hw hf hne fun t ht => broken_way ht ⟨[], 'w', _, .nil, by simp, rfl⟩ ?_
  have h1 : token ['<', 'w', 'a', 'y'] ("<way id=\"".toList ++ (i ++ ("></way>".toList ++ v))) = .ok () (" id=\"".toList ++ (i ++ ("></way>".toList ++ v))) :=
    (token_ok (hard_of (by decide) (by decide))).2 ⟨['<', 'w', 'a', 'y'], ⟨[], .nil, rfl⟩, rfl⟩
  have h2 : OsmXml.id (" id=\"".toList ++ (i ++ ("></way>".toList ++ v))) = .ok n ("></way>".toList ++ v) :=
    (id_exact _ _ _).2 (seq_match (u := i ++ ("></way>".toList ++ v)) ⟨" id=\"".toList, ⟨[' '], space, rfl⟩, rfl⟩ ⟨i, hi, rfl⟩)
  have h3 : token ['>'] ("></way>".toList ++ v) = .ok () ("</way>".toList ++ v) :=
    (token_ok (hard_of (by decide) (by decide))).2 ⟨['>'], ⟨[], .nil, rfl⟩, rfl⟩
  have h4 : nodeRef ("</way>".toList ++ v) = .fail := by
    unfold nodeRef
    rw [ahead_word (d := 'n') (k := ['d']) (cs := ['/']) (u := "</way>".toList ++ v) ⟨[], '/', _, .nil, by simp, rfl⟩ (by decide)]
    rfl
  unfold way
  rw [h1]
  simp only [Res.andThen, h2, Res.expect, h3, MapCss.many1, h4]

/-- And so does a relation without members. -/
theorem C93_violated_relation {h w i : List Char} {n : Nat} {ns : List Node} (hh : Head h) (hw : Each PrintsNode ns w) (hf : ∃ v, w = '<' :: v) (hne : ns ≠ [])
    (hi : Id n i) (v : List Char) :
    parse (h ++ (w ++ ("<relation id=\"".toList ++ (i ++ ("></relation>".toList ++ v))))) = (ns.map .node, .throw "domain_error") := by
  refine broken hh hw hf hne fun t ht => broken_relation ht ⟨[], 'r', _, .nil, by simp, rfl⟩ ?_
  have h1 : token ['<', 'r', 'e', 'l', 'a', 't', 'i', 'o', 'n'] ("<relation id=\"".toList ++ (i ++ ("></relation>".toList ++ v))) =
      .ok () (" id=\"".toList ++ (i ++ ("></relation>".toList ++ v))) :=
    (token_ok (hard_of (by decide) (by decide))).2 ⟨['<', 'r', 'e', 'l', 'a', 't', 'i', 'o', 'n'], ⟨[], .nil, rfl⟩, rfl⟩
  have h2 : OsmXml.id (" id=\"".toList ++ (i ++ ("></relation>".toList ++ v))) = .ok n ("></relation>".toList ++ v) :=
    (id_exact _ _ _).2 (seq_match (u := i ++ ("></relation>".toList ++ v)) ⟨" id=\"".toList, ⟨[' '], space, rfl⟩, rfl⟩ ⟨i, hi, rfl⟩)
  have h3 : token ['>'] ("></relation>".toList ++ v) = .ok () ("</relation>".toList ++ v) :=
    (token_ok (hard_of (by decide) (by decide))).2 ⟨['>'], ⟨[], .nil, rfl⟩, rfl⟩
  have h4 : member ("</relation>".toList ++ v) = .fail := by
    unfold member
    rw [ahead_word (d := 'm') (k := ['e', 'm', 'b', 'e', 'r']) (cs := ['/']) (u := "</relation>".toList ++ v) ⟨[], '/', _, .nil, by simp, rfl⟩ (by decide)]
    rfl
  unfold relation
  rw [h1]
  simp only [Res.andThen, h2, Res.expect, h3, MapCss.many1, h4]

/-- An attribute with an empty value, for example `user=""`, makes the whole file refused. -/
theorem C93_violated_attribute {h w k : List Char} {ns : List Node} (hh : Head h) (hw : Each PrintsNode ns w) (hf : ∃ v, w = '<' :: v) (hne : ns ≠ [])
    (hk : k ≠ []) (ha : ∀ c ∈ k, Alnum c) (hid : k ≠ "id".toList) (v : List Char) :
    parse (h ++ (w ++ ("<node ".toList ++ (k ++ ("=\"\"".toList ++ v))))) = (ns.map .node, .throw "domain_error") := by
  refine broken hh hw hf hne fun t ht => broken_node ht ⟨[], 'n', _, .nil, by simp, rfl⟩ ?_
  have ha' : ∀ c ∈ k, isAlnum c = true := fun c hc => (alnum_iff c).1 (ha c hc)
  have hfirm : Firm (k ++ ("=\"\"".toList ++ v)) := by
    obtain ⟨e1, e2⟩ := takeWhile_stop (r := '"' :: '"' :: v) ha' (show isAlnum '=' = false by decide)
    have ho : otherAttribute (k ++ '=' :: '"' :: '"' :: v) = none := by
      unfold otherAttribute
      split_ifs
      · rfl
      · rfl
      · rw [e2]
        simp [MapCss.dropPrefix, isText]
    cases k with
    | nil => exact absurd rfl hk
    | cons c k =>
      have := alnum_space (ha c (by simp))
      unfold Firm
      rw [List.cons_append, skipOne, if_neg (by simp [this])]
      exact ho
  have h1 : token ['<', 'n', 'o', 'd', 'e'] ("<node ".toList ++ (k ++ ("=\"\"".toList ++ v))) = .ok () ([' '] ++ (k ++ ("=\"\"".toList ++ v))) :=
    (token_ok (hard_of (by decide) (by decide))).2 ⟨['<', 'n', 'o', 'd', 'e'], ⟨[], .nil, rfl⟩, rfl⟩
  have h2 : OsmXml.id ([' '] ++ (k ++ ("=\"\"".toList ++ v))) = .fail := by
    unfold OsmXml.id idValue
    rw [word_skip, token, skip_gap space hfirm]
    have : lit idKey (k ++ ("=\"\"".toList ++ v)) = .fail := by
      rw [lit_fail]
      rintro ⟨x, hx⟩
      exact hid (key_eq (k := ['i', 'd']) (w := k) (x := '"' :: x) (r := '"' :: '"' :: v) (by decide) ha' hx).symm
    rw [this]
    rfl
  unfold node
  rw [h1]
  simp only [Res.andThen, h2, Res.expect]

/-- And so does a comment between elements. -/
theorem C93_violated_comment {h w : List Char} {ns : List Node} (hh : Head h) (hw : Each PrintsNode ns w) (hf : ∃ v, w = '<' :: v) (hne : ns ≠ []) (v : List Char) :
    parse (h ++ (w ++ ("<!--".toList ++ v))) = (ns.map .node, .throw "domain_error") :=
  broken hh hw hf hne fun _ ht => broken_end ht ⟨[], '!', _, .nil, by simp, rfl⟩

/-- A file with neither bounds nor nodes is refused, for example one which has relations only. -/
theorem C93_violated_empty {t : List Char} (h : Clean t) : parse t = ([], .throw "domain_error") := by
  unfold parse
  split
  · rename_i x r hp
    obtain ⟨⟨l, -, rfl⟩, hr⟩ := prologue_sound hp
    rcases hr with rfl | hr | hr
    · have : elements [] = ([], .error) := by decide +kernel
      rw [this]
    · exact absurd (hr.isInfix.trans (List.suffix_append l r).isInfix) h.1
    · exact absurd (hr.isInfix.trans (List.suffix_append l r).isInfix) h.2
  · rfl

/-- A way before the first node is lost, and nobody is told: the file is read without error, without this way. -/
theorem C93_violated_lost {v w u : List Char} {x : Way} {d : Doc} (hv : PrintsWay x v) (hs : ∃ q, v = '<' :: q) (hc : Clean v) (hw : PrintsBody d w)
    (hf : ∃ q, w = '<' :: q) (hd : d.bounds ≠ none ∨ d.nodes ≠ []) (hx : x ∉ d.ways) :
    parse (start ++ (v ++ (w ++ u))) = (events d, .ok ()) ∧ .way x ∉ events d := by
  constructor
  · have := read (u := u) (start_head (.inr hs) hc) hw hf hd
    rwa [List.append_assoc] at this
  · have _ := hv
    simp [events, hx]

/-! ## Examples -/

/-- A file with everything -/
def OsmXmlProof.file : List Char :=
  "<?xml version=\"1.0\"?>\n<osm version=\"0.6\">\n<note>x</note><bounds minlat=\"1\" maxlat=\"2.5\"/>\n <node id=\"7\" user=\"me\" lat=\"-1.5\" lon=\"2\"/>\n<way id=\"3\"><nd ref=\"7\"/><tag k=\"a\" v=\"\"/></way><relation id=\"4\" visible=\"true\"><member type=\"way\" ref=\"3\" role=\"\"/></relation></osm>rest".toList

example : parse file = ([.bounds 1 0 (5 / 2) 0, .node ⟨7, -3 / 2, 2, []⟩, .way ⟨3, [7], [⟨['a'], []⟩]⟩, .relation ⟨4, [⟨['w'], 3, []⟩], []⟩], .ok ()) := by
  decide +kernel

/-- The hypotheses of `C93_sound` and `C93_read` are met by this file: it has a begin and a body. -/
example : ∃ l d w u, file = l ++ (w ++ u) ∧ Lead l ∧ PrintsBody d w ∧ (d.bounds ≠ none ∨ d.nodes ≠ []) := by
  obtain ⟨l, d, w, u, h1, h2, h3, -, h5⟩ := C93_sound (t := file) (es := (parse file).1) (by decide +kernel)
  exact ⟨l, d, w, u, h1, h2, h3, h5⟩

example (v : List Char) (hv : '"' ∉ v) : Head start ∧ Each PrintsNode [⟨1, 0, 0, [⟨['a'], v⟩]⟩] (nodeWith v) ∧ ∃ q, nodeWith v = '<' :: q :=
  ⟨start_head (p := []) (.inl rfl) clean_nil, by simpa using Each.cons _ [] _ [] (nodeWith_prints hv) .nil, _, rfl⟩

example : Id 12 "12\"".toList := ⟨[], ['1', '2'], [], blanks_nil, ⟨[1, 2], by simp, by simp, by decide, by simp⟩, by norm_num, blanks_nil, rfl⟩

example : ∃ v, PrintsWay ⟨3, [7], []⟩ v ∧ (∃ q, v = '<' :: q) ∧ Clean v := by
  obtain ⟨v, hv, e⟩ := (way_exact "<way id=\"3\"><nd ref=\"7\"/></way>".toList ⟨3, [7], []⟩ []).1 (by decide +kernel)
  rw [List.append_nil] at e
  subst e
  exact ⟨_, hv, ⟨_, rfl⟩, by constructor <;> decide +kernel⟩

end Verif.Props
