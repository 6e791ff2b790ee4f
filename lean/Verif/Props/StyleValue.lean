import Verif.Model.StyleValue
import Verif.Props.StyleValueSpec
import Verif.Props.Geodesy
import Mathlib.Tactic.NormNum

/-! # C70: values with a dimension -/
namespace Verif.Props
open Real
open Verif.Style Verif.StyleEval Verif.StyleValue Verif.StyleValueSpec
open Verif.Geodesy (distance getOffset)
open Verif.GeodesySpec (polarRadius equatorialRadius)

variable {D : Type}

namespace StyleValueProof

theorem parse_plain (ar : Arith D) (text : Str) (h : Plain text) : parse ar text = none := by
  have hsplit : text = text.takeWhile StyleEval.isSpace ++ skip text := (List.takeWhile_append_dropWhile).symm
  have hb : ∀ c ∈ text.takeWhile StyleEval.isSpace, c = ' ' ∨ c = '\t' ∨ c = '\n' ∨ c = '\x0b' ∨ c = '\x0c' ∨ c = '\r' := by
    intro c hc
    have := List.all_eq_true.1 (List.all_takeWhile (p := StyleEval.isSpace) (l := text)) c hc
    simpa [StyleEval.isSpace, or_assoc] using this
  have hn := h _ _ hsplit hb
  unfold parse lit
  split_ifs with hp
  · exfalso
    refine hn (List.IsPrefix.trans ?_ (List.isPrefixOf_iff_prefix.1 hp))
    exact ⟨['(', '"'], rfl⟩
  · rfl

theorem last_append (w : Str) (c : Char) : (w ++ [c]).getLast? = some c := by simp

theorem noDimension_last (text : Str) (h : NoDimension text) : ∃ c, text.getLast? = some c ∧ c ≠ 'm' ∧ c ≠ '%' := by
  obtain ⟨h1, h2, h3⟩ := h
  obtain ⟨w, c, rfl⟩ : ∃ w c, text = w ++ [c] := ⟨_, _, (List.dropLast_append_getLast h1).symm⟩
  refine ⟨c, last_append w c, ?_, ?_⟩
  · rintro rfl; exact h2 ⟨w, rfl⟩
  · rintro rfl; exact h3 ⟨w, rfl⟩

theorem empty_invalid : (Bbox.empty : Bbox ℝ).isValid = false := by
  norm_num [Bbox.empty, Bbox.isValid]

end StyleValueProof

open StyleValueProof

/-- C70: a value in metres, taken for a box, is a difference of latitudes: moving the center of the box north by it moves it by this many metres, up to
the ratio of the two radii of the earth (0.34 percent). -/
theorem C70_metres_in_box (ar : Arith ℝ) (env : Env ℝ) (tags : List Tag) (st : Style) (key w : Str) (h : Declares env st key (w ++ ['m']))
    (bbox : Bbox ℝ) (hb : bbox.lo.lat ≤ bbox.hi.lat ∧ bbox.lo.lon ≤ bbox.hi.lon) (h0 : 0 ≤ env.num w) (h1 : env.num w ≤ π * polarRadius) :
    ∃ v, valueBox ar env tags st key bbox = .ok v ∧
      polarRadius / equatorialRadius * env.num w ≤ distance bbox.center ⟨bbox.center.lat + v, bbox.center.lon⟩ ∧
      distance bbox.center ⟨bbox.center.lat + v, bbox.center.lon⟩ ≤ equatorialRadius / polarRadius * env.num w := by
  refine ⟨getOffset bbox.center (env.num w), ?_, C69_offset_partial _ _ h0 h1⟩
  unfold Declares at h
  have hv : bbox.isValid = true := by simp [Bbox.isValid, hb.1, hb.2]
  simp [valueBox, valueIn, getValue, h, hv]

/-- C70: a value in metres without a box is the number of metres. -/
theorem C70_metres (ar : Arith ℝ) (env : Env ℝ) (tags : List Tag) (st : Style) (key w : Str) (h : Declares env st key (w ++ ['m'])) (size : ℝ) :
    value ar env tags st key = .ok (env.num w) ∧ valueRelative ar env tags st key size = .ok (env.num w) := by
  unfold Declares at h
  constructor <;> simp [value, valueRelative, valueIn, getValue, h, empty_invalid]

/-- C70: a value in percent is the part of the given size, of the height of the box, or of one. -/
theorem C70_percent (ar : Arith ℝ) (env : Env ℝ) (tags : List Tag) (st : Style) (key w : Str) (h : Declares env st key (w ++ ['%'])) (size : ℝ)
    (bbox : Bbox ℝ) :
    value ar env tags st key = .ok (env.num w / 100) ∧ valueRelative ar env tags st key size = .ok (size * (env.num w / 100)) ∧
    valueBox ar env tags st key bbox = .ok ((bbox.hi.lat - bbox.lo.lat) * (env.num w / 100)) := by
  unfold Declares at h
  refine ⟨?_, ?_, ?_⟩
  · simp only [value, valueRelative, valueIn, getValue, h, last_append, List.dropLast_concat, if_neg (show ¬ ('%' : Char) = 'm' by decide)]
    norm_num
    ring
  · simp only [valueRelative, valueIn, getValue, h, last_append, List.dropLast_concat, if_neg (show ¬ ('%' : Char) = 'm' by decide)]
    norm_num
    ring
  · simp only [valueBox, valueIn, getValue, h, last_append, List.dropLast_concat, Bbox.height, if_neg (show ¬ ('%' : Char) = 'm' by decide)]
    norm_num
    ring

/-- C70: a value without dimension which is no expression is the number it spells, whatever the size, the box and the tags are. -/
theorem C70_plain (ar : Arith ℝ) (env : Env ℝ) (tags : List Tag) (st : Style) (key text : Str) (h : Declares env st key text)
    (hp : Plain text) (hd : NoDimension text) (size : ℝ) (bbox : Bbox ℝ) :
    value ar env tags st key = .ok (env.num text) ∧ valueRelative ar env tags st key size = .ok (env.num text) ∧
    valueBox ar env tags st key bbox = .ok (env.num text) := by
  unfold Declares at h
  obtain ⟨c, hc, h1, h2⟩ := noDimension_last text hd
  refine ⟨?_, ?_, ?_⟩ <;> simp [value, valueRelative, valueBox, valueIn, getValue, h, hc, h1, h2, parse_plain ar text hp]

/-- C70: a text which is no expression is read as it is written, with its dimension. -/
theorem C70_text (ar : Arith D) (env : Env D) (tags : List Tag) (st : Style) (key text : Str) (h : Declares env st key text) (hp : Plain text) :
    getString ar env tags st key = .ok text := by
  unfold Declares at h
  simp [getString, h, parse_plain ar text hp]

/-- C70: a key which is not declared gives zero and the empty text. -/
theorem C70_absent (ar : Arith ℝ) (env : Env ℝ) (tags : List Tag) (st : Style) (key : Str) (h : ∀ text, ¬ Declares env st key text)
    (hz : ar.zero = 0) (size : ℝ) (bbox : Bbox ℝ) :
    value ar env tags st key = .ok 0 ∧ valueRelative ar env tags st key size = .ok 0 ∧ valueBox ar env tags st key bbox = .ok 0 ∧
    getString ar env tags st key = .ok [] := by
  have hn : st.declarations.find (env.getId key) = none := by
    cases hf : st.declarations.find (env.getId key) with
    | none => rfl
    | some t => exact absurd hf (h t)
  refine ⟨?_, ?_, ?_, ?_⟩ <;> simp [value, valueRelative, valueBox, valueIn, getValue, getString, hn, hz]

/-- C70 is false for a blank before the dimension: the text before it, with the blank, is no number for `lexical_cast`, so that the value is zero. -/
theorem C70_violated_blank (ar : Arith ℝ) (env : Env ℝ) (tags : List Tag) (st : Style) (key w : Str)
    (h : Declares env st key (w ++ [' ', 'm'])) (hnum : ∀ w, env.num (w ++ [' ']) = 0) (bbox : Bbox ℝ) :
    value ar env tags st key = .ok 0 ∧ valueBox ar env tags st key bbox = .ok 0 := by
  have h' : Declares env st key ((w ++ [' ']) ++ ['m']) := by simpa using h
  refine ⟨?_, ?_⟩
  · rw [(C70_metres ar env tags st key _ h' 0).1, hnum]
  · unfold Declares at h'
    simp only [valueBox, valueIn, getValue, h', last_append, List.dropLast_concat, hnum]
    cases hv : bbox.isValid <;> simp [Geodesy.getOffset, Geodesy.rad2Deg]

/-- C70 is false for expressions with a dimension, as in `eval("tag('width')")m`: they are not evaluated, the text before the dimension is taken for a
number, so that the tags do not matter. -/
theorem C70_violated_expression (ar : Arith ℝ) (env : Env ℝ) (tags : List Tag) (st : Style) (key e : Str)
    (h : Declares env st key ('e' :: e ++ ['m'])) (hnum : ∀ e, env.num ('e' :: e) = 0) : value ar env tags st key = .ok 0 := by
  rw [(C70_metres ar env tags st key _ h 0).1, hnum]

/-- The hypotheses hold for some texts. -/
example : Plain ['3', '.', '5'] ∧ NoDimension ['3', '.', '5'] := by
  constructor
  · intro b r h hb hp
    obtain ⟨t, rfl⟩ := hp
    have : 'e' ∈ (['3', '.', '5'] : Str) := by rw [h]; simp
    simp at this
  · refine ⟨by simp, ?_, ?_⟩ <;> decide

end Verif.Props
