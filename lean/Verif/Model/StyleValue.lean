import Verif.Model.Geodesy
import Verif.Model.StyleEval

/-! # Values of declarations with a dimension

The three public overloads of `Style::getValue`, over the real numbers: the relative size and the bounding box which are handed to
`StyleEval.getValue`. -/
namespace Verif.StyleValue
open Verif.Style Verif.StyleEval Verif.Geodesy

/-- Style.hpp:132-157 with the computations of lines 144-146 and 151. -/
noncomputable def valueIn (ar : Arith ℝ) (env : Env ℝ) (tags : List Tag) (st : Style) (key : Str) (relativeSize : ℝ) (bbox : Bbox ℝ) :
    Outcome ℝ :=
  getValue ar env tags st key (fun v => relativeSize * v * 0.01) (if bbox.isValid then some (getOffset bbox.center) else none)

/-- Style.hpp:118-120 -/
noncomputable def valueRelative (ar : Arith ℝ) (env : Env ℝ) (tags : List Tag) (st : Style) (key : Str) (relativeSize : ℝ) : Outcome ℝ :=
  valueIn ar env tags st key relativeSize Bbox.empty

/-- Style.hpp:112-114 -/
noncomputable def value (ar : Arith ℝ) (env : Env ℝ) (tags : List Tag) (st : Style) (key : Str) : Outcome ℝ :=
  valueRelative ar env tags st key 1

/-- Style.hpp:124-126 -/
noncomputable def valueBox (ar : Arith ℝ) (env : Env ℝ) (tags : List Tag) (st : Style) (key : Str) (bbox : Bbox ℝ) : Outcome ℝ :=
  valueIn ar env tags st key bbox.height bbox

end Verif.StyleValue
