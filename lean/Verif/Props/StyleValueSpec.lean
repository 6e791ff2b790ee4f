import Verif.Model.Style

/-! # Specification of values with a dimension (C70) -/
namespace Verif.StyleValueSpec
open Verif.Style

/-- The style declares this text for the key. -/
def Declares {D : Type} (env : Env D) (st : Style) (key text : Str) : Prop := st.declarations.find (env.getId key) = some text

/-- A text which is no expression: after blanks it does not begin with `eval`. -/
def Plain (text : Str) : Prop := ∀ blanks rest, text = blanks ++ rest → (∀ c ∈ blanks, c = ' ' ∨ c = '\t' ∨ c = '\n' ∨ c = '\x0b' ∨ c = '\x0c' ∨ c = '\r') →
  ¬ ['e', 'v', 'a', 'l'] <+: rest

/-- The last character is no dimension. -/
def NoDimension (text : Str) : Prop := text ≠ [] ∧ ¬ ['m'] <:+ text ∧ ¬ ['%'] <:+ text

end Verif.StyleValueSpec
