/-! # String helpers

Models utils/CoreUtils.hpp for strings over any type of characters. `lexicalCast` and `parseDouble` (boost) are not modelled. -/
namespace Verif.Strings

variable {A : Type} [DecidableEq A]

/-- `std::getline(ss, substr, c)`: the characters up to the delimiter, which is taken from the stream but not stored, and what is left in the stream.
`none`: the end of the stream was reached, after which `good()` is false. -/
def getline (c : A) : List A → List A × Option (List A)
  | [] => ([], none)
  | a :: rest => if a = c then ([], some rest) else let (line, left) := getline c rest; (a :: line, left)

/-- CoreUtils.hpp:36-40: the loop. Each iteration but the last takes at least one character, so `fuel` beyond the length of the text does not matter. -/
def splitLoop (c : A) : Nat → List A → List (List A)
  | 0, _ => []
  | fuel + 1, text =>
    match getline c text with
    | (line, none) => [line]
    | (line, some rest) => line :: splitLoop c fuel rest

/-- CoreUtils.hpp:32-42 -/
def splitBy (c : A) (text : List A) : List (List A) := splitLoop c (text.length + 1) text

/-- CoreUtils.hpp:49-53, `std::equal` over the reversed strings -/
def endsWith (value ending : List A) : Bool :=
  if ending.length > value.length then false
  else (ending.reverse.zip value.reverse).all fun (a, b) => decide (a = b)

/-- `find_last_of`: the index of the last character which is one of these -/
def findLastOf (cs : List A) : List A → Option Nat
  | [] => none
  | a :: rest =>
    match findLastOf cs rest with
    | some i => some (i + 1)
    | none => if a ∈ cs then some 0 else none

/-- CoreUtils.hpp:22-24, with the characters for backslash and slash -/
def stripDirectory (backslash slash : A) (filename : List A) : List A :=
  match findLastOf [backslash, slash] filename with
  | some sep => (filename.drop (sep + 1)).take (filename.length - sep - 1)
  | none => filename

/-- CoreUtils.hpp:20-30, with the characters for backslash, slash and dot -/
def getFileNameWithoutExtension (backslash slash dot : A) (filename : List A) : List A :=
  let path := stripDirectory backslash slash filename
  match findLastOf [dot] path with
  | some d => path.take d
  | none => path

/-- formats/FormatTypes.hpp -/
inductive Format where
  | shape | xml | pbf | json
deriving DecidableEq, Repr

/-- index/GeoStore.cpp:153-162 -/
def formatOf (path : List Char) : Format :=
  if endsWith path ['p', 'b', 'f'] then .pbf
  else if endsWith path ['x', 'm', 'l'] then .xml
  else if endsWith path ['j', 's', 'o', 'n'] then .json
  else .shape

end Verif.Strings
