import Verif.Model.Basic
import Verif.Model.Bytes
import Verif.Model.Element
import Verif.Model.Ewah

/-!
# Text index: `core/src/index/BitmapIndex.cpp`

The string table is represented by the pair of functions it implements (C02-C06): `str` maps an id to its string, `id` maps
a string to its id.
-/
namespace Verif.BitmapIndex
open Verif.Ewah (Ewah)

/-- BitmapIndex.hpp:20 `Bitmap` -/
abbrev Bitmap := Assoc UInt32 Ewah

/-- The string table as used by the index. -/
structure Strings where
  str : UInt32 → Bytes
  id : Bytes → UInt32

/-- BitmapIndex.cpp:13, the characters ` _:;!@#$%^&*(){}[],.?`` ` ``\/"'`. -/
def separators : List UInt8 :=
  [32, 95, 58, 59, 33, 64, 35, 36, 37, 94, 38, 42, 40, 41, 123, 125, 91, 93, 44, 46, 63, 96, 92, 47, 34, 39]

/-- `boost::tokenizer` with `char_separator(dropped)`: maximal runs of other characters (empty tokens are dropped).
`cur` is the token being collected. -/
def splitTokens (cur : Bytes) : Bytes → List Bytes
  | [] => if cur = [] then [] else [cur]
  | c :: cs =>
    if c ∈ separators then (if cur = [] then splitTokens [] cs else cur :: splitTokens [] cs)
    else splitTokens (cur ++ [c]) cs

/-- BitmapIndex.cpp:91-97 -/
def tokenize (st : Strings) (s : Bytes) : List UInt32 := (splitTokens [] s).map st.id

/-- BitmapIndex.cpp:79-89 -/
def elementTokens {C : Type} (st : Strings) (e : Element C) : List UInt32 :=
  e.tags.flatMap fun t => tokenize st (st.str t.key) ++ tokenize st (st.str t.value)

/-- BitmapIndex.cpp:32-37 `add`; `none`: undefined behaviour in `set`. -/
def add (bm : Bitmap) (tokens : List UInt32) (order : Nat) : Option Bitmap :=
  tokens.foldlM (fun bm t => do
    let b ← Ewah.set ((bm.find t).getD Ewah.empty) order
    some (bm.set t b)) bm

/-- BitmapIndex.cpp:53-55 -/
def orTerms (bm : Bitmap) (terms : List UInt32) (bitset : Ewah) : Option Ewah :=
  terms.foldlM (fun bs t => match bm.find t with
    | none => some bs
    | some b => Ewah.logicalOr b bs) bitset

/-- BitmapIndex.cpp:57-66; a missing term resets the result and ends the loop. -/
def andTerms (bm : Bitmap) : List UInt32 → Ewah → Option Ewah
  | [], bs => some bs
  | t :: ts, bs =>
    match bm.find t with
    | none => some Ewah.empty
    | some b =>
      if bs.size = 0 then andTerms bm ts b
      else do andTerms bm ts (← Ewah.logicalAnd b bs)

/-- BitmapIndex.cpp:68-70 -/
def notTerms (bm : Bitmap) (terms : List UInt32) (bitset : Ewah) : Option Ewah :=
  terms.foldlM (fun bs t => match bm.find t with
    | none => some bs
    | some b => do Ewah.logicalAnd (← Ewah.logicalXor b bs) bs) bitset

/-- The three term lists of BitmapIndex.hpp:24-35 after tokenizing (BitmapIndex.cpp:40-43). -/
structure Terms where
  not : List UInt32
  and : List UInt32
  or : List UInt32
deriving DecidableEq, Repr

/-- BitmapIndex.cpp:40-43 -/
def parseTerms (st : Strings) (notTerms andTerms orTerms : Bytes) : Terms :=
  ⟨tokenize st notTerms, tokenize st andTerms, tokenize st orTerms⟩

/-- BitmapIndex.cpp:50-74: the orders passed to `notify` for one tile. -/
def search (bm : Bitmap) (q : Terms) : Option (List Nat) := do
  let b ← orTerms bm q.or Ewah.empty
  let b ← andTerms bm q.and b
  let b ← notTerms bm q.not b
  some (Ewah.bits b)

end Verif.BitmapIndex
