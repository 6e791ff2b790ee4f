import Verif.Props.StringTableSpec

/-! # Specification of a string table used as a dictionary (C120) -/
namespace Verif.DictionarySpec
open Verif
open Verif.StringTable (Op Out)
open Verif.StringTableSpec (step dataSize)

/-- Calls on a table with the strings `t`: strings without NUL which fit a 4 GB data file; ids which are assigned at the time of the call, or which are not below `n`. -/
def Settled (n : Nat) (t : List Bytes) : List Op → Prop
  | [] => True
  | .getId s :: ops => (0 : UInt8) ∉ s ∧ dataSize (t ++ [s]) ≤ 2 ^ 32 ∧ Settled n (step t (.getId s)).1 ops
  | .getString i :: ops => (i < t.length ∨ n ≤ i) ∧ Settled n t ops
  | .reopen :: ops => Settled n t ops

/-- The ids asked for are assigned before, or not in the whole history. -/
def Sensible (ops : List Op) : Prop := Settled (StringTableSpec.run [] ops).1.length [] ops

/-- All answers are those of one dictionary, whenever they were given. -/
structure Dictionary (number : Bytes → Nat) (word : Nat → Bytes) (calls : List (Op × Out)) : Prop where
  ids : ∀ s o, (Op.getId s, o) ∈ calls → o = .id (number s)
  strs : ∀ i o, (Op.getString i, o) ∈ calls → o = .str (word i)
  back : ∀ s o, (Op.getId s, o) ∈ calls → word (number s) = s
  small : ∀ s o, (Op.getId s, o) ∈ calls → number s < 0xFFFFFFFF
  mark : word 0xFFFFFFFF = []

end Verif.DictionarySpec
