import Verif.Model.Streams

/-! # Preconditions of C07, C08, C56 -/
namespace Verif.StreamsSpec
open Verif Verif.Streams

mutual
/-- Every tag, coordinate and member list, at every nesting level, has at most 65535 entries. -/
def Fits : Element Coord → Prop
  | .node _ tags _ => tags.length < 65536
  | .way _ tags cs => tags.length < 65536 ∧ cs.length < 65536
  | .area _ tags cs => tags.length < 65536 ∧ cs.length < 65536
  | .relation _ tags ms => tags.length < 65536 ∧ ms.length < 65536 ∧ FitsAll ms

def FitsAll : List (Element Coord) → Prop
  | [] => True
  | m :: ms => Fits m ∧ FitsAll ms
end

/-- The name has no NUL and all lists are shorter than 2^32. -/
def MeshFits {D : Type} (m : Mesh D) : Prop :=
  (0 : UInt8) ∉ m.name ∧ m.vertices.length < 2 ^ 32 ∧ m.triangles.length < 2 ^ 32 ∧ m.colors.length < 2 ^ 32 ∧
  m.uvs.length < 2 ^ 32 ∧ m.uvMap.length < 2 ^ 32

/-- What single precision keeps of a mesh. -/
def rounded {D : Type} (fc : FloatConv D) (m : Mesh D) : Mesh D :=
  { m with vertices := m.vertices.map (fun x => fc.ofFloat (fc.toFloat x)),
           uvs := m.uvs.map (fun x => fc.ofFloat (fc.toFloat x)) }

end Verif.StreamsSpec
