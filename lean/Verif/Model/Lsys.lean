import Verif.Model.Basic
import Verif.Model.Quaternion

/-! # L-systems

Models lsys/Rules.hpp, lsys/LSystem.hpp, lsys/Turtle.cpp, lsys/Turtle3d.cpp, the building of the production map in lsys/LSystemParser.cpp and
the turtle of builders/generators/LSystemGenerator.cpp. The text grammar is not modelled. -/
namespace Verif.Lsys
open Verif.Quaternion

/-- The rule classes without data, lsys/Rules.hpp:22-67. -/
inductive Op
  | moveForward | jumpForward | turnLeft | turnRight | turnAround | pitchUp | pitchDown | rollLeft | rollRight
  | increment | decrement | switchStyle | scaleUp | scaleDown | save | restore
deriving DecidableEq

/-- lsys/Rules.hpp:13-78; a word is a list of characters. -/
inductive Rule
  | op (o : Op)
  | word (w : List Char)
deriving DecidableEq

/-- `typeid` of a rule: `none` is `WordRule`. -/
def Rule.type : Rule → Option Op
  | .op o => some o
  | .word _ => none

/-- `operator<` of `std::string` -/
def wordLt : List Char → List Char → Bool
  | _, [] => false
  | [], _ :: _ => true
  | a :: l, b :: m => if a.toNat < b.toNat then true else if b.toNat < a.toNat then false else wordLt l m

/-- lsys/Rules.hpp:80-93; `rank` is the order of `std::type_index`. -/
def ruleLt (rank : Option Op → Nat) : Rule → Rule → Bool
  | .word a, .word b => wordLt a b
  | l, r => rank l.type < rank r.type

/-- lsys/LSystem.hpp:20 -/
abbrev Productions (W : Type) := List (W × List Rule)

/-- The map of lsys/LSystem.hpp:35 as a list of entries; keys are equal if neither is smaller, as in `std::map`. -/
abbrev ProductionMap (W : Type) := List (Rule × Productions W)

variable {W : Type}

def equivalent (lt : Rule → Rule → Bool) (a b : Rule) : Bool := !lt a b && !lt b a

/-- `std::map::find` -/
def find (lt : Rule → Rule → Bool) (m : ProductionMap W) (r : Rule) : Option (Productions W) :=
  match m with
  | [] => none
  | (k, ps) :: m => if equivalent lt k r then some ps else find lt m r

/-- lsys/LSystemParser.cpp:81-83, `dict[predcessor].push_back(..)` -/
def addProduction (lt : Rule → Rule → Bool) (m : ProductionMap W) (r : Rule) (p : W × List Rule) : ProductionMap W :=
  match m with
  | [] => [(r, [p])]
  | (k, ps) :: m => if equivalent lt k r then (k, ps ++ [p]) :: m else (k, ps) :: addProduction lt m r p

/-- lsys/LSystemParser.cpp:121-123 for the productions in the order of the text. -/
def productionMap (lt : Rule → Rule → Bool) (grammar : List (Rule × W × List Rule)) : ProductionMap W :=
  grammar.foldl (fun m p => addProduction lt m p.1 p.2) []

/-- lsys/LSystem.hpp:14-36 without angle and scale. -/
structure LSystem (W : Type) where
  generations : Int
  start : List Rule
  productions : ProductionMap W

/-- lsys/Turtle.cpp:14-27: the random number generator has states `G` and picks an index for a list of weights. -/
def select {G : Type} (pick : G → List W → Nat × G) (g : G) (ps : Productions W) : Outcome (List Rule × G) :=
  let r := pick g (ps.map Prod.fst)
  match ps[r.1]? with
  | some p => .ok (p.2, r.2)
  | none => .throw "out_of_range"

/-- lsys/Turtle.cpp:41-49 -/
def rewrite {G : Type} (lt : Rule → Rule → Bool) (pick : G → List W → Nat × G) (m : ProductionMap W) :
    List Rule → G → Outcome (List Rule × G)
  | [], g => .ok ([], g)
  | r :: rs, g =>
    match find lt m r with
    | none => (rewrite lt pick m rs g).bind fun x => .ok (r :: x.1, x.2)
    | some ps => (select pick g ps).bind fun y => (rewrite lt pick m rs y.2).bind fun x => .ok (y.1 ++ x.1, x.2)

/-- lsys/Turtle.cpp:39-51 -/
def generate {G : Type} (lt : Rule → Rule → Bool) (pick : G → List W → Nat × G) (m : ProductionMap W) :
    Nat → List Rule → G → Outcome (List Rule × G)
  | 0, rs, g => .ok (rs, g)
  | n + 1, rs, g => (rewrite lt pick m rs g).bind fun x => generate lt pick m n x.1 x.2

/-- The rules which are applied in the end, lsys/Turtle.cpp:35-51. A negative number of generations counts as none. -/
def expand {G : Type} (lt : Rule → Rule → Bool) (pick : G → List W → Nat × G) (l : LSystem W) (g : G) : Outcome (List Rule) :=
  (generate lt pick l.productions l.generations.toNat l.start g).bind fun x => .ok x.1

/-! ## The turtle -/

variable {K : Type} [Field K]

/-- lsys/Turtle3d.hpp:53-64 -/
structure State (K : Type) where
  length : K
  width : K
  texture : Nat
  position : Vec3 K
  direction : Vec3 K
  right : Vec3 K
deriving DecidableEq

/-- The settings of a run: sine and cosine of half the angle, scale (lsys/Turtle3d.cpp:78-83), number of appearances
(LSystemGenerator.cpp:23-43). -/
structure Settings (K : Type) where
  sinHalf : K
  cosHalf : K
  scale : K
  appearances : Nat

inductive Shape | cylinder | sphere | cone
deriving DecidableEq

/-- The turtle of LSystemGenerator.cpp:51-166: state and stack of lsys/Turtle3d.hpp:66-77, the index of the appearance in use for cylinders
(the one for spheres is the next), and what is drawn: shape, position, direction, size and appearance. -/
structure Turtle (K : Type) where
  state : State K
  stack : List (State K) := []
  style : Nat := 0
  drawn : List (Shape × State K × Nat) := []
deriving DecidableEq

/-- LSystemGenerator.cpp:75-78, lsys/Turtle3d.hpp:53-64 -/
def initial (size : K) : Turtle K := { state := ⟨size, size, 0, ⟨0, 0, 0⟩, ⟨0, 1, 0⟩, ⟨1, 0, 0⟩⟩ }

/-- lsys/Turtle3d.cpp:85-87 -/
def createRotation (s c : K) (st : State K) : Quat K := fromAngleAxis s c (Vec3.cross st.direction st.right)

/-- lsys/Turtle3d.cpp:11-13 -/
def jump (st : State K) : State K := { st with position := st.position.add (st.direction.scale st.length) }

/-- lsys/Turtle3d.cpp:15-31 -/
def turn (s c : K) (st : State K) : State K :=
  { st with direction := (createRotation s c st).apply st.direction, right := (createRotation s c st).apply st.right }

/-- LSystemGenerator.cpp:98-131: draws and jumps; for spheres the appearance is the next one. -/
def draw (set : Settings K) (shape : Shape) (t : Turtle K) : Turtle K :=
  { t with
    drawn := t.drawn ++ [(shape, t.state, (if shape = .sphere then t.style + 1 else t.style) % set.appearances)]
    state := jump t.state }

/-- lsys/Turtle3d.cpp:11-76 and LSystemGenerator.cpp:88-95, 133-141. Turning by 180 degrees uses the exact half angle 90 degrees. `top` of an empty
stack is undefined. -/
def step (set : Settings K) (t : Turtle K) : Op → Outcome (Turtle K)
  | .moveForward => .ok (draw set .cylinder t)
  | .jumpForward => .ok { t with state := jump t.state }
  | .turnLeft => .ok { t with state := turn (-set.sinHalf) set.cosHalf t.state }
  | .turnRight => .ok { t with state := turn set.sinHalf set.cosHalf t.state }
  | .turnAround => .ok { t with state := turn 1 0 t.state }
  | .pitchUp => .ok { t with state := { t.state with direction := (createRotation set.sinHalf set.cosHalf t.state).apply t.state.direction } }
  | .pitchDown => .ok { t with state := { t.state with direction := (createRotation (-set.sinHalf) set.cosHalf t.state).apply t.state.direction } }
  | .rollLeft => .ok { t with state := { t.state with right := (createRotation (-set.sinHalf) set.cosHalf t.state).apply t.state.right } }
  | .rollRight => .ok { t with state := { t.state with right := (createRotation set.sinHalf set.cosHalf t.state).apply t.state.right } }
  | .increment => .ok { t with state := { t.state with width := t.state.width * set.scale } }
  | .decrement => .ok { t with state := { t.state with width := t.state.width / set.scale } }
  | .scaleUp => .ok { t with state := { t.state with length := t.state.length * set.scale } }
  | .scaleDown => .ok { t with state := { t.state with length := t.state.length / set.scale } }
  | .switchStyle => .ok { t with state := { t.state with texture := t.state.texture + 1 }, style := t.state.texture + 1 }
  | .save => .ok { t with stack := t.state :: t.stack }
  | .restore =>
    match t.stack with
    | [] => .ub "top of an empty stack"
    | s :: stack => .ok { t with state := s, stack := stack }

/-- lsys/Rules.hpp:69-78 and LSystemGenerator.cpp:84-86, 168-173; an unknown word makes `at` throw. -/
def say (set : Settings K) (t : Turtle K) (w : List Char) : Outcome (Turtle K) :=
  if w = ['c', 'o', 'n', 'e'] then .ok (draw set .cone t)
  else if w = ['s', 'p', 'h', 'e', 'r', 'e'] then .ok (draw set .sphere t)
  else if w = ['c', 'y', 'l', 'i', 'n', 'd', 'e', 'r'] then .ok (draw set .cylinder t)
  else .throw "out_of_range"

/-- `Rule::apply`, lsys/Rules.hpp:13-78 -/
def apply (set : Settings K) (t : Turtle K) : Rule → Outcome (Turtle K)
  | .op o => step set t o
  | .word w => say set t w

/-- lsys/Turtle.cpp:53-55 -/
def runRules (set : Settings K) (t : Turtle K) : List Rule → Outcome (Turtle K)
  | [] => .ok t
  | r :: rs => (apply set t r).bind fun t => runRules set t rs

/-- lsys/Turtle.cpp:35-56 -/
def run {G : Type} (lt : Rule → Rule → Bool) (pick : G → List W → Nat × G) (set : Settings K) (l : LSystem W) (g : G) (t : Turtle K) :
    Outcome (Turtle K) :=
  (expand lt pick l g).bind (runRules set t)

end Verif.Lsys
