import Verif.Model.MeshCache

/-!
# `core/src/builders/CacheBuilder.hpp`, and the switch of `MeshCache`

Builds of tiles whose builder is registered with the cache (`core/shared/Configuration.hpp:63-94`, "terrain"). The builder inside is a
parameter: a state, what each visit delivers to the callbacks of its context and what `complete` delivers. Several builds may be under
way, of different threads: one call of `fetch`, `wrap`, `visitXXX` or `complete` of one build is one step. A visit and the writes it causes
are one step; writes of different tiles go to different files. Reading and writing the flag `isEnabled_` is atomic here.
-/
namespace Verif.CacheBuilder
open Verif.MeshCache Verif.Streams

variable {K S E D : Type}

/-- ElementBuilder.hpp:11-25, and what it delivers: `K` is the rest of its context, for instance the elevation provider
(BuilderContext.hpp:20-64); the flag says whether the token is cancelled. -/
structure Builder (K S E D : Type) where
  start : K → S
  visit : Bool → S → E → S × List (Item D)
  complete : Bool → S → List (Item D)

/-- CacheBuilder.hpp:24-32 after `fetch` missed, with `EmptyBuilder`, and with a builder `T` which has the wrapped context or the
original one. -/
inductive Phase (S : Type)
  | missed
  | empty
  | real (wrapped : Bool) (s : S)

/-- CacheBuilder.hpp:59-61 -/
structure Run (K S : Type) where
  path : Path
  context : K
  cancelled : Bool
  phase : Phase S

/-- MeshCache.hpp:43-44 and the builds under way. -/
structure State (K S : Type) where
  cache : MeshCache.State
  enabled : Bool
  runs : Assoc Nat (Run K S)

/-- MeshCache.cpp:171-173 -/
def init : State K S := ⟨MeshCache.init, true, []⟩

/-- Calls of the callbacks of the wrapped context, one for each item (MeshCache.cpp:116-133). -/
def deliver (fc : FloatConv D) (b : Nat) (q : QuadKey) (cancelled : Bool) :
    MeshCache.State → List (Item D) → Outcome (MeshCache.State × List (Item D))
  | s, [] => .ok (s, [])
  | s, i :: l => (callback fc s b q i cancelled).bind fun r =>
      (deliver fc b q cancelled r.1 l).bind fun r' => .ok (r'.1, r.2 ++ r'.2)

inductive Op (K E : Type)
  | fetch (b : Nat) (p : Path) (k : K) (garbage : UInt8) (budget : Option Nat)
  | wrap (b : Nat) (garbage : UInt8) (opens : Bool)
  | visit (b : Nat) (e : E)
  | complete (b : Nat)
  | cancel (b : Nat)
  | enable (v : Bool)
  | diskFull (q : QuadKey) (n : Nat)
  | restart (flushed : QuadKey → Nat)
  | abandon (b : Nat)

inductive Out (D : Type)
  | delivered (l : List (Item D))
  | failed (o : Outcome Unit)

/-- CacheBuilder.hpp:25-26, MeshCache.cpp:179-181 -/
def fetch (fc : FloatConv D) (s : State K S) (b : Nat) (p : Path) (k : K) (g : UInt8) (budget : Option Nat) : State K S × Out D :=
  if s.enabled then
    match MeshCache.fetch fc s.cache p g budget with
    | .ok (some l) => ({ s with runs := s.runs.set b ⟨p, k, false, .empty⟩ }, .delivered l)
    | .ok none => ({ s with runs := s.runs.set b ⟨p, k, false, .missed⟩ }, .delivered [])
    | o => (s, .failed (forget o))
  else ({ s with runs := s.runs.set b ⟨p, k, false, .missed⟩ }, .delivered [])

/-- CacheBuilder.hpp:29-30, MeshCache.cpp:175-177 -/
def wrap (B : Builder K S E D) (s : State K S) (b : Nat) (g : UInt8) (opens : Bool) : State K S × Out D :=
  match s.runs.find b with
  | some ⟨p, k, c, .missed⟩ =>
    let r := if s.enabled then MeshCache.wrap s.cache b p g opens else (s.cache, false)
    ({ s with cache := r.1, runs := s.runs.set b ⟨p, k, c, .real r.2 (B.start k)⟩ }, .delivered [])
  | _ => (s, .delivered [])

/-- CacheBuilder.hpp:34-48, EmptyBuilder.hpp:15-21 -/
def visit (fc : FloatConv D) (B : Builder K S E D) (s : State K S) (b : Nat) (e : E) : State K S × Out D :=
  match s.runs.find b with
  | some ⟨p, k, c, .real w t⟩ =>
    let r := B.visit c t e
    if w then
      match deliver fc b p.2 c s.cache r.2 with
      | .ok r' => ({ s with cache := r'.1, runs := s.runs.set b ⟨p, k, c, .real w r.1⟩ }, .delivered r'.2)
      | o => (s, .failed (forget o))
    else ({ s with runs := s.runs.set b ⟨p, k, c, .real w r.1⟩ }, .delivered r.2)
  | _ => (s, .delivered [])

/-- CacheBuilder.hpp:50-56; the context given to `unwrap` has tile, stylesheet and token of the original one
(MeshCache.cpp:105-113). -/
def complete (fc : FloatConv D) (B : Builder K S E D) (s : State K S) (b : Nat) : State K S × Out D :=
  match s.runs.find b with
  | some ⟨p, _, c, .real w t⟩ =>
    let l := B.complete c t
    if w then
      match deliver fc b p.2 c s.cache l with
      | .ok r => ({ s with cache := unwrap r.1 p c, runs := s.runs.erase b }, .delivered r.2)
      | o => (s, .failed (forget o))
    else ({ s with cache := unwrap s.cache p c, runs := s.runs.erase b }, .delivered l)
  | _ => ({ s with runs := s.runs.erase b }, .delivered [])

/-- One step; `cancel`: the caller of the build cancels its token; `enable`: Configuration.hpp:47-52, MeshCache.hpp:20-28;
`diskFull`, `restart`: see `Verif.MeshCache.diskFull`, `Verif.MeshCache.crash`; `abandon`: an exception of the builder ends the build, the objects
of the build are destroyed without `unwrap` (CacheBuilder.hpp has no destructor, QuadKeyBuilder.cpp:108-120 no handler). -/
def step (fc : FloatConv D) (B : Builder K S E D) (s : State K S) : Op K E → State K S × Out D
  | .fetch b p k g budget => fetch fc s b p k g budget
  | .wrap b g opens => wrap B s b g opens
  | .visit b e => visit fc B s b e
  | .complete b => complete fc B s b
  | .cancel b => match s.runs.find b with
    | some r => ({ s with runs := s.runs.set b { r with cancelled := true } }, .delivered [])
    | none => (s, .delivered [])
  | .enable v => ({ s with enabled := v }, .delivered [])
  | .diskFull q n => ({ s with cache := diskFull s.cache q n }, .delivered [])
  | .restart f => (⟨crash s.cache f, true, []⟩, .delivered [])
  | .abandon b => ({ s with runs := s.runs.erase b }, .delivered [])

def run (fc : FloatConv D) (B : Builder K S E D) (s : State K S) : List (Op K E) → State K S × List (Out D)
  | [] => (s, [])
  | op :: ops =>
    let r := step fc B s op
    let rest := run fc B r.1 ops
    (rest.1, r.2 :: rest.2)

/-- CacheBuilder.hpp:24-32: `wrap` is called only if `fetch` missed. -/
def prepare (fc : FloatConv D) (B : Builder K S E D) (s : State K S) (b : Nat) (p : Path) (k : K) (g : UInt8) (opens : Bool) :
    State K S × List (Out D) :=
  let r := step fc B s (.fetch b p k g none)
  match r.1.runs.find b with
  | some ⟨_, _, _, .missed⟩ => let r' := step fc B r.1 (.wrap b g opens); (r'.1, [r.2, r'.2])
  | _ => (r.1, [r.2])

/-- QuadKeyBuilder.cpp:108-120, the calls which the builder gets in one build: `prepare` (line 84), a visit for each of its elements (line
63), `complete` (line 49). The other builders of the tile are not represented. -/
def build (fc : FloatConv D) (B : Builder K S E D) (s : State K S) (b : Nat) (p : Path) (k : K) (es : List E) (g : UInt8) (opens : Bool) :
    State K S × List (Out D) :=
  let r := prepare fc B s b p k g opens
  let r' := run fc B r.1 (es.map (.visit b) ++ [.complete b])
  (r'.1, r.2 ++ r'.2)

end Verif.CacheBuilder
