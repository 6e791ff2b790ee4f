import Verif.Model.Basic

/-!
# Compressed bitmaps: `core/lib/ewah/ewah.h`, `core/lib/ewah/runninglengthword.h` for `uword = uint32_t`

A buffer is a sequence of blocks; each block is a marker word followed by literal words. The masks and
shifts of runninglengthword.h select the fields of a marker: bit 0 is the running bit, bits 1..16 the
running length, bits 17..31 the number of literal words. The model reads and writes these fields by
arithmetic. Reading literal words beyond the end of the buffer (undefined in C++) is cut off.
-/
namespace Verif.Ewah

/-- runninglengthword.h:30-37 `getRunningBit` -/
def runBit (w : UInt32) : Bool := w.toNat % 2 = 1
/-- runninglengthword.h:42-51 `getRunningLength` -/
def runLen (w : UInt32) : Nat := w.toNat / 2 % 65536
/-- runninglengthword.h:56-58, 78-80 `getNumberOfLiteralWords` -/
def numLit (w : UInt32) : Nat := w.toNat / 131072

/-- A marker with the given fields. -/
def marker (b : Bool) (len lit : Nat) : UInt32 := UInt32.ofNat (b.toNat + 2 * len + 131072 * lit)

/-- runninglengthword.h:85-90, 106-111 `setRunningBit` -/
def setBit (w : UInt32) (b : Bool) : UInt32 := marker b (runLen w) (numLit w)
/-- runninglengthword.h:113-123 `setRunningLength` -/
def setLen (w : UInt32) (l : Nat) : UInt32 := marker (runBit w) l (numLit w)
/-- runninglengthword.h:125-135 `setNumberOfLiteralWords` -/
def setLit (w : UInt32) (l : Nat) : UInt32 := marker (runBit w) (runLen w) l

/-- runninglengthword.h:141-142 `largestrunninglengthcount` for 32 bit words. -/
def maxRun : Nat := 65535
/-- runninglengthword.h:139-140 `largestliteralcount` for 32 bit words. -/
def maxLit : Nat := 32767

/-- ewah.h:37 and the members `buffer`, `sizeinbits`, `lastRLW`. -/
structure Ewah where
  buffer : List UInt32
  size : Nat
  last : Nat
deriving DecidableEq, Repr

/-- ewah.h:37 default constructor, ewah.h:349-354 `reset`. -/
def empty : Ewah := ⟨[0], 0, 0⟩

/-- `buffer[lastRLW]`; callers of the public interface check that the index exists. -/
def Ewah.mark (s : Ewah) : UInt32 := s.buffer.getD s.last 0
def Ewah.setMark (s : Ewah) (m : UInt32) : Ewah := { s with buffer := s.buffer.set s.last m }
/-- `buffer.push_back(m); lastRLW = buffer.size() - 1;` -/
def Ewah.pushMark (s : Ewah) (m : UInt32) : Ewah :=
  { s with buffer := s.buffer ++ [m], last := s.buffer.length }
def Ewah.push (s : Ewah) (ws : List UInt32) : Ewah := { s with buffer := s.buffer ++ ws }

/-- ewah.h:1135-1151 -/
def addLiteral (s : Ewah) (w : UInt32) : Ewah :=
  if numLit s.mark ≥ maxLit then (s.pushMark (marker false 0 1)).push [w]
  else (s.setMark (setLit s.mark (numLit s.mark + 1))).push [w]

/-- ewah.h:1623-1644 -/
def addEmpty (s : Ewah) (v : Bool) : Ewah :=
  let noLit := numLit s.mark = 0
  let r := runLen s.mark
  let s1 := if noLit ∧ r = 0 then s.setMark (setBit s.mark v) else s
  if noLit ∧ runBit s1.mark = v ∧ r < maxRun then s1.setMark (setLen s1.mark (r + 1))
  else s1.pushMark (marker v 1 0)

/-- ewah.h:1503-1517, the tail of `fastaddStreamOfEmptyWords`: new markers for the remaining words. -/
def addRuns : Nat → Ewah → Bool → Nat → Ewah
  | 0, s, _, _ => s
  | fuel + 1, s, v, n =>
    if n ≥ maxRun then addRuns fuel (s.pushMark (marker v maxRun 0)) v (n - maxRun)
    else if n > 0 then s.pushMark (marker v n 0) else s

/-- ewah.h:1472-1518 `fastaddStreamOfEmptyWords` -/
def fastAddEmpty (s : Ewah) (v : Bool) (n : Nat) : Ewah :=
  if n = 0 then s
  else
    let m := s.mark
    let s1 :=
      if runBit m ≠ v ∧ runLen m + numLit m = 0 then s.setMark (setBit m v)
      else if numLit m ≠ 0 ∨ runBit m ≠ v then s.pushMark (marker v 0 0)
      else s
    let r := runLen s1.mark
    let can := if n < maxRun - r then n else maxRun - r
    addRuns n (s1.setMark (setLen s1.mark (r + can))) v (n - can)

/-- ewah.h:1555-1585 `fastaddStreamOfDirtyWords` (and ewah.h:1521-1552 `addStreamOfDirtyWords`, which only also
updates `sizeinbits`, overwritten at the end of every logical operation). The recursion consumes at least one word in
two calls, so the fuel is never exhausted. -/
def addDirty : Nat → Ewah → List UInt32 → Ewah
  | 0, s, _ => s
  | fuel + 1, s, ws =>
    if ws.length = 0 then s
    else
      let n := numLit s.mark
      if n + ws.length ≤ maxLit then (s.setMark (setLit s.mark (n + ws.length))).push ws
      else
        let can := maxLit - n
        let s1 := ((s.setMark (setLit s.mark maxLit)).push (ws.take can)).pushMark 0
        addDirty fuel s1 (ws.drop can)

def fastAddDirty (s : Ewah) (ws : List UInt32) : Ewah := addDirty (ws.length + 2) s ws

/-- ewah.h:1588-1620 `addStreamOfNegatedDirtyWords`: when the literal count overflows, the rest is added by
`addStreamOfDirtyWords`, without negation. -/
def addNegDirty (s : Ewah) (ws : List UInt32) : Ewah :=
  if ws.length = 0 then s
  else
    let n := numLit s.mark
    if n + ws.length ≤ maxLit then (s.setMark (setLit s.mark (n + ws.length))).push (ws.map (~~~ ·))
    else
      let can := maxLit - n
      let s1 := ((s.setMark (setLit s.mark maxLit)).push ((ws.take can).map (~~~ ·))).pushMark 0
      fastAddDirty s1 (ws.drop can)

/-- ewah.h:1078-1088 `addWord` -/
def addWord (s : Ewah) (w : UInt32) : Ewah :=
  if w = 0 then addEmpty s false else if w = 0xFFFFFFFF then addEmpty s true else addLiteral s w

/-- `static_cast<uword>(1) << (i % wordinbits)` -/
def bitWord (i : Nat) : UInt32 := UInt32.ofNat (2 ^ (i % 32))

/-- ewah.h:907-941 `set`; `none`: `buffer[lastRLW]` does not exist (undefined behaviour), also after removing the last word,
or the running length 0 is decremented (wraps around). -/
def set (s : Ewah) (i : Nat) : Option Ewah :=
  if i < s.size then some s
  else if s.buffer.length ≤ s.last then none
  else
    let dist := (i + 32) / 32 - (s.size + 31) / 32
    let s := { s with size := i + 1 }
    if dist > 0 then
      some (addLiteral (if dist > 1 then fastAddEmpty s false (dist - 1) else s) (bitWord i))
    else if numLit s.mark = 0 then
      if runLen s.mark = 0 then none
      else some (addLiteral (s.setMark (setLen s.mark (runLen s.mark - 1))) (bitWord i))
    else
      let w := s.buffer.getLastD 0 ||| bitWord i
      if w = 0xFFFFFFFF then
        if s.buffer.length ≤ s.last + 1 then none else
        let s1 : Ewah := { s with buffer := s.buffer.dropLast }
        some (addEmpty (s1.setMark (setLit s1.mark (numLit s1.mark - 1))) true)
      else some { s with buffer := s.buffer.dropLast ++ [w] }

/-! ## Reading -/

/-- runninglengthword.h `BufferedRunningLengthWord` together with its iterator (ewah.h:1194-1226): the current running
bit and length, the literal words of the current block not yet consumed, the unread part of the buffer. -/
structure Cur where
  bit : Bool
  len : Nat
  lits : List UInt32
  rest : List UInt32
deriving DecidableEq, Repr

def Cur.size (c : Cur) : Nat := c.len + c.lits.length

/-- runninglengthword.h `BufferedRunningLengthWord::next`, ewah.h:1203-1207. -/
def Cur.next (c : Cur) : Cur × Bool :=
  match c.rest with
  | [] => ({ c with len := 0, lits := [] }, false)
  | m :: r => (⟨runBit m, runLen m, r.take (numLit m), r.drop (numLit m)⟩, true)

/-- `raw_iterator()` followed by `next()`, ewah.h:1717-1725. -/
def Cur.start (buffer : List UInt32) : Cur := (Cur.next ⟨false, 0, [], buffer⟩).1

/-- `discardRunningWordsWithReload` -/
def Cur.dropRun (c : Cur) : Cur :=
  let c := { c with len := 0 }
  if c.lits.length = 0 then c.next.1 else c

/-- `discardLiteralWordsWithReload` -/
def Cur.dropLits (c : Cur) (n : Nat) : Cur :=
  let c := { c with lits := c.lits.drop n }
  if c.lits.length = 0 then c.next.1 else c

/-- `discardFirstWordsWithReload`; every pass but the last moves to the next block. -/
def Cur.dropFirst : Nat → Cur → Nat → Cur
  | 0, c, _ => c
  | fuel + 1, c, x =>
    if x = 0 then c
    else if c.len > x then { c with len := c.len - x }
    else
      let x := x - c.len
      let d := if x > c.lits.length then c.lits.length else x
      let c := { c with len := 0, lits := c.lits.drop d }
      let x := x - d
      if x > 0 ∨ c.size = 0 then
        let r := c.next
        if r.2 then dropFirst fuel r.1 x else r.1
      else dropFirst fuel c x

/-- `discharge(container)`: writes everything that is left. -/
def Cur.dischargeAll : Nat → Cur → Ewah → Ewah
  | 0, _, s => s
  | fuel + 1, c, s =>
    if c.size = 0 then s
    else
      let s := fastAddDirty (fastAddEmpty s c.bit c.len) c.lits
      let r := c.next
      if r.2 then dischargeAll fuel r.1 s else s

/-- `discharge(container, max)`: writes up to `max` words; returns how many were written. -/
def Cur.discharge : Nat → Cur → Ewah → Nat → Nat → Cur × Ewah × Nat
  | 0, c, s, index, _ => (c, s, index)
  | fuel + 1, c, s, index, max =>
    if index + c.len > max then
      ({ c with len := c.len - (max - index) }, fastAddEmpty s c.bit (max - index), max)
    else
      let s := fastAddEmpty s c.bit c.len
      let index := index + c.len
      if c.lits.length + index > max then
        ({ c with len := 0, lits := c.lits.drop (max - index) }, fastAddDirty s (c.lits.take (max - index)), max)
      else
        let s := fastAddDirty s c.lits
        let index := index + c.lits.length
        let r := c.next
        if r.2 then discharge fuel r.1 s index max else (r.1, s, index)

/-- `dischargeNegated(container, max)` -/
def Cur.dischargeNeg : Nat → Cur → Ewah → Nat → Nat → Cur × Ewah × Nat
  | 0, c, s, index, _ => (c, s, index)
  | fuel + 1, c, s, index, max =>
    if index < max ∧ c.size > 0 then
      let pl := if index + c.len > max then max - index else c.len
      let s := fastAddEmpty s (!c.bit) pl
      let index := index + pl
      let pd := if c.lits.length + index > max then max - index else c.lits.length
      let s := addNegDirty s (c.lits.take pd)
      dischargeNeg fuel (c.dropFirst (c.rest.length + 2) (pl + pd)) s (index + pd) max
    else (c, s, index)

/-- The body of the inner loop of ewah.h:1728-1742 (`logicalor`): the new prey and container. -/
def orStep (prey pred : Cur) (s : Ewah) : Cur × Ewah :=
  if pred.bit then (prey.dropFirst (prey.rest.length + 2) pred.len, fastAddEmpty s true pred.len)
  else
    let r := prey.discharge (prey.rest.length + 1) s 0 pred.len
    (r.1, fastAddEmpty r.2.1 false (pred.len - r.2.2))

/-- The body of the inner loop of ewah.h:1915-1928 (`logicaland`). -/
def andStep (prey pred : Cur) (s : Ewah) : Cur × Ewah :=
  if !pred.bit then (prey.dropFirst (prey.rest.length + 2) pred.len, fastAddEmpty s false pred.len)
  else
    let r := prey.discharge (prey.rest.length + 1) s 0 pred.len
    (r.1, fastAddEmpty r.2.1 false (pred.len - r.2.2))

/-- The body of the inner loop of ewah.h:1821-1832 (`logicalxor`). -/
def xorStep (prey pred : Cur) (s : Ewah) : Cur × Ewah :=
  let r := if !pred.bit then prey.discharge (prey.rest.length + 1) s 0 pred.len
    else prey.dischargeNeg (prey.size + prey.rest.length + 1) s 0 pred.len
  (r.1, fastAddEmpty r.2.1 pred.bit (pred.len - r.2.2))

/-- The inner loop: consume runs until both cursors are at literal words (or at the end). -/
def inner (step : Cur → Cur → Ewah → Cur × Ewah) : Nat → Cur → Cur → Ewah → Cur × Cur × Ewah
  | 0, i, j, s => (i, j, s)
  | fuel + 1, i, j, s =>
    if i.len > 0 ∨ j.len > 0 then
      if i.len < j.len then
        let r := step i j s
        inner step fuel r.1 j.dropRun r.2
      else
        let r := step j i s
        inner step fuel i.dropRun r.1 r.2
    else (i, j, s)

/-- The outer loop of the three operations. -/
def outer (step : Cur → Cur → Ewah → Cur × Ewah) (op : UInt32 → UInt32 → UInt32) :
    Nat → Cur → Cur → Ewah → Cur × Cur × Ewah
  | 0, i, j, s => (i, j, s)
  | fuel + 1, i, j, s =>
    if i.size > 0 ∧ j.size > 0 then
      let (i, j, s) := inner step fuel i j s
      let n := min i.lits.length j.lits.length
      let s := (List.zipWith op (i.lits.take n) (j.lits.take n)).foldl addWord s
      if n > 0 then outer step op fuel (i.dropLits n) (j.dropLits n) s
      else outer step op fuel i j s
    else (i, j, s)

/-- The uncompressed words of a buffer (used for the fuel of the loops and in the specification). -/
def decodeAux : Nat → List UInt32 → List UInt32
  | 0, _ => []
  | _ + 1, [] => []
  | fuel + 1, m :: r =>
    List.replicate (runLen m) (if runBit m then 0xFFFFFFFF else 0) ++ (r.take (numLit m) ++
      decodeAux fuel (r.drop (numLit m)))

def decode (buffer : List UInt32) : List UInt32 := decodeAux (buffer.length + 1) buffer

/-- A bound on the passes of the loops: every pass consumes at least one word of the operands. -/
def fuelFor (a b : Ewah) : Nat := (decode a.buffer).length + (decode b.buffer).length + 1

/-- ewah.h:1712-1758 `this->logicalor(a)`. (An empty buffer, reachable only through reading a damaged file, is
undefined behaviour in the iterator's constructor: `none`.) -/
def logicalOr (this a : Ewah) : Option Ewah :=
  if a.buffer = [] ∨ this.buffer = [] then none
  else
    let (i, j, s) := outer orStep (· ||| ·) (fuelFor this a) (Cur.start a.buffer) (Cur.start this.buffer) empty
    let rem := if i.size > 0 then i else j
    let s := rem.dischargeAll (rem.rest.length + 1) s
    some { s with size := if this.size > a.size then this.size else a.size }

/-- ewah.h:1806-1846 `this->logicalxor(a)` -/
def logicalXor (this a : Ewah) : Option Ewah :=
  if a.buffer = [] ∨ this.buffer = [] then none
  else
    let (i, j, s) := outer xorStep (· ^^^ ·) (fuelFor this a) (Cur.start a.buffer) (Cur.start this.buffer) empty
    let rem := if i.size > 0 then i else j
    let s := rem.dischargeAll (rem.rest.length + 1) s
    some { s with size := if this.size > a.size then this.size else a.size }

/-- ewah.h:1898-1942 `this->logicaland(a)` -/
def logicalAnd (this a : Ewah) : Option Ewah :=
  if a.buffer = [] ∨ this.buffer = [] then none
  else
    let (_, _, s) := outer andStep (· &&& ·) (fuelFor this a) (Cur.start a.buffer) (Cur.start this.buffer) empty
    some { s with size := if this.size > a.size then this.size else a.size }

/-- The set bits of one word at bit offset `pos`, ascending (ewah.h:865-869, lowest bit first). -/
def wordBits (pos : Nat) (w : UInt32) : List Nat :=
  ((List.range 32).filter (fun k => w.toNat.testBit k)).map (pos + ·)

/-- The sequence of values of the set bit iterator (ewah.h:741-884) on a buffer, block by block: the positions of a run
of ones, then the set bits of the literal words. The lazy state machine of the iterator is flattened to a list. -/
def bitsFrom : Nat → Nat → List UInt32 → List Nat
  | 0, _, _ => []
  | _ + 1, _, [] => []
  | fuel + 1, pos, m :: r =>
    let lits := r.take (numLit m)
    (if runBit m then (List.range (32 * runLen m)).map (pos + ·) else []) ++
      (((List.range lits.length).flatMap fun k => wordBits (pos + 32 * runLen m + 32 * k) (lits.getD k 0)) ++
        bitsFrom fuel (pos + 32 * runLen m + 32 * lits.length) (r.drop (numLit m)))

/-- `for (auto i = bitset.begin(); i != bitset.end(); ++i)` -/
def bits (s : Ewah) : List Nat := bitsFrom (s.buffer.length + 1) 0 s.buffer

end Verif.Ewah
