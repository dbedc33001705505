import Verif.Model.Env
/-
Model of cuckoo/cuckoo.go and cuckoo/siphash24.go.
-/
namespace Gringo.Cuckoo

/-- cuckoo/siphash24.go:15-18, 21-25: the state `v [4]uint64`, `NewSipHash24`. -/
structure Sip where
  v0 : UInt64
  v1 : UInt64
  v2 : UInt64
  v3 : UInt64
deriving Repr, DecidableEq

/-- `x<<k | x>>(64-k)` -/
def rotl (x : UInt64) (k : UInt64) : UInt64 := (x <<< k) ||| (x >>> (64 - k))

/-- cuckoo/siphash24.go:36-54 `round` -/
def Sip.round (h : Sip) : Sip :=
  let v0 := h.v0 + h.v1
  let v1 := rotl h.v1 13
  let v1 := v1 ^^^ v0
  let v0 := rotl v0 32
  let v2 := h.v2 + h.v3
  let v3 := rotl h.v3 16
  let v3 := v3 ^^^ v2
  let v0 := v0 + v3
  let v3 := rotl v3 21
  let v3 := v3 ^^^ v0
  let v2 := v2 + v1
  let v1 := rotl v1 17
  let v1 := v1 ^^^ v2
  let v2 := rotl v2 32
  { v0, v1, v2, v3 }

/-- cuckoo/siphash24.go:28-30 `Sum64` -/
def Sip.sum64 (h : Sip) : UInt64 := h.v0 ^^^ h.v1 ^^^ h.v2 ^^^ h.v3

/-- cuckoo/siphash24.go:33-66 `Write64` -/
def Sip.write64 (h : Sip) (nonce : UInt64) : Sip :=
  let h := { h with v3 := h.v3 ^^^ nonce }
  let h := h.round.round
  let h := { h with v0 := h.v0 ^^^ nonce, v2 := h.v2 ^^^ 0xff }
  h.round.round.round.round

/-- cuckoo/siphash24.go:69-73 `siphash24` -/
def siphash24 (v : Sip) (nonce : UInt64) : UInt64 := (v.write64 nonce).sum64

/-- cuckoo/siphash24.go:7-11 -/
def siphashBlockSize : UInt64 := 64
@[inherit_doc siphashBlockSize] def siphashBlockMask : UInt64 := 63

/-- cuckoo/siphash24.go:84-89: the loop `for n := start; n < start+siphashBlockSize; n++`. The first
argument counts the iterations left (64 at the call; `start + 64` does not wrap for 32-bit nonces). -/
def blockLoop (nonce : UInt64) : Nat → UInt64 → Sip → UInt64 → Sip × UInt64
  | 0, _, h, nonceHash => (h, nonceHash)
  | k + 1, n, h, nonceHash =>
    let h := h.write64 n
    let nonceHash := if n = nonce then h.sum64 else nonceHash
    blockLoop nonce k (n + 1) h nonceHash

/-- cuckoo/siphash24.go:76-98 `siphashBlock` -/
def siphashBlock (v : Sip) (nonce : UInt64) : UInt64 :=
  let start := nonce &&& ~~~siphashBlockMask
  let r := blockLoop nonce siphashBlockSize.toNat start v 0
  if nonce = start + siphashBlockMask then r.1.sum64 else r.2 ^^^ r.1.sum64

/-- cuckoo/cuckoo.go:14-20: an edge without its two "used" flags, which the walk keeps separately. -/
structure Edge where
  U : UInt64
  V : UInt64
deriving Repr, DecidableEq

/-- The state of the loop in cuckoo/cuckoo.go:24-67: current edge `i`, `cycle`, and the `usedU`/`usedV`
flags of all edges (by index). -/
structure Walk where
  i : Nat
  cycle : Nat
  usedU : Nat → Bool
  usedV : Nat → Bool

/-- Setting a flag. -/
def setFlag (f : Nat → Bool) (i : Nat) : Nat → Bool := fun k => if k = i then true else f k

/-- cuckoo/cuckoo.go:37: the condition on `j` when the vertex is in the U partition. -/
def matchU (edges : List Edge) (w : Walk) (j : Nat) : Bool :=
  decide (j ≠ w.i) && !w.usedU j && decide ((edges[w.i]?).map Edge.U = (edges[j]?).map Edge.U)

/-- cuckoo/cuckoo.go:50: the condition on `j` when the vertex is in the V partition. -/
def matchV (edges : List Edge) (w : Walk) (j : Nat) : Bool :=
  decide (j ≠ w.i) && !w.usedV j && decide ((edges[w.i]?).map Edge.V = (edges[j]?).map Edge.V)

/-- cuckoo/cuckoo.go:29-64: one turn of the outer loop. `none` is the final `break`. -/
def walkStep (edges : List Edge) (w : Walk) : Option Walk :=
  if w.cycle % 2 = 0 then
    match (List.range edges.length).find? (matchU edges w) with
    | some j => some { i := j, cycle := w.cycle + 1,
                       usedU := setFlag (setFlag w.usedU w.i) j, usedV := w.usedV }
    | none => none
  else
    match (List.range edges.length).find? (matchV edges w) with
    | some j => some { i := j, cycle := w.cycle + 1,
                       usedU := w.usedU, usedV := setFlag (setFlag w.usedV w.i) j }
    | none => none

/-- The outer loop, cut off after `fuel` turns. `walk_stops` (Proofs/Cuckoo.lean) shows that with
`edges.length` turns the loop has always reached its `break`. -/
def walk (edges : List Edge) : Nat → Walk → Walk
  | 0, w => w
  | fuel + 1, w =>
    match walkStep edges w with
    | some w' => walk edges fuel w'
    | none => w

/-- cuckoo/cuckoo.go:25-26: `i := 0`, `cycle := 0`, no flag set (the edges are fresh). -/
def walkInit : Walk := { i := 0, cycle := 0, usedU := fun _ => false, usedV := fun _ => false }

/-- cuckoo/cuckoo.go:24-67 `findCycleLength` -/
def findCycleLength (edges : List Edge) : Nat := (walk edges (edges.length + 1) walkInit).cycle

/-- cuckoo/cuckoo.go:92-100 `type Cuckoo` -/
structure Cuckoo where
  mask : UInt64
  size : UInt64
  v : Sip
deriving Repr, DecidableEq

/-- Go's `uint64(1) << s` for a `uint8` shift count: 0 from 64 on. -/
def shl1 (s : UInt8) : UInt64 := UInt64.ofNat (2 ^ s.toNat)

/-- cuckoo/cuckoo.go:76-80,154-158: the four little-endian words of the key hash. -/
def keysOf (key : Bytes) : Sip :=
  { v0 := UInt64.ofNat (ofLE (key.take 8)), v1 := UInt64.ofNat (ofLE ((key.drop 8).take 8)),
    v2 := UInt64.ofNat (ofLE ((key.drop 16).take 8)), v3 := UInt64.ofNat (ofLE ((key.drop 24).take 8)) }

/-- cuckoo/cuckoo.go:72-89 `New` -/
def new (E : Env) (key : Bytes) (sizeShift : UInt8) : Cuckoo :=
  let numVertices := shl1 sizeShift
  { mask := numVertices / 2 - 1, size := numVertices, v := keysOf (E.blake2b key) }

/-- cuckoo/cuckoo.go:102-104 `newNode` -/
def Cuckoo.newNode (c : Cuckoo) (nonce i : UInt64) : UInt64 :=
  ((siphash24 c.v (2 * nonce + i) &&& c.mask) <<< 1) ||| i

/-- cuckoo/cuckoo.go:106-111 `NewEdge` -/
def Cuckoo.newEdge (c : Cuckoo) (nonce : UInt32) : Edge :=
  { U := c.newNode nonce.toUInt64 0, V := c.newNode nonce.toUInt64 1 }

/-- cuckoo/cuckoo.go:127-136,186-195: the loop that checks each nonce and derives its edge. `prev` is
`nonces[i-1]` (none for `i = 0`); `bad` is the range check. `none` is `return false`. -/
def buildEdges (bad : UInt32 → Bool) (mkEdge : UInt32 → Edge) :
    Option UInt32 → List UInt32 → Option (List Edge)
  | _, [] => some []
  | prev, n :: rest =>
    if bad n || (match prev with | none => false | some p => decide (n ≤ p)) then none
    else (buildEdges bad mkEdge (some n) rest).map (mkEdge n :: ·)

/-- cuckoo/cuckoo.go:115-139 `(*Cuckoo).Verify` -/
def Cuckoo.verify (c : Cuckoo) (nonces : List UInt32) (ease : UInt64) : Bool :=
  if nonces.length = 0 then false
  else
    let easiness := ease * c.size / 100
    match buildEdges (fun n => decide (n.toUInt64 ≥ easiness)) c.newEdge none nonces with
    | none => false
    | some edges => findCycleLength edges == nonces.length

/-- cuckoo/cuckoo.go:142-145, 166-170 `type Cuckaroo`; `NewFromKeys` is the constructor. -/
structure Cuckaroo where
  v : Sip
deriving Repr, DecidableEq

/-- cuckoo/cuckoo.go:150-163 `NewCuckaroo` -/
def newCuckaroo (E : Env) (key : Bytes) : Cuckaroo := { v := keysOf (E.blake2b key) }

/-- cuckoo/cuckoo.go:200-206 `(*Cuckaroo).NewEdge` -/
def Cuckaroo.newEdge (c : Cuckaroo) (nonce : UInt32) (mask : UInt64) : Edge :=
  let e := siphashBlock c.v nonce.toUInt64
  { U := e &&& mask, V := (e >>> 32) &&& mask }

/-- cuckoo/cuckoo.go:174-198 `(*Cuckaroo).Verify` -/
def Cuckaroo.verify (c : Cuckaroo) (nonces : List UInt32) (edgeBits : UInt8) : Bool :=
  if nonces.length = 0 then false
  else
    let numEdges := shl1 edgeBits - 1
    match buildEdges (fun n => decide (n.toUInt64 > numEdges)) (fun n => c.newEdge n numEdges)
        none nonces with
    | none => false
    | some edges => findCycleLength edges == nonces.length

end Gringo.Cuckoo
