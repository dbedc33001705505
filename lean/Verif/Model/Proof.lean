import Verif.Model.Env
/-
Model of consensus/proof.go: the proof-of-work nonces and their bit-packed serialisation.
-/
namespace Gringo

/-- consensus/consensus.go:53 `ProofSize int = 42` -/
def ProofSize : Nat := 42

/-- consensus/proof.go:19-25, 141-145 `type Proof struct`, `NewProof` -/
structure Proof where
  edgeBits : UInt8
  nonces : List UInt32
deriving Repr, DecidableEq

namespace Proof

/-- consensus/proof.go:66,117: length of the slice "just large enough to fit all of the POW bits". -/
def packedLen (edgeBits : UInt8) : Nat := (edgeBits.toNat * ProofSize + 7) / 8

/-- consensus/proof.go:75 `bitvec[offsetBits/8] |= 1 << (offsetBits % 8)`; an index beyond the slice
panics. -/
def setBit (v : Bytes) (off : Nat) : Out Bytes :=
  match v[off / 8]? with
  | some b => .ok (v.set (off / 8) (b ||| UInt8.ofNat (2 ^ (off % 8))))
  | none => .panic "index out of range"

/-- consensus/proof.go:70-77: pack one nonce, the `n`-th, bit by bit. `nonce&(1<<bit)` is a `uint32`
expression, so it is 0 for `bit >= 32`; so is `testBit` of a 32-bit number. -/
def packNonce (w n : Nat) (nonce : UInt32) (v : Bytes) : Out Bytes :=
  (List.range w).foldlM
    (fun v bit => if nonce.toNat.testBit bit then setBit v (n * w + bit) else .ok v) v

/-- consensus/proof.go:68 `for n, nonce := range p.Nonces`, starting at index `n`. -/
def packFrom (w : Nat) : Nat → List UInt32 → Bytes → Out Bytes
  | _, [], v => .ok v
  | n, nonce :: rest, v => do
    let v ← packNonce w n nonce v
    packFrom w (n + 1) rest v

/-- consensus/proof.go:56-85 `ProofBytes` -/
def proofBytes (p : Proof) : Out Bytes :=
  packFrom p.edgeBits.toNat 0 p.nonces (List.replicate (packedLen p.edgeBits) 0)

/-- consensus/proof.go:88-99 `Bytes` -/
def bytes (p : Proof) : Out Bytes := do
  let b ← p.proofBytes
  pure (p.edgeBits :: b)

/-- consensus/proof.go:130 `bitvec[offsetBits/8]&(1<<(offsetBits%8)) != 0`. The index is always in range
at the only call site (`unpack_index_in_range` in Proofs/Proof.lean). -/
def bitAt (v : Bytes) (off : Nat) : Bool := (v.getD (off / 8) 0).toNat.testBit (off % 8)

/-- consensus/proof.go:123-135: read the `i`-th nonce. `nonce |= 1 << bit` is a `uint32` expression: the
shift gives 0 for `bit >= 32`. -/
def unpackNonce (w : Nat) (v : Bytes) (i : Nat) : UInt32 :=
  (List.range w).foldl
    (fun nonce bit => if bitAt v (i * w + bit) then nonce ||| UInt32.ofNat (2 ^ bit) else nonce) 0

/-- consensus/proof.go:102-139 `Read` -/
def read (E : Env) : Rd Proof := do
  let eb ← Rd.u8
  if eb = 0 ∨ eb > 64 then
    Rd.fail "invalid cuckoo graph size"
  else do
    Rd.make E.maxAlloc (packedLen eb) 1
    let v ← Rd.readFull (packedLen eb)
    pure { edgeBits := eb, nonces := (List.range ProofSize).map (unpackNonce eb.toNat v) }

/-- consensus/proof.go:50-53 `Hash` -/
def hash (E : Env) (p : Proof) : Out Bytes := do
  let b ← p.bytes
  pure (E.blake2b b)

end Proof
end Gringo
