import Verif.Go.Basic
/-
SipHash-2-4 on one 64-bit word with a given initial state, the chained form over a block of 64 consecutive
nonces, and the words of a key. Written from the paper (Aumasson, Bernstein: "SipHash: a fast short-input PRF",
figure 2.1) on `BitVec 64`; nothing of the model is used.
-/
namespace Gringo.Spec

/-- The four words of state. -/
structure SipState where
  v0 : BitVec 64
  v1 : BitVec 64
  v2 : BitVec 64
  v3 : BitVec 64

/-- A SipRound, in the order of the paper: the two halves side by side. -/
def sipRound (s : SipState) : SipState :=
  let a0 := s.v0 + s.v1
  let a2 := s.v2 + s.v3
  let a1 := s.v1.rotateLeft 13 ^^^ a0
  let a3 := s.v3.rotateLeft 16 ^^^ a2
  let a0 := a0.rotateLeft 32
  let b2 := a2 + a1
  let b0 := a0 + a3
  let b1 := a1.rotateLeft 17 ^^^ b2
  let b3 := a3.rotateLeft 21 ^^^ b0
  let b2 := b2.rotateLeft 32
  { v0 := b0, v1 := b1, v2 := b2, v3 := b3 }

/-- `n` SipRounds. -/
def sipRounds : Nat → SipState → SipState
  | 0, s => s
  | n + 1, s => sipRounds n (sipRound s)

/-- Two rounds with the word `m`, then the finalisation: `0xff` and four rounds. -/
def sipWord (s : SipState) (m : BitVec 64) : SipState :=
  let t := sipRounds 2 { s with v3 := s.v3 ^^^ m }
  sipRounds 4 { t with v0 := t.v0 ^^^ m, v2 := t.v2 ^^^ 0xff }

/-- The digest of a state. -/
def sipDigest (s : SipState) : BitVec 64 := s.v0 ^^^ s.v1 ^^^ s.v2 ^^^ s.v3

/-- The state after absorbing the `k` words `start`, `start + 1`, … -/
def sipChain (s : SipState) (start : Nat) : Nat → SipState
  | 0 => s
  | k + 1 => sipWord (sipChain s start k) (BitVec.ofNat 64 (start + k))

/-- The digest of that state. -/
def chainDigest (s : SipState) (start k : Nat) : BitVec 64 := sipDigest (sipChain s start k)

/-- The `i`-th little-endian 64-bit word of a byte string. -/
def leWord (b : Bytes) (i : Nat) : Nat :=
  ((List.range 8).map fun j => (b.getD (8 * i + j) 0).toNat * 256 ^ j).sum

/-- The initial state of both graph hashes: the four words of the 32-byte hash of the key. -/
def keyState (hash : Bytes) : SipState :=
  { v0 := BitVec.ofNat 64 (leWord hash 0), v1 := BitVec.ofNat 64 (leWord hash 1),
    v2 := BitVec.ofNat 64 (leWord hash 2), v3 := BitVec.ofNat 64 (leWord hash 3) }

/-- The block hash of a nonce: the whole block of 64 nonces is hashed in a chain, and the digest after the
nonce is combined with the digest after the last nonce of the block. -/
def blockHash (s : SipState) (nonce : Nat) : BitVec 64 :=
  let first := nonce / 64 * 64
  if nonce % 64 = 63 then chainDigest s first 64
  else chainDigest s first (nonce % 64 + 1) ^^^ chainDigest s first 64

end Gringo.Spec
