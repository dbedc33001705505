import Verif.Go.Basic
/-
The wire format of a proof of work, stated without reference to the code: a byte with the number of
bits per nonce, then a bit stream, least significant bit first, in which bit `b` of nonce `i` has position
`i * edgeBits + b`.
-/
namespace Gringo.Spec

/-- Bit `k` of a byte string, least significant bit of each byte first; 0 beyond the end. -/
def streamBit (v : Bytes) (k : Nat) : Bool := (v.getD (k / 8) 0).toNat.testBit (k % 8)

/-- Bits of the stream that carry no information about 42 nonces of 32 bits: the padding after the last
nonce and, for more than 32 bits per nonce, the bits from 32 on of each nonce. -/
def ignoredBit (edgeBits k : Nat) : Prop := 42 * edgeBits ≤ k ∨ 32 ≤ k % edgeBits

end Gringo.Spec
