import Verif.Model.Block
import Verif.Spec.Blocks
/-
What makes a header or block valid, in plain terms.
-/
namespace Gringo.Spec

/-- The block version schedule. -/
def VersionAt (height version : Nat) : Prop :=
  (height < 95000 ∧ version = 1) ∨ (95000 ≤ height ∧ height < 250000 ∧ version = 2) ∨
    (250000 ≤ height ∧ height < 500000 ∧ version = 3)

/-- `t` is at most 720 s (in nanoseconds) after `now`. -/
def NotTooFarAhead (t now : Time) : Prop :=
  t.sec * 1000000000 + t.nsec ≤ now.sec * 1000000000 + now.nsec + 720 * 1000000000

/-- Either the secondary size 29 with any scaling, or at least 30 with scaling 1. -/
def PowSizeOK (edgeBits scaling : Nat) : Prop :=
  edgeBits = 29 ∨ (30 ≤ edgeBits ∧ scaling = 1)

/-- The bytes the proof of work is made for: the serialised header up to (excluding) the proof. -/
def powMessage (h : BlockHeader) : Bytes :=
  be16 h.version ++ be64 h.height ++ beI64 h.timestamp.toUnix ++ h.previous ++ h.previousRoot ++
    h.utxoRoot ++ h.rangeProofRoot ++ h.kernelRoot ++ h.totalKernelOffset ++ be64 h.outputMmrSize ++
    be64 h.kernelMmrSize ++ be64 h.totalDifficulty ++ be32 h.scalingDifficulty ++ be64 h.nonce

/-- The coinbase flag is the lowest bit of the feature byte. -/
def isCoinbase (features : UInt8) : Bool := features.toNat % 2 == 1

/-- Non-decreasing order of the key (byte strings compared lexicographically). -/
def InOrder {α : Type} (key : α → Bytes) (l : List α) : Prop :=
  l.Pairwise (fun a b => ¬ bytesLt (key b) (key a))

/-- The kernel's signature verifies for its excess, fee and lock height. -/
def Signed (E : Env) (k : TxKernel) : Prop :=
  Secp.verifySignature E k.excess (List.replicate 16 0 ++ be64 k.fee ++ be64 k.lockHeight)
    (Secp.decodeSignature E k.excessSig) = true

end Gringo.Spec
