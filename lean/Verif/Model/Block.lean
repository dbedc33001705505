import Verif.Model.Proof
import Verif.Model.Cuckoo
import Verif.Model.Schnorr
/-
Model of consensus/block.go, consensus/id.go, consensus/locator.go, consensus/transaction.go and of the
constants they use: data types and codecs. Validation is in Model/Validate.lean.

Each `Bytes()` method is a function into `Out Bytes`, because some of them call `logrus.Fatal`. Writing to
a `bytes.Buffer` never fails, so the other `Fatal` branches are unreachable and omitted.
-/
namespace Gringo

/-- consensus/consensus.go:16 -/
def BlockHashSize : Nat := 32
/-- consensus/id.go:17 -/
def ShortIDSize : Nat := 6
/-- consensus/network.go:70 -/
def MaxLocators : Nat := 14

/-- consensus/block.go:467-470 `type Input`; `Features` is a `uint8`. -/
structure Input where
  features : UInt8
  commit : Bytes
deriving Repr, DecidableEq

namespace Input

/-- consensus/block.go:472-484 -/
def bytes (i : Input) : Bytes := i.features :: i.commit

/-- consensus/block.go:486-499 -/
def read : Rd Input := do
  let features ← Rd.u8
  let commit ← Rd.readFull Secp.PedersenCommitmentSize
  pure { features, commit }

/-- consensus/block.go:502-505 -/
def hash (E : Env) (i : Input) : Bytes := E.blake2b i.bytes

/-- consensus/block.go:515-517, 510-512, 519-521 `Less`; `Len` and `Swap` are those of a list -/
def less (E : Env) (a b : Input) : Bool := bytesLt (a.hash E) (b.hash E)

end Input

/-- consensus/block.go:534-541 `type Output`. The commitment pointer is non-nil in every output made by
`Read`; a nil one is not modelled. -/
structure Output (E : Env) where
  features : UInt8
  commit : Point
  proof : E.Prf

namespace Output
variable {E : Env}

/-- consensus/block.go:543-556 -/
def bytesWithoutProof (o : Output E) : Bytes := o.features :: E.pointBytes o.commit

/-- consensus/block.go:559-577 -/
def bytes (o : Output E) : Bytes :=
  o.bytesWithoutProof ++ be64 (UInt64.ofNat (E.prfBytes o.proof).length) ++ E.prfBytes o.proof

/-- consensus/block.go:602-606: the proof is read through a limit reader and any error is replaced. -/
def readProof (E : Env) (proofLen : Nat) : Rd E.Prf := fun s =>
  match Rd.limit proofLen E.prfRead s with
  | (.err _, r) => (.err "failed to deserialize range proof", r)
  | x => x

/-- consensus/block.go:580-610 -/
def read (E : Env) : Rd (Output E) := do
  let features ← Rd.u8
  let commit ← E.pointRead
  let proofLen ← Rd.u64
  if proofLen > UInt64.ofNat Secp.MaxProofSize then
    Rd.fail "invalid range proof length"
  else do
    let proof ← readProof E proofLen.toNat
    pure { features, commit, proof }

/-- consensus/block.go:623-626 -/
def hash (o : Output E) : Bytes := E.blake2b o.bytesWithoutProof

/-- consensus/block.go:636-638, 631-633, 640-642 `Less`; `Len` and `Swap` are those of a list -/
def less (a b : Output E) : Bool := bytesLt a.hash b.hash

end Output

/-- consensus/block.go:652-667 `type TxKernel` -/
structure TxKernel where
  features : UInt8
  fee : UInt64
  lockHeight : UInt64
  excess : Point
  excessSig : Bytes
deriving Repr, DecidableEq

namespace TxKernel

/-- consensus/block.go:676-703 -/
def bytes (E : Env) (k : TxKernel) : Bytes :=
  k.features :: (be64 k.fee ++ be64 k.lockHeight ++ E.pointBytes k.excess ++ k.excessSig)

/-- consensus/block.go:706-730; `ExcessSig` is a `[64]byte`. -/
def read (E : Env) : Rd TxKernel := do
  let features ← Rd.u8
  let fee ← Rd.u64
  let lockHeight ← Rd.u64
  let excess ← E.pointRead
  let excessSig ← Rd.readFull 64
  pure { features, fee, lockHeight, excess, excessSig }

/-- consensus/block.go:670-673 -/
def hash (E : Env) (k : TxKernel) : Bytes := E.blake2b (k.bytes E)

/-- consensus/block.go:766-768, 761-763, 770-772 `Less`; `Len` and `Swap` are those of a list -/
def less (E : Env) (a b : TxKernel) : Bool := bytesLt (a.hash E) (b.hash E)

end TxKernel

/-- consensus/block.go:775-812 `type BlockHeader` -/
structure BlockHeader where
  version : UInt16
  height : UInt64
  previous : Bytes
  previousRoot : Bytes
  timestamp : Time
  utxoRoot : Bytes
  rangeProofRoot : Bytes
  kernelRoot : Bytes
  nonce : UInt64
  totalKernelOffset : Bytes
  totalKernelSum : Bytes
  outputMmrSize : UInt64
  kernelMmrSize : UInt64
  pow : Proof
  difficulty : UInt64
  totalDifficulty : UInt64
  scalingDifficulty : UInt32
deriving Repr, DecidableEq

/-- `binary.Write` of an `int64`. -/
def beI64 (x : Int) : Bytes := be 8 (x % 2 ^ 64).toNat

/-- `binary.Read` into an `int64`. -/
def Rd.i64 : Rd Int := do
  let b ← Rd.readFull 8
  pure (wrapI64 (ofBE b))

namespace BlockHeader

/-- consensus/block.go:822-901 `bytesWithoutPOW` -/
def bytesWithoutPOW (h : BlockHeader) : Out Bytes :=
  if h.previous.length ≠ BlockHashSize then .fatal "invalid previous block hash len"
  else if h.previousRoot.length ≠ BlockHashSize then .fatal "invalid previous root hash len"
  else if h.utxoRoot.length ≠ BlockHashSize ∨ h.rangeProofRoot.length ≠ BlockHashSize ∨
      h.kernelRoot.length ≠ BlockHashSize then
    .fatal "invalid UTXORoot/RangeProofRoot/KernelRoot len"
  else
    .ok (be16 h.version ++ be64 h.height ++ beI64 h.timestamp.toUnix ++ h.previous ++ h.previousRoot ++
      h.utxoRoot ++ h.rangeProofRoot ++ h.kernelRoot ++ h.totalKernelOffset ++ be64 h.outputMmrSize ++
      be64 h.kernelMmrSize ++ be64 h.totalDifficulty ++ be32 h.scalingDifficulty ++ be64 h.nonce)

/-- consensus/block.go:903-905, 908-914 `bytesPOW`, `Bytes`. The message of p2p/messages.go:327-335, 343-345 is a header
alone. -/
def bytes (h : BlockHeader) : Out Bytes := do
  let a ← h.bytesWithoutPOW
  let b ← h.pow.bytes
  pure (a ++ b)

/-- consensus/block.go:917-993 `Read` into a zero header: `Difficulty` and `TotalKernelSum` are not
assigned. -/
def read (E : Env) : Rd BlockHeader := do
  let version ← Rd.u16
  let height ← Rd.u64
  let ts ← Rd.i64
  let previous ← Rd.readFull BlockHashSize
  let previousRoot ← Rd.readFull BlockHashSize
  let utxoRoot ← Rd.readFull BlockHashSize
  let rangeProofRoot ← Rd.readFull BlockHashSize
  let kernelRoot ← Rd.readFull BlockHashSize
  let totalKernelOffset ← Rd.readFull Secp.SecretKeySize
  let outputMmrSize ← Rd.u64
  let kernelMmrSize ← Rd.u64
  let totalDifficulty ← Rd.u64
  let scalingDifficulty ← Rd.u32
  let nonce ← Rd.u64
  let pow ← Proof.read E
  pure { version, height, previous, previousRoot, timestamp := Time.unix ts, utxoRoot, rangeProofRoot,
         kernelRoot, nonce, totalKernelOffset, totalKernelSum := [], outputMmrSize, kernelMmrSize, pow,
         difficulty := 0, totalDifficulty, scalingDifficulty }

/-- consensus/block.go:815-819 `Hash`: of the proof-of-work nonces only. -/
def hash (E : Env) (h : BlockHeader) : Out Bytes := do
  let b ← h.pow.proofBytes
  pure (E.blake2b b)

end BlockHeader

/-- consensus/block.go:73-79 `type Block` -/
structure Block (E : Env) where
  header : BlockHeader
  inputs : List Input
  outputs : List (Output E)
  kernels : List TxKernel

/-- consensus/block.go:157-165, consensus/transaction.go:106-114 -/
def MaxListLen : Nat := 1000000

namespace Block
variable {E : Env}

/-- consensus/block.go:102-104: the receiver after the three in-place sorts. -/
def sorted (b : Block E) : Block E :=
  { header := b.header, inputs := E.sortBy (Input.less E) b.inputs,
    outputs := E.sortBy Output.less b.outputs, kernels := E.sortBy (TxKernel.less E) b.kernels }

/-- consensus/block.go:82-128 `Bytes`: the serialisation and the receiver afterwards. -/
def bytesAndState (b : Block E) : Out (Bytes × Block E) := do
  let h ← b.header.bytes
  let counts := be64 (UInt64.ofNat b.inputs.length) ++ be64 (UInt64.ofNat b.outputs.length) ++
    be64 (UInt64.ofNat b.kernels.length)
  let s := b.sorted
  pure (h ++ counts ++ s.inputs.flatMap Input.bytes ++ s.outputs.flatMap Output.bytes ++
    s.kernels.flatMap (TxKernel.bytes E), s)

/-- consensus/block.go:82-128 `Bytes` -/
def bytes (b : Block E) : Out Bytes := do
  let r ← b.bytesAndState
  pure r.1

/-- consensus/block.go:136-192 `Read`. Struct sizes: `Input` 32 bytes, `TxKernel` 104 bytes on amd64. -/
def read (E : Env) : Rd (Block E) := do
  let header ← BlockHeader.read E
  let inputs ← Rd.u64
  let outputs ← Rd.u64
  let kernels ← Rd.u64
  if inputs > UInt64.ofNat MaxListLen then Rd.fail "transaction contains too many inputs"
  else if outputs > UInt64.ofNat MaxListLen then Rd.fail "transaction contains too many outputs"
  else if kernels > UInt64.ofNat MaxListLen then Rd.fail "transaction contains too many kernels"
  else do
    Rd.make E.maxAlloc inputs.toNat 32
    let ins ← Rd.readMany inputs.toNat Input.read
    Rd.make E.maxAlloc outputs.toNat E.outputSize
    let outs ← Rd.readMany outputs.toNat (Output.read E)
    Rd.make E.maxAlloc kernels.toNat 104
    let kers ← Rd.readMany kernels.toNat (TxKernel.read E)
    pure { header, inputs := ins, outputs := outs, kernels := kers }

/-- consensus/block.go:200-202 `Hash` -/
def hash (b : Block E) : Out Bytes := b.header.hash E

end Block

/-- consensus/id.go:29-40 `ShortID`; slicing a block hash shorter than 16 bytes panics. -/
def shortID (E : Env) (h blockHash : Bytes) : Out Bytes :=
  if blockHash.length < 16 then .panic "slice bounds out of range"
  else
    let k0 := UInt64.ofNat (ofLE (blockHash.take 8))
    let k1 := UInt64.ofNat (ofLE ((blockHash.drop 8).take 8))
    .ok ((le 8 (E.siphash k0 k1 h).toNat).take 6)

/-- consensus/block.go:334-343 `type CompactBlock`. Its `Hash`, consensus/block.go:461-463, is that of the header. -/
structure CompactBlock (E : Env) where
  header : BlockHeader
  outputs : List (Output E)
  kernels : List TxKernel
  kernelIDs : List Bytes

namespace CompactBlock
variable {E : Env}

/-- consensus/block.go:365-367: the receiver after the in-place sorts; short ids are ordered by consensus/id.go:52-62. -/
def sorted (b : CompactBlock E) : CompactBlock E :=
  { header := b.header, outputs := E.sortBy Output.less b.outputs,
    kernels := E.sortBy (TxKernel.less E) b.kernels, kernelIDs := E.sortBy bytesLt b.kernelIDs }

/-- consensus/block.go:346-391 `Bytes`; the first two counts are cut to `uint8`. -/
def bytes (b : CompactBlock E) : Out Bytes := do
  let h ← b.header.bytes
  let s := b.sorted
  pure (h ++ [UInt8.ofNat b.outputs.length] ++ [UInt8.ofNat b.kernels.length] ++
    be64 (UInt64.ofNat b.kernelIDs.length) ++ s.outputs.flatMap Output.bytes ++
    s.kernels.flatMap (TxKernel.bytes E) ++ s.kernelIDs.flatten)

/-- consensus/block.go:399-453 `Read`. A `ShortID` (slice header) takes 24 bytes. -/
def read (E : Env) : Rd (CompactBlock E) := do
  let header ← BlockHeader.read E
  let outputs ← Rd.u8
  let kernels ← Rd.u8
  let kernelIDs ← Rd.u64
  Rd.make E.maxAlloc outputs.toNat E.outputSize
  let outs ← Rd.readMany outputs.toNat (Output.read E)
  Rd.make E.maxAlloc kernels.toNat 104
  let kers ← Rd.readMany kernels.toNat (TxKernel.read E)
  Rd.make E.maxAlloc kernelIDs.toNat 24
  let ids ← Rd.readMany kernelIDs.toNat (Rd.readFull ShortIDSize)
  pure { header, outputs := outs, kernels := kers, kernelIDs := ids }

end CompactBlock

/-- consensus/transaction.go:18-27 `type Transaction` -/
structure Transaction (E : Env) where
  kernelOffset : Bytes
  inputs : List Input
  outputs : List (Output E)
  kernels : List TxKernel

namespace Transaction
variable {E : Env}

/-- consensus/transaction.go:52-54: the receiver after the in-place sorts. -/
def sorted (t : Transaction E) : Transaction E :=
  { kernelOffset := t.kernelOffset, inputs := E.sortBy (Input.less E) t.inputs,
    outputs := E.sortBy Output.less t.outputs, kernels := E.sortBy (TxKernel.less E) t.kernels }

/-- consensus/transaction.go:30-78 `Bytes`; note line 58: of an input only the commitment is written. -/
def bytes (t : Transaction E) : Bytes :=
  t.kernelOffset ++ be64 (UInt64.ofNat t.inputs.length) ++ be64 (UInt64.ofNat t.outputs.length) ++
    be64 (UInt64.ofNat t.kernels.length) ++ t.sorted.inputs.flatMap Input.commit ++
    t.sorted.outputs.flatMap Output.bytes ++ t.sorted.kernels.flatMap (TxKernel.bytes E)

/-- consensus/transaction.go:86-153 `Read`; `KernelOffset` is a `[32]byte`. -/
def read (E : Env) : Rd (Transaction E) := do
  let kernelOffset ← Rd.readFull 32
  let inputs ← Rd.u64
  let outputs ← Rd.u64
  let kernels ← Rd.u64
  if inputs > UInt64.ofNat MaxListLen then Rd.fail "transaction contains too many inputs"
  else if outputs > UInt64.ofNat MaxListLen then Rd.fail "transaction contains too many outputs"
  else if kernels > UInt64.ofNat MaxListLen then Rd.fail "transaction contains too many kernels"
  else do
    Rd.make E.maxAlloc inputs.toNat 32
    let ins ← Rd.readMany inputs.toNat Input.read
    Rd.make E.maxAlloc outputs.toNat E.outputSize
    let outs ← Rd.readMany outputs.toNat (Output.read E)
    Rd.make E.maxAlloc kernels.toNat 104
    let kers ← Rd.readMany kernels.toNat (TxKernel.read E)
    if ¬ isSorted (Input.less E) ins then Rd.fail "consensus error: inputs are not sorted"
    else if ¬ isSorted Output.less outs then Rd.fail "consensus error: outputs are not sorted"
    else if ¬ isSorted (TxKernel.less E) kers then Rd.fail "consensus error: kernels are not sorted"
    else pure { kernelOffset, inputs := ins, outputs := outs, kernels := kers }

end Transaction

/-- consensus/locator.go:15-17 `type Locator` -/
structure Locator where
  hashes : List Bytes
deriving Repr, DecidableEq

namespace Locator

/-- consensus/locator.go:20-39 `Bytes` -/
def bytes (l : Locator) : Out Bytes :=
  if l.hashes.length > MaxLocators then .fatal "invalid hashes len in locator"
  else .ok ([UInt8.ofNat l.hashes.length] ++ l.hashes.flatten)

/-- consensus/locator.go:42-63 `Read`; p2p/messages.go:427-429 `GetBlockHeaders.Read` is the same. -/
def read : Rd Locator := do
  let count ← Rd.u8
  if count.toNat > MaxLocators then Rd.fail "too big locator len from peer"
  else do
    let hashes ← Rd.readMany count.toNat (Rd.readFull BlockHashSize)
    pure { hashes }

end Locator
end Gringo
