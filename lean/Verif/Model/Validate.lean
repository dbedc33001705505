import Verif.Model.Block
/-
Model of the validation methods in consensus/block.go and consensus/proof.go. Log output is omitted.
-/
namespace Gringo

/-- consensus/consensus.go:91,94 -/
def HardForkV2Height : UInt64 := 95000
@[inherit_doc HardForkV2Height] def HardForkInterval : UInt64 := 250000
/-- consensus/consensus.go:57 -/
def DefaultMinEdgeBits : UInt8 := 30
/-- consensus/consensus.go:60 -/
def SecondPowEdgeBits : UInt8 := 29
/-- consensus/consensus.go:50: `BlockTimeSec time.Duration = 60` -/
def BlockTimeSec : Int := 60
/-- consensus/consensus.go:39,44 -/
def MaxBlockCoinbaseOutputs : Nat := 1
@[inherit_doc MaxBlockCoinbaseOutputs] def MaxBlockCoinbaseKernels : Nat := 1
/-- consensus/block.go:31,51: `CoinbaseOutput` and `CoinbaseKernel` are `1 << 0`. -/
def CoinbaseOutput : UInt8 := 1
@[inherit_doc CoinbaseOutput] def CoinbaseKernel : UInt8 := 1

/-- consensus/block.go:1033-1043 `ValidateBlockVersion` -/
def validateBlockVersion (height : UInt64) (version : UInt16) : Bool :=
  if height < HardForkV2Height then version == 1
  else if height < HardForkInterval then version == 2
  else if height < 2 * HardForkInterval then version == 3
  else false

/-- consensus/proof.go:32-41 `(*Proof).Validate`; the receiver and the size argument are not used, the
proof is taken from the header. -/
def Proof.validate (E : Env) (h : BlockHeader) : Out Unit := do
  let key ← h.bytesWithoutPOW
  if (Cuckoo.newCuckaroo E key).verify h.pow.nonces h.pow.edgeBits then pure ()
  else .err "invalid pow verify"

/-- `time.Second * 12 * BlockTimeSec` in nanoseconds. -/
def maxFuture : Int := 1000000000 * 12 * BlockTimeSec

/-- consensus/block.go:996-1030 `(*BlockHeader).Validate` -/
def BlockHeader.validate (E : Env) (h : BlockHeader) : Out Unit :=
  if ¬ validateBlockVersion h.height h.version then .err "invalid block version"
  else if h.timestamp.sub E.now > maxFuture then .err "invalid block time"
  else
    let isPrimaryPow := h.pow.edgeBits != SecondPowEdgeBits
    if h.pow.edgeBits < DefaultMinEdgeBits ∧ isPrimaryPow then .err "cuckoo size too small"
    else if isPrimaryPow ∧ h.scalingDifficulty ≠ 1 then .err "invalid scaling difficulty"
    else Proof.validate E h

/-- consensus/block.go:735-751 `(*TxKernel).Validate` -/
def TxKernel.validate (E : Env) (k : TxKernel) : Out Unit :=
  let msg := Secp.computeMessage k.fee k.lockHeight
  let sig := Secp.decodeSignature E k.excessSig
  if Secp.verifySignature E k.excess msg sig then .ok ()
  else .err "signature isn't valid"

/-- consensus/block.go:613-615 `(*Output).Validate` -/
def Output.validate {E : Env} (_ : Output E) : Out Unit := .ok ()

namespace Block
variable {E : Env}

/-- consensus/block.go:248-270 `verifyCoinbase`: the loop over the outputs, with its counter. -/
def verifyCoinbaseLoop : Nat → List (Output E) → Out Unit
  | _, [] => .ok ()
  | coinbase, o :: rest =>
    if o.features &&& CoinbaseOutput = CoinbaseOutput then
      if coinbase + 1 > MaxBlockCoinbaseOutputs then .err "invalid block with few coinbase outputs"
      else do
        o.validate
        verifyCoinbaseLoop (coinbase + 1) rest
    else verifyCoinbaseLoop coinbase rest

/-- consensus/block.go:272-296 `verifyKernels`: the loop over the kernels, with its counter. -/
def verifyKernelsLoop (E : Env) : Nat → List TxKernel → Out Unit
  | _, [] => .ok ()
  | coinbase, k :: rest =>
    if k.features &&& CoinbaseKernel = CoinbaseKernel then
      if coinbase + 1 > MaxBlockCoinbaseKernels then .err "invalid block with few coinbase kernels"
      else do
        k.validate E
        verifyKernelsLoop E (coinbase + 1) rest
    else verifyKernelsLoop E coinbase rest

/-- consensus/block.go:299-313 `verifySorted` -/
def verifySorted (b : Block E) : Out Unit :=
  if ¬ isSorted (Input.less E) b.inputs then .err "block inputs are not sorted"
  else if ¬ isSorted Output.less b.outputs then .err "block outputs are not sorted"
  else if ¬ isSorted (TxKernel.less E) b.kernels then .err "block kernels are not sorted"
  else .ok ()

/-- consensus/block.go:316-326 `verifyRangeProofs` -/
def verifyRangeProofs : List (Output E) → Out Unit
  | [] => .ok ()
  | o :: rest =>
    if E.rangeVerify o.commit o.proof then verifyRangeProofs rest
    else .err "proof verification failed"

/-- consensus/block.go:205-246 `(*Block).Validate` -/
def validate (b : Block E) : Out Unit := do
  b.header.validate E
  if b.outputs.length = 0 ∨ b.kernels.length = 0 then .err "invalid nocoinbase block"
  else do
    b.verifySorted
    verifyCoinbaseLoop 0 b.outputs
    verifyRangeProofs b.outputs
    verifyKernelsLoop E 0 b.kernels

end Block

end Gringo
