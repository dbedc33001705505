import Verif.Model.Difficulty
import Verif.Model.Messages
/-
Model of chain/chain.go, chain/storage.go and storage/mysql.go. Log output is omitted. Nil and empty byte
slices are identified. Locks are omitted: `GetBlock` and `GetBlockID` read the storage without the chain's lock, the
other methods hold it. Nothing in the repository writes to a storage, so a method call sees one storage.
-/
namespace Gringo

/-- consensus/block.go:64-70 `type BlockID`; nil pointers are `none`. -/
structure BlockID where
  hash : Option Bytes
  height : Option UInt64
deriving Repr, DecidableEq

/-- chain/storage.go:12-24 `type Storage`: the methods the repository calls, as functions of the contents. -/
structure Storage (E : Env) where
  getBlock : BlockID → Option (Block E)
  getLastBlock : Option (Block E)
  «from» : BlockID → Nat → List (Block E)

/-- storage/mysql.go:16-55: `SqlStorage` is a stub that returns nil everywhere. -/
def sqlStorage (E : Env) : Storage E where
  getBlock _ := none
  getLastBlock := none
  «from» _ _ := []

/-- chain/chain.go:171-185 `type Chain` without the lock; the storage is passed separately. The fields are what the
getters return: chain/chain.go:208-210, 213-215, 218-220, 360-362. -/
structure Chain (E : Env) where
  genesis : Block E
  head : Block E
  height : UInt64
  totalDifficulty : UInt64

namespace Chain
variable {E : Env}

/-- chain/chain.go:187-205 `New` -/
def new (genesis : Block E) (st : Storage E) : Chain E :=
  match st.getLastBlock with
  | some last =>
    { genesis, head := last, height := last.header.height, totalDifficulty := last.header.totalDifficulty }
  | none =>
    { genesis, head := genesis, height := genesis.header.height,
      totalDifficulty := genesis.header.totalDifficulty }

/-- chain/chain.go:236-260: the loop of `GetBlockHeaders` over the locator hashes. -/
def headersLoop (c : Chain E) (st : Storage E) : List Bytes → Out (List BlockHeader)
  | [] => .ok []
  | hash :: rest => do
    let headHash ← c.head.hash
    if hash = headHash then pure []
    else
      match st.from { hash := some hash, height := none } (P2P.MaxBlockHeaders + 1) with
      | [] => headersLoop c st rest
      | _ :: blocks => pure (blocks.map (·.header))

/-- chain/chain.go:223-262 `GetBlockHeaders` -/
def getBlockHeaders (c : Chain E) (st : Storage E) (loc : Locator) : Out (List BlockHeader) :=
  headersLoop c st (if loc.hashes.length > MaxLocators then loc.hashes.take MaxLocators else loc.hashes)

/-- chain/chain.go:265-274 `GetBlock` -/
def getBlock (_ : Chain E) (st : Storage E) (hash : Bytes) : Option (Block E) :=
  if hash = [] then none else st.getBlock { hash := some hash, height := none }

/-- chain/chain.go:277-279 `GetBlockID` -/
def getBlockID (_ : Chain E) (st : Storage E) (id : BlockID) : Option (Block E) := st.getBlock id

/-- chain/chain.go:281-288 `ProcessHeaders` -/
def processHeaders (E : Env) : List BlockHeader → Out Unit
  | [] => .ok ()
  | h :: rest => do
    h.validate E
    processHeaders E rest

/-- chain/chain.go:333: 71 -/
def diffLimit : Nat := DifficultyAdjustWindow + MedianTimeWindow

/-- chain/chain.go:311-354: the part of `ProcessBlock` after the block itself was validated. -/
def checkParent (st : Storage E) (b : Block E) : Out Unit :=
  let prevHeight := b.header.height - 1
  match st.getBlock { hash := some b.header.previous, height := some prevHeight } with
  | none => .ok ()
  | some prev =>
    if ¬ b.header.timestamp.after prev.header.timestamp then .err "invalid block time"
    else do
      let d ← prev.header.pow.toDifficulty E
      if b.header.totalDifficulty ≠ prev.header.totalDifficulty + d then .err "wrong block total difficulty"
      else
        let fromHeight :=
          if b.header.height > UInt64.ofNat diffLimit then b.header.height - UInt64.ofNat diffLimit else 0
        do
          let diffAvg ← nextDifficulty
            ((st.from { hash := none, height := some fromHeight } diffLimit).map (·.header))
          if b.header.difficulty < diffAvg then .err "difficulty is too low" else pure ()

/-- chain/chain.go:290-357 `ProcessBlock`: the returned error and the chain afterwards ("TODO: applying
block"). -/
def processBlock (c : Chain E) (st : Storage E) (b : Block E) : Out Unit × Chain E :=
  let result : Out Unit := do
    let hh ← c.head.hash
    let bh ← b.hash
    if hh = bh then pure ()
    else do
      b.validate
      checkParent st b
  (result, c)

/-- chain/chain.go:372-384: the loop of `Validate`; `none` when it has not ended after `n` rounds. Note line
374: `if err == nil { return err }`. -/
def validateLoop (c : Chain E) (st : Storage E) : Nat → Block E → Option (Out Unit)
  | 0, _ => none
  | n + 1, block =>
    match c.genesis.hash with
    | .ok gh =>
      if block.header.previous = gh then some (.ok ())
      else
        match block.validate with
        | .ok _ => some (.ok ())
        | .panic p => some (.panic p)
        | .fatal m => some (.fatal m)
        | .err _ =>
          match c.getBlock st block.header.previous with
          | none => some (.err "invalid previous hash. blockchain integrity is broken")
          | some prev => validateLoop c st n prev
    | .err e => some (.err e)
    | .panic p => some (.panic p)
    | .fatal m => some (.fatal m)

/-- chain/chain.go:365-387 `Validate`, within `n` rounds. -/
def validate (c : Chain E) (st : Storage E) (n : Nat) : Option (Out Unit) := validateLoop c st n c.head

end Chain

/-- chain/chain.go:107-111: `(2 << (29-24)) * 29 * 1000000` -/
def testnet4InitialDifficulty : UInt64 := 2 * 2 ^ (29 - 24) * 29 * 1000000

/-- The fields the genesis headers of chain/chain.go:17-169 share; what they leave out is Go's zero value. -/
def genesisHeader (ts : Int) (td nonce : UInt64) (offset ksum : Bytes) (edgeBits : UInt8) (nonces : List UInt32) :
    BlockHeader :=
  { version := 1, height := 0, previous := List.replicate 32 0xff, previousRoot := [], timestamp := Time.unix ts,
    utxoRoot := List.replicate 32 0, rangeProofRoot := List.replicate 32 0, kernelRoot := List.replicate 32 0,
    nonce, totalKernelOffset := offset, totalKernelSum := ksum, outputMmrSize := 0, kernelMmrSize := 0,
    pow := { edgeBits, nonces }, difficulty := 0, totalDifficulty := td, scalingDifficulty := 0 }

/-- The genesis blocks have only a header. -/
def genesisBlock (E : Env) (h : BlockHeader) : Block E := { header := h, inputs := [], outputs := [], kernels := [] }

/-- The nonces of chain/chain.go:31-39 and 158-166 (the same in Testnet1 and Mainnet). -/
def testnet1Nonces : List UInt32 := [
    0x21e, 0x7a2, 0xeae, 0x144e, 0x1b1c, 0x1fbd,
    0x203a, 0x214b, 0x293b, 0x2b74, 0x2bfa, 0x2c26,
    0x32bb, 0x346a, 0x34c7, 0x37c5, 0x4164, 0x42cc,
    0x4cc3, 0x55af, 0x5a70, 0x5b14, 0x5e1c, 0x5f76,
    0x6061, 0x60f9, 0x61d7, 0x6318, 0x63a1, 0x63fb,
    0x649b, 0x64e5, 0x65a1, 0x6b69, 0x70f8, 0x71c7,
    0x71cd, 0x7492, 0x7b11, 0x7db8, 0x7f29, 0x7ff8]
/-- chain/chain.go:60-68 -/
def testnet2Nonces : List UInt32 := [
    0x43ee48, 0x18d5a49, 0x2b76803, 0x3181a29, 0x39d6a8a, 0x39ef8d8,
    0x478a0fb, 0x69c1f9e, 0x6da4bca, 0x6f8782c, 0x9d842d7, 0xa051397,
    0xb56934c, 0xbf1f2c7, 0xc992c89, 0xce53a5a, 0xfa87225, 0x1070f99e,
    0x107b39af, 0x1160a11b, 0x11b379a8, 0x12420e02, 0x12991602, 0x12cc4a71,
    0x13d91075, 0x15c950d0, 0x1659b7be, 0x1682c2b4, 0x1796c62f, 0x191cf4c9,
    0x19d71ac0, 0x1b812e44, 0x1d150efe, 0x1d15bd77, 0x1d172841, 0x1d51e967,
    0x1ee1de39, 0x1f35c9b3, 0x1f557204, 0x1fbf884f, 0x1fcf80bf, 0x1fd59d40]
/-- chain/chain.go:95-102 -/
def testnet3Nonces : List UInt32 := [
    0xa420dc, 0xc8ffee, 0x10e433e, 0x1de9428, 0x2ed4cea, 0x52d907b,
    0x5af0e3f, 0x6b8fcae, 0x8319b53, 0x845ca8c, 0x8d2a13e, 0x8d6e4cc,
    0x9349e8d, 0xa7a33c5, 0xaeac3cb, 0xb193e23, 0xb502e19, 0xb5d9804,
    0xc9ac184, 0xd4f4de3, 0xd7a23b8, 0xf1d8660, 0xf443756, 0x10b833d2,
    0x11418fc5, 0x11b8aeaf, 0x131836ec, 0x132ab818, 0x13a46a55, 0x13df89fe,
    0x145d65b5, 0x166f9c3a, 0x166fe0ef, 0x178cb36f, 0x185baf68, 0x1bbfe563,
    0x1bd637b4, 0x1cfc8382, 0x1d1ed012, 0x1e391ca5, 0x1e999b4c, 0x1f7c6d21]
/-- chain/chain.go:131-138 -/
def testnet4Nonces : List UInt32 := [
    0x46f3b4, 0x1135f8c, 0x1a1596f, 0x1e10f71, 0x41c03ea, 0x63fe8e7,
    0x65af34f, 0x73c16d3, 0x8216dc3, 0x9bc75d0, 0xae7d9ad, 0xc1cb12b,
    0xc65e957, 0xf67a152, 0xfac6559, 0x100c3d71, 0x11eea08b, 0x1225dfbb,
    0x124d61a1, 0x132a14b4, 0x13f4ec38, 0x1542d236, 0x155f2df0, 0x1577394e,
    0x163c3513, 0x19349845, 0x19d46953, 0x19f65ed4, 0x1a0411b9, 0x1a2fa039,
    0x1a72a06c, 0x1b02ddd2, 0x1b594d59, 0x1b7bffd3, 0x1befe12e, 0x1c82e4cd,
    0x1d492478, 0x1de132a5, 0x1e578b3c, 0x1ed96855, 0x1f222896, 0x1fea0da6]

/-- chain/chain.go:17-42, `time.Date(2017, 11, 16, 20, 0, 0)` -/
def testnet1 (E : Env) : Block E := genesisBlock E (genesisHeader 1510862400 10 28205 [] [] 0 testnet1Nonces)
/-- chain/chain.go:45-71 -/
def testnet2 (E : Env) : Block E := genesisBlock E (genesisHeader 1510862400 0 70081 [] [] 0 testnet2Nonces)
/-- chain/chain.go:77-105, `time.Date(2018, 7, 8, 18, 0, 0)` -/
def testnet3 (E : Env) : Block E := genesisBlock E (genesisHeader 1531072800 30000 4956988373127691
  (List.replicate 32 0) (List.replicate 33 0) 30 testnet3Nonces)
/-- chain/chain.go:113-141, `time.Date(2018, 10, 17, 20, 0, 0)` -/
def testnet4 (E : Env) : Block E := genesisBlock E (genesisHeader 1539806400 testnet4InitialDifficulty
  8612241555342799290 (List.replicate 32 0) (List.replicate 33 0) 29 testnet4Nonces)
/-- chain/chain.go:144-169, `time.Date(2018, 8, 14, 0, 0, 0)` -/
def mainnet (E : Env) : Block E := genesisBlock E (genesisHeader 1534204800 1000 28205 [] [] 0 testnet1Nonces)

end Gringo
