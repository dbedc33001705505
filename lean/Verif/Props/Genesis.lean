import Verif.Props.Chain
import Verif.Concrete.Secp
/-
C53: the predefined genesis blocks, and concrete cases for the theorems about the chain.
-/
set_option maxRecDepth 100000
namespace Gringo.Props
open Gringo.Spec

/-- The predefined genesis blocks of chain/chain.go. -/
inductive Network where
  | testnet1 | testnet2 | testnet3 | testnet4 | mainnet
deriving DecidableEq

def Network.genesis (E : Env) : Network → Block E
  | .testnet1 => Gringo.testnet1 E
  | .testnet2 => Gringo.testnet2 E
  | .testnet3 => Gringo.testnet3 E
  | .testnet4 => Gringo.testnet4 E
  | .mainnet => Gringo.mainnet E

/-- What is hashed. -/
def Network.hashed : Network → Bytes
  | .testnet1 | .testnet2 | .mainnet => []
  | .testnet3 => match ({ edgeBits := 30, nonces := testnet3Nonces } : Proof).proofBytes with | .ok b => b | _ => []
  | .testnet4 => match ({ edgeBits := 29, nonces := testnet4Nonces } : Proof).proofBytes with | .ok b => b | _ => []

theorem genesis_proofBytes :
    ({ edgeBits := 0, nonces := testnet1Nonces } : Proof).proofBytes = .ok (Network.hashed .testnet1) ∧
    ({ edgeBits := 0, nonces := testnet2Nonces } : Proof).proofBytes = .ok (Network.hashed .testnet2) ∧
    ({ edgeBits := 30, nonces := testnet3Nonces } : Proof).proofBytes = .ok (Network.hashed .testnet3) ∧
    ({ edgeBits := 29, nonces := testnet4Nonces } : Proof).proofBytes = .ok (Network.hashed .testnet4) := by
  obtain ⟨v1, h1, l1, -⟩ := Proof.proofBytes_ok (p := { edgeBits := 0, nonces := testnet1Nonces }) (by decide)
  obtain ⟨v2, h2, l2, -⟩ := Proof.proofBytes_ok (p := { edgeBits := 0, nonces := testnet2Nonces }) (by decide)
  obtain ⟨v3, h3, -⟩ := Proof.proofBytes_ok (p := { edgeBits := 30, nonces := testnet3Nonces }) (by decide)
  obtain ⟨v4, h4, -⟩ := Proof.proofBytes_ok (p := { edgeBits := 29, nonces := testnet4Nonces }) (by decide)
  have e1 : v1 = [] := List.length_eq_zero_iff.1 l1
  have e2 : v2 = [] := List.length_eq_zero_iff.1 l2
  refine ⟨by rw [h1, e1]; rfl, by rw [h2, e2]; rfl, ?_, ?_⟩
  · simp only [Network.hashed, h3]
  · simp only [Network.hashed, h4]

theorem genesis_hash (E : Env) (n : Network) : HasHash (n.genesis E) (E.blake2b n.hashed) := by
  obtain ⟨h1, h2, h3, h4⟩ := genesis_proofBytes
  cases n <;> simp only [HasHash, Block.hash, BlockHeader.hash, Network.genesis, testnet1, testnet2, testnet3,
    testnet4, mainnet, genesisBlock, genesisHeader, h1, h2, h3, h4, Out.bind_ok, Out.pure_def]
  all_goals rfl

/-- The packed proofs have 0, 158 or 153 bytes. -/
def Network.hashedLen : Network → Nat
  | .testnet1 | .testnet2 | .mainnet => 0
  | .testnet3 => 158
  | .testnet4 => 153

theorem hashed_length (n : Network) : n.hashed.length = n.hashedLen := by
  have h : (Network.hashed .testnet3).length = 158 ∧ (Network.hashed .testnet4).length = 153 := by
    obtain ⟨v3, h3, l3, -⟩ := Proof.proofBytes_ok (p := { edgeBits := 30, nonces := testnet3Nonces }) (by decide)
    obtain ⟨v4, h4, l4, -⟩ := Proof.proofBytes_ok (p := { edgeBits := 29, nonces := testnet4Nonces }) (by decide)
    simp only [Network.hashed, h3, h4]
    exact ⟨l3, l4⟩
  cases n
  · rfl
  · rfl
  · exact h.1
  · exact h.2
  · rfl

/-- **C53 is false of the code: hashes.** Whatever the hash function, three of the five genesis blocks have
the same hash. -/
theorem C53_refuted_hash (E : Env) : ∃ h, HasHash (Network.testnet1.genesis E) h ∧
    HasHash (Network.testnet2.genesis E) h ∧ HasHash (Network.mainnet.genesis E) h :=
  ⟨E.blake2b [], genesis_hash E .testnet1, genesis_hash E .testnet2, genesis_hash E .mainnet⟩

/-- **C53 is false of the code: serialisation.** Serialising any of them ends the process. -/
theorem C53_refuted_bytes (E : Env) (n : Network) : ∃ m, (n.genesis E).header.bytes = .fatal m := by
  cases n <;> exact ⟨_, rfl⟩

/-- **C53, the part that holds**: the hashes of two networks that are not both among Testnet1, Testnet2 and
Mainnet are only equal if the hash function has a collision. -/
theorem C53_distinct_partial (E : Env) (m n : Network)
    (hmn : m ≠ n) (h3 : m ∈ [.testnet3, .testnet4] ∨ n ∈ [Network.testnet3, .testnet4])
    (h : Bytes) (hm : HasHash (m.genesis E) h) (hn : HasHash (n.genesis E) h) :
    m.hashed ≠ n.hashed ∧ E.blake2b m.hashed = E.blake2b n.hashed := by
  refine ⟨?_, ?_⟩
  · intro he
    have hl := congrArg List.length he
    rw [hashed_length, hashed_length] at hl
    revert hl h3 hmn
    clear he hm hn
    revert m n
    intro m n
    cases m <;> cases n <;> decide
  · have h1 : Out.ok (E.blake2b m.hashed) = .ok h := (genesis_hash E m).symm.trans hm
    have h2 : Out.ok (E.blake2b n.hashed) = .ok h := (genesis_hash E n).symm.trans hn
    rw [Out.ok.injEq] at h1 h2
    rw [h1, h2]

/-! ### C102 -/

/-- The days of a month (`m` from 1 to 12) of the year `y`. -/
def daysOfMonth (y m : Nat) : Nat :=
  if m = 2 then if y % 4 = 0 ∧ (y % 100 ≠ 0 ∨ y % 400 = 0) then 29 else 28
  else if m = 4 ∨ m = 6 ∨ m = 9 ∨ m = 11 then 30 else 31

/-- Seconds from the start of 1970 to the given hour of a later day, by counting months. -/
def secondsTo (y m d hour : Nat) : Nat :=
  let months := (List.range (12 * (y - 1970) + (m - 1))).map fun k => daysOfMonth (1970 + k / 12) (1 + k % 12)
  (months.sum + (d - 1)) * 86400 + hour * 3600

/-- The moment a network was started (UTC), and the total difficulty it starts with. -/
def Network.start : Network → Nat × Nat
  | .testnet1 => (secondsTo 2017 11 16 20, 10)
  | .testnet2 => (secondsTo 2017 11 16 20, 0)
  | .testnet3 => (secondsTo 2018 7 8 18, 30000)
  | .testnet4 => (secondsTo 2018 10 17 20, 1856000000)
  | .mainnet => (secondsTo 2018 8 14 0, 1000)

/-- **C102, the part that holds.** Every predefined genesis block is at height 0 and has an empty body, names 32
bytes of 0xff as its predecessor, has the network's starting time and total difficulty, and carries a proof with 42
ascending nonces. On a storage without blocks the chain starts there. -/
theorem C102_start_partial (E : Env) (n : Network) (st : Storage E) (empty : st.getLastBlock = none) :
    let g := n.genesis E
    g.header.height.toNat = 0 ∧ g.inputs = [] ∧ g.outputs = [] ∧ g.kernels = [] ∧
    g.header.previous = List.replicate 32 255 ∧
    g.header.timestamp = Time.unix n.start.1 ∧ g.header.totalDifficulty.toNat = n.start.2 ∧
    g.header.pow.nonces.length = 42 ∧ g.header.pow.nonces.Pairwise (fun a b => a.toNat < b.toNat) ∧
    (Chain.new g st).head = g ∧ (Chain.new g st).height.toNat = 0 ∧
    (Chain.new g st).totalDifficulty.toNat = n.start.2 := by
  refine ⟨?_, ?_, ?_, ?_, ?_, ?_, ?_, ?_, ?_, ?_, ?_, ?_⟩
  · cases n <;> rfl
  · cases n <;> rfl
  · cases n <;> rfl
  · cases n <;> rfl
  · cases n <;> rfl
  · cases n <;> (simp only [Network.genesis, testnet1, testnet2, testnet3, testnet4, mainnet, genesisBlock,
      genesisHeader]; decide +kernel)
  · cases n <;> (simp only [Network.genesis, testnet1, testnet2, testnet3, testnet4, mainnet, genesisBlock,
      genesisHeader]; decide +kernel)
  · cases n <;> rfl
  · cases n <;> (simp only [Network.genesis, testnet1, testnet2, testnet3, testnet4, mainnet, genesisBlock,
      genesisHeader]; decide +kernel)
  · simp [Chain.new, empty]
  · simp only [Chain.new, empty]; cases n <;> rfl
  · simp only [Chain.new, empty]
    cases n <;> (simp only [Network.genesis, testnet1, testnet2, testnet3, testnet4, mainnet, genesisBlock,
      genesisHeader]; decide +kernel)

/-- The nonce in the genesis header and the size of the graph its proof is for, where one is given. -/
def Network.mined : Network → Nat × Nat
  | .testnet1 => (28205, 0)
  | .testnet2 => (70081, 0)
  | .testnet3 => (4956988373127691, 30)
  | .testnet4 => (8612241555342799290, 29)
  | .mainnet => (28205, 0)

/-- **C102, the other header fields.** Version 1, the nonce and graph size of the network, empty trees with roots of
zeros, offset and sum zero, no scaling. -/
theorem C102_header (E : Env) (n : Network) :
    let h := (n.genesis E).header
    h.version.toNat = 1 ∧ h.nonce.toNat = n.mined.1 ∧ h.pow.edgeBits.toNat = n.mined.2 ∧
    h.utxoRoot = List.replicate 32 0 ∧ h.rangeProofRoot = List.replicate 32 0 ∧ h.kernelRoot = List.replicate 32 0 ∧
    h.previousRoot = [] ∧ (∀ b ∈ h.totalKernelOffset, b = 0) ∧ (∀ b ∈ h.totalKernelSum, b = 0) ∧
    h.outputMmrSize.toNat = 0 ∧ h.kernelMmrSize.toNat = 0 ∧ h.difficulty.toNat = 0 ∧ h.scalingDifficulty.toNat = 0 := by
  cases n <;> simp only [Network.genesis, testnet1, testnet2, testnet3, testnet4, mainnet, genesisBlock,
      genesisHeader] <;> decide +kernel

/-- **C102 is false of the code.** No predefined genesis block passes the node's own `Validate`, whatever the clock
says: it is refused, or (Testnet4) the process ends. -/
theorem C102_refuted (E : Env) (n : Network) : (n.genesis E).validate ≠ .ok () ∧ (n.genesis E).header.validate E ≠ .ok () ∧
    (n = .testnet4 → ¬ (n.genesis E).header.timestamp.sub E.now > 720 * 1000000000 →
      ∃ m, (n.genesis E).validate = .fatal m) := by
  have key : (n.genesis E).header.validate E ≠ .ok () ∧
    (n = .testnet4 → ¬ (n.genesis E).header.timestamp.sub E.now > 720 * 1000000000 →
      ∃ m, (n.genesis E).header.validate E = .fatal m) := by
    unfold BlockHeader.validate
    by_cases ht : (n.genesis E).header.timestamp.sub E.now > maxFuture
    · constructor
      · rw [if_pos ht]; split <;> simp
      · intro _ h; exact absurd ht h
    · rw [if_neg ht]
      constructor
      · cases n <;> exact fun h => nomatch h
      · rintro rfl -; exact ⟨_, rfl⟩
  refine ⟨?_, key.1, ?_⟩
  · unfold Block.validate
    cases h : (n.genesis E).header.validate E with
    | ok u => exact absurd h key.1
    | _ => simp
  · intro h1 h2
    obtain ⟨m, hm⟩ := key.2 h1 h2
    exact ⟨m, by unfold Block.validate; rw [hm]; rfl⟩

/-- `C102_start_partial` for the node's own storage. -/
example : (Chain.new (testnet4 Concrete.env) (sqlStorage Concrete.env)).totalDifficulty.toNat = 1856000000 :=
  (C102_start_partial Concrete.env .testnet4 (sqlStorage Concrete.env) rfl).2.2.2.2.2.2.2.2.2.2.2

/-- `C102_refuted`: in 2024 `Validate` of the Testnet4 genesis block ends the process. -/
example : ∃ m, (testnet4 { Toy.env with now := Time.unix 1700000000 }).validate = .fatal m :=
  (C102_refuted { Toy.env with now := Time.unix 1700000000 } .testnet4).2.2 rfl (by decide +kernel)

end Gringo.Props
