import Verif.Props.Maturity
import Verif.Props.Secp256k1
import Verif.Props.SessionWitness
import Verif.Props.PoolRace
import Verif.Props.Addresses
import Verif.Props.Refusal
import Verif.Props.Waited
/-
Concrete cases that meet the hypotheses of theorems whose files have none.
-/
set_option maxRecDepth 100000
namespace Gringo.Props
open Gringo.Spec Gringo.P2P

/-- `C28_output_too_long`: an output that announces a range proof of 5135 bytes, with the codec of the toy environment. -/
example (rest : Bytes) : ∃ e, Output.read Toy.env (1 :: (Toy.env.pointBytes ⟨5, 1⟩ ++ be64 5135 ++ rest)) = (.err e, rest) :=
  C28_output_too_long Toy.env Toy.OKPoint Toy.pointCodec 1 ⟨5, 1⟩ ⟨by decide, by decide⟩ 5135 (by decide) rest

/-- `C38_from_hash_partial`: a hash that starts with 00 01 and one that starts with 0f. -/
example : ∃ d1 d2 : UInt64, difficultyFromHash (0 :: 1 :: List.replicate 30 0) = .ok d1 ∧
    difficultyFromHash (0x0f :: List.replicate 31 0) = .ok d2 ∧ d1.toNat = 4095 ∧ d2 ≤ d1 := by
  obtain ⟨d1, d2, h1, h2, h3, h4, -⟩ := C38_from_hash_partial (0 :: 1 :: List.replicate 30 0) (0x0f :: List.replicate 31 0)
    (by decide) (by decide) (by decide) (by decide)
  exact ⟨d1, d2, h1, h2, by rw [h3]; decide, h4⟩

/-- `C49_tip_partial`: the node as started is told its own genesis block. -/
example : (Chain.new (testnet1 Concrete.env) (sqlStorage _)).processBlock (sqlStorage _) (testnet1 _) =
    (.ok (), Chain.new (testnet1 Concrete.env) (sqlStorage _)) :=
  C49_tip_partial (Chain.new (testnet1 Concrete.env) (sqlStorage _)) _ _ (genesis_hash Concrete.env .testnet1)

/-- `C50_limit`: any storage that holds a list of blocks keeps to the limit. -/
example (blocks : List (Block Concrete.env)) (loc : Locator) :
    ∃ r, (Chain.new (testnet1 Concrete.env) (sqlStorage _)).getBlockHeaders (listStorage blocks) loc = .ok r ∧
      r.length ≤ 512 :=
  C50_limit _ _ loc _ (genesis_hash Concrete.env .testnet1) fun _ _ => List.length_take_le _ _

/-- `C51_error_partial`: the fresh node. -/
example : ∃ z, InvalidWalk (sqlStorage Concrete.env) (testnet1 Concrete.env) z ∧
    (Chain.new (testnet1 Concrete.env) (sqlStorage _)).getBlock (sqlStorage _) z.header.previous = none :=
  C51_error_partial (Chain.new (testnet1 Concrete.env) (sqlStorage _)) _ (genesis_hash Concrete.env .testnet1) _ 7 _
    (C51_refuted_fresh Concrete.env (by decide +kernel) 6)

/-- `C58_counter`: the pool with one connection counts one. -/
example (resolve : String → Option TCPAddr) (hr : ∀ a, resolve "" = some a → a.port = 0) (addr : String)
    (ha : Admissible resolve addr) : (Pool.live addr).connected ≤ 16 ∧ (Pool.live addr).connected = 1 :=
  ⟨(C58_counter _ (live_reachable hr ha)).1, rfl⟩

/-- `C74_first`: the first draw is too large and is dropped. -/
example (post : List Bytes) : Secp.randomInt (List.replicate 32 0xff :: be 32 5 :: post) = some 5 :=
  C74_first [List.replicate 32 0xff] (be 32 5) post (by decide +kernel) (by decide +kernel)

/-- `C93_not_dialled_partial`: an address that resolves, at which nobody answers. -/
example : (newPeer Toy.env oneHost (fun _ => none) sampleNonces (List.replicate 32 9) "seed.example:13414").isOpen = false :=
  (C93_not_dialled_partial (E := Toy.env) oneHost (fun _ => none) sampleNonces _ _ fun _ _ => rfl).2.1

/-- `C112_headers`: the header of the real block, twice. -/
example : ∃ x : BlockHeader, Chain.processHeaders Concrete.env [x, x] = .ok () ∧
    ∀ h ∈ [x, x], ∃ wire rest, BlockHeader.read Concrete.env wire = (.ok h, rest) := by
  obtain ⟨b, hb, hv⟩ := C32_real_block
  unfold Vectors.block at hb
  split at hb
  · rename_i x hx
    cases hb
    obtain ⟨⟨r1, h1⟩, -⟩ := block_read_ok hx
    refine ⟨b.header, (C89_refuted_twice _ _ ((C32_block_rule b).1 hv).1).1, ?_⟩
    intro h hm
    simp only [List.mem_cons, List.not_mem_nil, or_false, or_self] at hm
    exact ⟨_, _, hm ▸ h1⟩
  · cases hb

/-- `C117_refuted` on secp256k1: the signature with nonce `k` under the key `x` satisfies the equation, for every message
whose challenge does not make `s` zero. -/
example (x k : Nat) (m : Bytes) (e : Nat) (he : e < 2 ^ 256)
    (hd : Concrete.env.sha256 (hashedForChallenge (Curve.φ (k • Curve.g)) (Curve.φ (x • Curve.g)) m) = be 32 e)
    (hs : (k + e * x) % Secp.N ≠ 0) :
    Secp.verifySignature Concrete.env (Curve.φ (x • Curve.g)) m ⟨Secp.N - (k + e * x) % Secp.N, Curve.φ (k • Curve.g)⟩ = true := by
  refine (C117_refuted Curve.lawful (x • Curve.g) (k • Curve.g) m _ e he hd (Nat.pos_of_ne_zero hs)
    (Nat.mod_lt _ (by decide)) ?_).1
  have h : (k + e * x) • Curve.g = k • Curve.g + e • x • Curve.g := by rw [add_smul, mul_smul]
  rw [← h]
  conv_rhs => rw [← Nat.mod_add_div (k + e * x) Secp.N]
  rw [add_smul, mul_smul, Curve.lawful.order, add_zero]

end Gringo.Props
