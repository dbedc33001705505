import Verif.Props.Sync
import Verif.Props.ChainWitness
/-
Concrete cases for the theorems about message handling (C60, C61, C63, C75, C76).
-/
namespace Gringo.Props
open Gringo.Spec Gringo.P2P

/-- A node like the program's with a peer known by host name and another one, connected by connections 0, 1. -/
def toyNode : Node Toy.env where
  chain := Chain.new (testnet1 Toy.env) (sqlStorage Toy.env)
  storage := sqlStorage Toy.env
  mempool := none
  table := [("seed.example:13414", { PeerInfo.fresh with status := .connected, peer := some 0, height := 5 }),
    ("10.0.0.2:13414", { PeerInfo.fresh with status := .connected, peer := some 1 })]
  online := ["seed.example:13414", "10.0.0.2:13414"]

/-- The first peer. -/
def toySender : Sender := { addr := "seed.example:13414", conn := 0, remote := "10.0.0.1:13414" }

theorem toy_known : Known toyNode toySender := by unfold Known; decide

/-- The second peer, known by its remote address. -/
def toySender2 : Sender := { addr := "10.0.0.2:13414", conn := 1, remote := "10.0.0.2:13414" }

theorem toy_known2 : Known toyNode toySender2 := by unfold Known; decide

theorem toy_remote2 : toySender2.remote ∈ toyNode.table.map (·.1) := by decide

theorem toy_like : LikeMain toyNode := ⟨rfl, rfl, rfl⟩

/-- A block of the chain's height with a wrong version. -/
def badBlock : Block Toy.env := { sampleBlock with header := { sampleHeader with height := 0, version := 7 } }

theorem badBlock_rejected : (toyNode.chain.processBlock toyNode.storage badBlock).1 = .err "invalid block version" := by
  obtain ⟨t1, -, t3⟩ := toyHash_ok
  have h1 : toyNode.chain.head.hash = .ok (Toy.env.blake2b []) := genesis_hash Toy.env .testnet1
  have h2 : badBlock.hash = .ok toyHash := t1
  unfold Chain.processBlock
  simp only [h1, h2, Out.bind_ok]
  rw [if_neg (fun h => t3 h.symm)]
  rfl

/-- `C61_refuted`: the bad block goes to the second peer. -/
example (w : World) : .relay "10.0.0.2:13414" 1 badBlock ∈ (processMessage w toyNode toySender (.block badBlock)).effects :=
  C61_refuted w toyNode toySender badBlock toy_known _ badBlock_rejected (by decide) rfl _ (by decide) (by decide)
    _ rfl 1 rfl (.inr (by decide))

/-- `C61_known_remote_partial` and `C76_no_echo`: the first peer is behind in total difficulty and gets a
block from the second one. -/
example (w : World) : .relay "seed.example:13414" 0 (testnet1 Toy.env) ∈
    (processMessage w toyNode toySender2 (.block (testnet1 Toy.env))).effects := by
  have h1 : toyNode.chain.head.hash = .ok (Toy.env.blake2b []) := genesis_hash Toy.env .testnet1
  have h2 : (testnet1 Toy.env).hash = .ok (Toy.env.blake2b []) := genesis_hash Toy.env .testnet1
  have h3 : (toyNode.chain.processBlock toyNode.storage (testnet1 Toy.env)).1 = .ok () := by
    unfold Chain.processBlock
    simp only [h1, h2, Out.bind_ok]
    rw [if_pos trivial]; rfl
  rw [process_known w toyNode toySender2 toy_known2]
  simp only [handle, orBan, h3]
  have h4 : (testnet1 Toy.env).header.height = (toyNode.chain.processBlock toyNode.storage (testnet1 Toy.env)).2.height :=
    rfl
  rw [if_pos h4]
  exact List.mem_map.2 ⟨("seed.example:13414", 0), by decide +kernel, rfl⟩

/-- `C63_refuted`: the genesis block, of height 0 and total difficulty 1, lowers the recorded height 5. -/
example (w : World) : ∃ j, (processMessage w toyNode toySender (.block (testnet1 Toy.env))).node.table.find
    toySender.addr = some j ∧ (j.height.toNat < 5 ∨ j.totalDifficulty.toNat < 0) := by
  have h1 : toyNode.chain.head.hash = .ok (Toy.env.blake2b []) := genesis_hash Toy.env .testnet1
  have h2 : (testnet1 Toy.env).hash = .ok (Toy.env.blake2b []) := genesis_hash Toy.env .testnet1
  refine C63_refuted w toyNode toySender (testnet1 Toy.env) _ rfl ?_ (.inl ⟨by decide, by decide⟩)
  unfold Chain.processBlock
  simp only [h1, h2, Out.bind_ok]
  rw [if_pos trivial]; rfl

/-- A transaction with nothing in it. -/
def emptyTx : Transaction Toy.env := { kernelOffset := List.replicate 32 0, inputs := [], outputs := [], kernels := [] }

/-- `C75_refuted`: such a frame exists, and is sent to a node like the program's. -/
example : ∃ f : GoodFrame Toy.env, f.type = 15 := by
  obtain ⟨tx, h, -⟩ := C17_no_inputs_partial Toy.env Toy.OKPoint (fun _ => True) Toy.pointCodec Toy.prfCodec Toy.sortOK
    (by norm_num) emptyTx (by simp [emptyTx]) rfl (by simp [emptyTx, OutputsOK]) (by simp [emptyTx, KernelsOK])
    (by simp [emptyTx]) (by simp [emptyTx])
  have hr := h []
  rw [List.append_nil] at hr
  have hl : emptyTx.bytes.length ≤ 20000000 := by
    have : emptyTx.bytes.length = 56 := by decide +kernel
    rw [this]; norm_num
  exact ⟨⟨15, emptyTx.bytes, some (.transaction tx), hl, .transaction emptyTx.bytes [] tx hr⟩, rfl⟩

/-- `C75_refuted_ban`: the same bad block from a peer known by its remote address. -/
example (w : World) : (processMessage w toyNode toySender2 (.block badBlock)).ended ≠ .done :=
  C75_refuted_ban w toyNode toySender2 toy_known2 toy_remote2 _ (.inl ⟨badBlock, _, rfl, badBlock_rejected⟩)

/-- `C75_survives_partial`: a Ping on the wire. -/
example (w : World) (hw : ∀ t, w.order t = t) (hr : ∀ a x, w.resolve a = some x → x.ip.length = 4) :
    (processMessage w toyNode toySender (.ping ⟨7, 9⟩)).ended = .done :=
  (C75_survives_partial w toyNode toy_like toySender toy_known 3 (be64 7 ++ be64 9) _
    (.ping _ [] ⟨7, 9⟩ (by rfl)) (by decide) (.inl (fun h => h)) (by rw [hw]; exact List.Perm.refl _)
    (fun e _ a ha => .inl (hr _ _ ha))).1

end Gringo.Props
