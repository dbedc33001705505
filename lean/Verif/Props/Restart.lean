import Verif.Props.Gaps
import Verif.Props.Addresses
import Verif.Props.PoolRun
/-
C144: what a node has after it was stopped, at any moment, and started again. Starting is `Chain.new` with the storage as it
then is, `mainNode` for the node of cmd/node, and `Pool.new` for the peers: nothing else is read.
-/
namespace Gringo.Props
open Gringo.Spec Gringo.P2P Gringo.PoolRun Gringo.Net

/-- **C144, the part that holds: the shipped node.** Whatever messages the node has handled when it is stopped, when it is
started again it has the chain it had (genesis, head, height and total difficulty) and answers every request for blocks or
headers as it did. What is missing: the blocks it accepted (`C144_refuted_blocks`), the addresses it learned
(`C144_refuted_addresses`) and its bans (`C144_refuted_bans`). -/
theorem C144_shipped_partial {E : Env} (r : Resolver) (h : History E) :
    let stopped := afterMessages (shipped E r) h
    let started := shipped E r
    started.chain = stopped.chain ∧
    (∀ hash, started.chain.getBlock started.storage hash = stopped.chain.getBlock stopped.storage hash) ∧
    (∀ id, started.chain.getBlockID started.storage id = stopped.chain.getBlockID stopped.storage id) ∧
    ∀ loc, started.chain.getBlockHeaders started.storage loc = stopped.chain.getBlockHeaders stopped.storage loc := by
  have keep : ∀ n : Node E, LikeMain n → LikeMain (afterMessages n h) := by
    induction h with
    | nil => exact fun n hn => hn
    | cons e t ih => exact fun n hn => ih _ (likeMain_preserved e.1 n e.2.1 e.2.2 hn)
  obtain ⟨h1, h2, -⟩ := keep (shipped E r) (main_like _)
  obtain ⟨g1, g2, -⟩ := main_like (E := E) (fun s : String => resolve r s.toList)
  have e1 : (shipped E r).chain = (afterMessages (shipped E r) h).chain := g1.trans h1.symm
  have e2 : (shipped E r).storage = (afterMessages (shipped E r) h).storage := g2.trans h2.symm
  refine ⟨e1, fun hash => ?_, fun id => ?_, fun loc => ?_⟩ <;> rw [e1, e2]

/-- **C144, the part that holds: any storage.** A chain that was started with one storage, has been used in any way, and is
started again with another storage has the same head, height and total difficulty as before if the last block in the storage
is the same, and otherwise it continues from the last block in the storage. -/
theorem C144_chain_partial {E : Env} (genesis : Block E) (st st' : Storage E) (h : List (Storage E × ChainCall E)) :
    (st'.getLastBlock = st.getLastBlock → Chain.new genesis st' = afterCalls (Chain.new genesis st) h) ∧
    ∀ last, st'.getLastBlock = some last →
      (Chain.new genesis st').head = last ∧ (Chain.new genesis st').height = last.header.height ∧
      (Chain.new genesis st').totalDifficulty = last.header.totalDifficulty ∧ (Chain.new genesis st').genesis = genesis := by
  rw [afterCalls_eq]
  constructor
  · intro e
    unfold Chain.new
    rw [e]
  · intro last hl
    unfold Chain.new
    rw [hl]
    exact ⟨rfl, rfl, rfl, rfl⟩

/-- The hypotheses of the second part are met: a storage that has got one more block. -/
example (b : Block Toy.env) : (listStorage [testnet1 Toy.env, b]).getLastBlock = some b ∧
    (listStorage [testnet1 Toy.env]).getLastBlock = some (testnet1 Toy.env) := ⟨rfl, rfl⟩

/-- **C144 is false of the code: blocks.** A node of any network, used in any way, is given a block that it accepts and is
stopped at any later moment. When it is started again the head is the genesis block, and the accepted block is not found, by
its hash or by its height. -/
theorem C144_refuted_blocks {E : Env} (genesis : Block E) (h1 h2 : List (ChainCall E)) (b : Block E) (hash : Bytes)
    (_hb : HasHash b hash)
    (_accepted : ((afterCalls (Chain.new genesis (sqlStorage E)) (h1.map fun x => (sqlStorage E, x))).processBlock
      (sqlStorage E) b).1 = .ok ()) :
    let stopped := afterCalls (Chain.new genesis (sqlStorage E))
      ((h1 ++ .processBlock b :: h2).map fun x => (sqlStorage E, x))
    let started := Chain.new genesis (sqlStorage E)
    started.head = genesis ∧ started.getBlock (sqlStorage E) hash = none ∧
    (∀ id, Matches id b → started.getBlockID (sqlStorage E) id = none) ∧ (b ≠ genesis → stopped.head ≠ b) := by
  refine ⟨rfl, ?_, fun _ _ => rfl, fun hne => ?_⟩
  · unfold Chain.getBlock
    split <;> rfl
  · rw [afterCalls_eq]
    exact fun e => hne e.symm

/-- `C144_refuted_blocks` applies to the real block of the tests of the repository, accepted by the real node. -/
example : ∃ (b : Block Concrete.env) (hash : Bytes), HasHash b hash ∧ b.validate = .ok () ∧
    ((afterCalls (Chain.new (testnet1 _) (sqlStorage Concrete.env))
      (([.validate] : List (ChainCall Concrete.env)).map fun x => (sqlStorage _, x))).processBlock (sqlStorage _) b).1
      = .ok () := by
  obtain ⟨b, hb, hv⟩ := C32_real_block
  have hread : Block.read Concrete.env Vectors.serialisedBlock = (.ok b, []) := by
    unfold Vectors.block at hb
    split at hb
    · rename_i x hx
      rw [hx]; cases hb; rfl
    · cases hb
  have hacc := C48_unknown_parent_partial (Chain.new (testnet1 _) (sqlStorage _)) (sqlStorage _) _ _ b hread _
    (genesis_hash Concrete.env .testnet1) hv (.inl rfl)
  obtain ⟨x, hx⟩ : ∃ x, HasHash b x := by
    have := hacc
    unfold Chain.processBlock at this
    rw [show (Chain.new (testnet1 Concrete.env) (sqlStorage _)).head.hash = .ok _ from genesis_hash Concrete.env .testnet1] at this
    cases e : b.hash with
    | ok x => exact ⟨x, e⟩
    | err m => simp [e, bind, Out.bind] at this
    | panic m => simp [e, bind, Out.bind] at this
    | fatal m => simp [e, bind, Out.bind] at this
  refine ⟨b, x, hx, hv, ?_⟩
  rw [afterCalls_eq]
  exact hacc

/-- **C144 is false of the code: addresses.** Whatever the node has learned, after it is started again its table has the one
address that is written in the source, as if it had never been tried. -/
theorem C144_refuted_addresses {E : Env} (r : Resolver) (h : History E) (addr : String)
    (_learned : addr ∈ (afterMessages (shipped E r) h).table.map (·.1)) (hne : addr ≠ "127.0.0.1:13414") :
    addr ∉ (shipped E r).table.map (·.1) ∧ (shipped E r).table = [("127.0.0.1:13414", PeerInfo.fresh)] := by
  have e : written 127 0 0 1 13414 = "127.0.0.1:13414" := by decide
  rw [shipped_table, e]
  exact ⟨by simpa using hne, rfl⟩

/-- `C144_refuted_addresses` applies: the configured peer tells the node an address with any other port. -/
example {E : Env} (r : Resolver) (order : Table → Table) (closing : Nat → Bool) (teller : Sender)
    (hteller : teller.addr = "127.0.0.1:13414") (port : UInt16) (h0 : port ≠ 0) (h1 : port ≠ 13414) :
    ∃ (h : History E), FromWire h ∧ written 0 0 0 0 port ∈ (afterMessages (shipped E r) h).table.map (·.1) ∧
      written 0 0 0 0 port ∉ (shipped E r).table.map (·.1) := by
  obtain ⟨m, hw, hin, -⟩ := C107_refuted (E := E) r order closing teller hteller port h0 h1
  refine ⟨_, hw, hin, (C144_refuted_addresses r _ _ hin ?_).1⟩
  have e : written 127 0 0 1 13414 = "127.0.0.1:13414" := by decide
  rw [← e]
  intro he
  have := (C106_distinct _ _ _ _ _ _ _ _ _ _ he)
  simp at this

/-- **C144 is false of the code: bans.** A peer that was banned, and that would not be dialled for the rest of the run
(`C80_banned_partial`), is dialled by the process that is started next and given the address. -/
theorem C144_refuted_bans (resolve : String → Option TCPAddr) (hr : ∀ a, resolve "" = some a → a.port = 0)
    (addr : String) (ha : Admissible resolve addr) :
    ∃ stopped, Reachable Pool.new stopped ∧ (∃ i, stopped.table.find addr = some i ∧ i.status = .banned) ∧
      (∀ s, Reachable stopped s → s.loop ≠ .dialing addr) ∧
      ∃ s, Reachable Pool.new s ∧ s.panicked = false ∧ s.loop = .dialing addr := by
  have h0 := live_reachable hr ha
  have h1 := h0.next rfl (.banSelf _ addr [] [] ⟨0, addr, .up, false⟩ rfl rfl rfl (by
    unfold P2P.ban
    simp only [Pool.live, find_one]
    rfl))
  rw [show (Pool.live addr).table.update addr (setStatus .banned) = [(addr, _)] from update_one addr _ _] at h1
  refine ⟨_, h1, ⟨_, find_one addr _, rfl⟩, fun s hs => ?_, ?_⟩
  · exact (C80_banned_partial _ s h1 hs ⟨0, addr, .stuck, false⟩ (by simp) rfl).1
  · exact ⟨_, (one_reachable hr ha).trans (dials _ addr PeerInfo.fresh rfl (.inl rfl) (admissible_ne hr ha) rfl
      (show (0 : Nat) < 15 by omega) (show (0 : Int) ≤ 15 by omega) rfl rfl), rfl, rfl⟩

end Gringo.Props
