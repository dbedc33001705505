import Verif.Props.Handshake
import Verif.Props.Delivery
import Verif.Props.Sync
import Verif.Props.Genesis
/-
C113: what a node says about itself in a handshake.
-/
namespace Gringo.Props
open Gringo.Spec Gringo.P2P

/-- The bytes of an ASCII text. -/
def ascii (s : String) : Bytes := s.toList.map fun c => UInt8.ofNat c.toNat

/-- The body of a hand in which a full node of protocol version 1 called `agent` says that its total difficulty is
`td` and its chain the one with this genesis hash, and that it connects from one IPv4 address and port to another. -/
def handBody (nonce td : Nat) (fromIP : Bytes) (fromPort : Nat) (toIP : Bytes) (toPort : Nat) (agent : String)
    (genesis : Bytes) : Bytes :=
  be 4 1 ++ be 4 7 ++ be 8 nonce ++ be 8 td ++ ([0] ++ fromIP ++ be 2 fromPort) ++ ([0] ++ toIP ++ be 2 toPort) ++
    be 8 agent.length ++ ascii agent ++ genesis

/-- **C113, what holds: the bytes of the hand.** A node that connects to an IPv4 address sends one frame, and it does
not depend on what the other side sends: protocol version 1, the capabilities of a full node, one of its nonces, the
address it connects to, the program name "gringo v0.0.1", and the genesis hash it was given; but as total difficulty
always 1 and as its own address always 0.0.0.0 and port 0. -/
theorem C113_hand_partial (E : Env) (mine : NonceList) (hn : NoncesOK mine) (ip : Bytes) (hip : ip.length = 4)
    (port : UInt16) (genesis input : Bytes) (hg : genesis.length = 32) :
    ∃ nonce ∈ mine.list, (shakeByHand E mine ⟨ip, port.toNat⟩ genesis input).sent =
      frameBytes 1 (handBody nonce.toNat 1 [0, 0, 0, 0] 0 ip port.toNat "gringo v0.0.1" genesis) := by
  obtain ⟨x, n', hx, hmemx, -, -⟩ := next_ok hn
  refine ⟨x, hmemx, ?_⟩
  have hport : portBits (port.toNat : Int) = port := by
    have h0 := port_u16 (a := ⟨ip, port.toNat⟩) (by simp) (by simp only; exact_mod_cast port.toNat_lt)
    simp only at h0
    apply UInt16.toNat_inj.1
    exact_mod_cast h0
  have hb : (ownHand x ⟨ip, port.toNat⟩ genesis).bytes =
      .ok (handBody x.toNat 1 [0, 0, 0, 0] 0 ip port.toNat "gringo v0.0.1" genesis) := by
    have hs : serializeTCPAddr { ip := List.replicate 10 0 ++ [255, 255, 0, 0, 0, 0], port := 0 } =
        .ok ([0] ++ [0, 0, 0, 0] ++ be 2 0) := by decide +kernel
    have hr : serializeTCPAddr ⟨ip, port.toNat⟩ = .ok ([0] ++ ip ++ be 2 port.toNat) := by
      simp [serializeTCPAddr, to4, hip, hport, be16]
    have hu : userAgent = ascii "gringo v0.0.1" := by decide
    simp only [Hand.bytes, ownHand, hs, hr, Out.bind_ok, Out.pure_def, handBody, hu]
    rfl
  have hl : (handBody x.toNat 1 [0, 0, 0, 0] 0 ip port.toNat "gringo v0.0.1" genesis).length = 91 := by
    simp only [handBody, List.length_append, be_length, hip, hg]
    rfl
  have hs : (shakeByHand E mine ⟨ip, port.toNat⟩ genesis input).sent =
      (writeMessage MsgTypeHand (handBody x.toNat 1 [0, 0, 0, 0] 0 ip port.toNat "gringo v0.0.1" genesis)).1 := by
    simp only [shakeByHand, hx, hb]
    split <;> rfl
  rw [hs, write_eq_frame _ _ (by omega)]
  rfl

/-- **C113, what holds: the bytes of the shake.** A node that accepts a hand answers with one frame, always the same:
version 1, full node, total difficulty 1, the program name, and nothing about its chain. -/
theorem C113_shake_partial (E : Env) (mine : NonceList) (input : Bytes) (h : Hand)
    (hok : (handByShake E mine input).result = .ok h) :
    (handByShake E mine input).sent =
      frameBytes 2 (be 4 1 ++ be 4 7 ++ be 8 1 ++ be 8 13 ++ ascii "gringo v0.0.1") := by
  have hs : (handByShake E mine input).sent = (writeMessage MsgTypeShake ownShake.bytes).1 := by
    unfold handByShake at hok ⊢
    split at hok <;> try (exact absurd hok (by simp))
    split at hok
    · exact absurd hok (by simp)
    · rename_i hc
      simp only [hc]
      rfl
  rw [hs]
  decide +kernel

/-- The node as it is shipped, after it has dealt with any messages. -/
def shippedAfter (E : Env) (resolve : String → Option TCPAddr) (history : List (World × Sender × Message E)) : Node E :=
  history.foldl (fun n m => (processMessage m.1 n m.2.1 m.2.2).node) (mainNode E resolve)

theorem shippedAfter_like (E : Env) (resolve : String → Option TCPAddr) (history : List (World × Sender × Message E)) :
    LikeMain (shippedAfter E resolve history) := by
  have : ∀ n : Node E, LikeMain n → LikeMain (history.foldl (fun n m => (processMessage m.1 n m.2.1 m.2.2).node) n) := by
    induction history with
    | nil => exact fun n h => h
    | cons m ms ih => exact fun n h => ih _ (likeMain_preserved m.1 n m.2.1 m.2.2 h)
  exact this _ (main_like resolve)

/-- **C113 is false of the code.** The node as it is shipped, whatever it has received, is on the chain of
Testnet1, but whoever it connects to is told the genesis hash of Testnet4 (the two are different unless the hash function
collides), total difficulty 1 although it is 10, and the address 0.0.0.0 with port 0. -/
theorem C113_refuted (E : Env) (hcol : E.blake2b (Network.hashed .testnet1) ≠ E.blake2b (Network.hashed .testnet4))
    (hmem : 13 ≤ E.maxAlloc) (resolve : String → Option TCPAddr) (history : List (World × Sender × Message E))
    (mine theirs : NonceList) (hn : NoncesOK mine) (hdisj : ∀ x ∈ mine.list, theirs.consist x = false)
    (receiver : TCPAddr) (hr : IPv4 receiver) (genesis : Bytes) (hg : HasHash (testnet4 E) genesis) (hgl : genesis.length = 32) (input : Bytes) :
    ∃ h, (handByShake E theirs (shakeByHand E mine receiver genesis input).sent).result = .ok h ∧
      HasHash (testnet4 E) h.genesis ∧ ¬ HasHash (shippedAfter E resolve history).chain.genesis h.genesis ∧
      h.totalDifficulty = 1 ∧ (shippedAfter E resolve history).chain.totalDifficulty = 10 ∧
      h.senderAddr = some ⟨[0, 0, 0, 0], 0⟩ := by
  have hnode := shippedAfter_like E resolve history
  obtain ⟨x, n', hx, hmemx, -, -⟩ := next_ok hn
  obtain ⟨v, hv, hl, hrd⟩ := ownHand_wf E hmem x receiver genesis hr hgl
  have hs : (shakeByHand E mine receiver genesis input).sent = (writeMessage MsgTypeHand v).1 := by
    simp only [shakeByHand, hx, hv]
    split <;> rfl
  obtain ⟨-, -, n, -, hrm⟩ := C03_roundtrip MsgTypeHand (Hand.read E) v _ hrd (by omega)
  have hc := hdisj x hmemx
  have hrm' := hrm []
  rw [List.append_nil] at hrm'
  refine ⟨{ ownHand x receiver genesis with senderAddr := some ⟨[0, 0, 0, 0], 0⟩ }, ?_, hg, ?_, rfl, ?_, rfl⟩
  · rw [hs]
    simp only [handByShake, hrm', ownHand]
    rw [if_neg (by simp [hc])]
  · rw [hnode.1]
    intro h
    have h1 : HasHash (testnet1 E) genesis := h
    have e1 := Out.ok.inj ((genesis_hash E .testnet1).symm.trans h1)
    have e4 := Out.ok.inj ((genesis_hash E .testnet4).symm.trans hg)
    exact hcol (e1.trans e4.symm)
  · rw [hnode.1]
    rfl

/-- The hypotheses are met with the real hash function and nonces 0..99 and 100..199. -/
example : Concrete.env.blake2b (Network.hashed .testnet1) ≠ Concrete.env.blake2b (Network.hashed .testnet4) ∧
    (∃ genesis, HasHash (testnet4 Concrete.env) genesis ∧ genesis.length = 32) ∧
    NoncesOK (NonceList.init ((List.range 100).map UInt64.ofNat)) := by
  refine ⟨by decide +kernel, ⟨_, genesis_hash _ .testnet4, by decide +kernel⟩, ?_⟩
  exact ⟨by simp [NonceList.init, noncesCap], by show 0 < 100; decide⟩

end Gringo.Props
