import Verif.Props.Session
import Verif.Props.SyncWitness
/-
Concrete cases for C92-C96.
-/
namespace Gringo.Props
open Gringo.Spec Gringo.P2P

/-- A shake from another implementation. -/
def sampleShake : Shake :=
  { version := 1, capabilities := 15, totalDifficulty := 77, userAgent := [77, 87], genesis := List.replicate 32 5 }

def sampleNonces : NonceList := NonceList.init ((List.range 100).map UInt64.ofNat)

theorem sampleNonces_ok : NoncesOK sampleNonces := ⟨by decide +kernel, by decide +kernel⟩

/-- A world in which everything resolves to one address, where someone answers. -/
def oneHost : String → Option TCPAddr := fun _ => some ⟨[10, 0, 0, 2], 13414⟩

theorem host_ipv4 : IPv4 ⟨[10, 0, 0, 2], 13414⟩ := ⟨rfl, by decide, by decide⟩

/-- `C92_nothing_lost_partial`: a shake and two more messages. -/
example : (newPeer Toy.env oneHost (fun a => some (a, frameBytes 2 sampleShake.bytes ++ streamOf sampleFrames))
      sampleNonces (List.replicate 32 9) "seed.example:13414").result = .ok (describedBy "seed.example:13414" sampleShake) ∧
    (readHandler Toy.env (newPeer Toy.env oneHost
      (fun a => some (a, frameBytes 2 sampleShake.bytes ++ streamOf sampleFrames))
      sampleNonces (List.replicate 32 9) "seed.example:13414").unread).dispatched = messagesOf sampleFrames :=
  C92_nothing_lost_partial (by decide) oneHost _ sampleNonces sampleNonces_ok _ rfl _ _ _ rfl host_ipv4 sampleShake rfl rfl
    (by decide) sampleFrames rfl

/-- `C92_refuted`: two more bytes in the frame of the shake. -/
example : (readHandler Toy.env (newPeer Toy.env oneHost
      (fun a => some (a, frameBytes 2 (sampleShake.bytes ++ [0, 0]) ++ streamOf sampleFrames))
      sampleNonces (List.replicate 32 9) "seed.example:13414").unread).dispatched = [] :=
  (C92_refuted (by decide) oneHost _ sampleNonces sampleNonces_ok _ rfl _ _ _ rfl host_ipv4 sampleShake rfl rfl
    (by decide) 0 0 (by decide) sampleFrames rfl).2

/-- `C93_refuted`: a web server. -/
example : (newPeer Toy.env oneHost (fun a => some (a, [72, 84, 84, 80, 47, 49, 46, 49, 32, 52, 48, 48]))
    sampleNonces (List.replicate 32 9) "seed.example:13414").isOpen = true :=
  (C93_refuted oneHost _ sampleNonces _ _ _ _ _ rfl rfl (.inr (by decide))).2

/-- `C93_refuted_accepting`: a browser. -/
example : (acceptNewPeer Toy.env sampleNonces [71, 69, 84, 32, 47, 32, 72, 84, 84, 80, 47, 49]).isOpen = true :=
  (C93_refuted_accepting sampleNonces _ (.inr (by decide))).2

/-- `C94_refuted`: a node connects, is accepted, and sends a ping. -/
example : ∃ v, sampleHand.bytes = .ok v ∧
    ∃ p, (acceptNewPeer Toy.env (NonceList.init ((List.range 100).map fun i => UInt64.ofNat (i + 100)))
      ((writeMessage MsgTypeHand v).1)).result = .ok p := by
  obtain ⟨v, hv, h⟩ := C25_refuted_accept Toy.env (NonceList.init ((List.range 100).map fun i => UInt64.ofNat (i + 100)))
    sampleHand sampleHand_wf (by decide) (by decide +kernel) []
  rw [List.append_nil] at h
  exact ⟨v, hv, _, by simp only [acceptNewPeer, h, Out.bind_ok, Out.pure_def]; rfl⟩

theorem toyNode_head : HasHash toyNode.chain.head (Toy.env.blake2b []) := genesis_hash Toy.env .testnet1

/-- A ping, a request for addresses and one for a block. -/
def requestFrames : List (GoodFrame Toy.env) :=
  [⟨3, be64 5 ++ be64 6, some (.ping ⟨5, 6⟩), by decide, .ping _ [] _ (by decide)⟩,
   ⟨5, be32 7, some (.getPeerAddrs ⟨7⟩), by decide, .getPeerAddrs _ [] _ (by decide)⟩,
   ⟨10, List.replicate 32 1, some (.getBlock ⟨List.replicate 32 1⟩), by decide, .getBlock _ [] _ (by decide)⟩]

/-- `C95_all_answered`: three requests on one connection while another peer tells addresses all the time; the
block is not known, so there are two answers. -/
example (w : Nat → World) :
    ∃ p, (converse (fun n x => (processMessage (w n) x toySender2 (.peerAddrs ⟨[⟨[10, 0, 0, 9], 3414⟩]⟩)).node) w
        toySender 200 (some toyNode) (streamOf requestFrames)).effects =
      [.reply (.pong ⟨10, 0⟩), .reply (.peerAddrs p)] := by
  obtain ⟨h, -⟩ := C95_all_answered (E := Toy.env) (by decide)
    (fun n x => (processMessage (w n) x toySender2 (.peerAddrs ⟨[⟨[10, 0, 0, 9], 3414⟩]⟩)).node)
    (fun n x => process_leaves _ _ _ _) w toySender toyNode requestFrames 200 (by decide +kernel) _ toyNode_head toy_known
    (by intro m hm; simp [requestFrames, messagesOf] at hm; rcases hm with rfl | rfl | rfl <;> trivial)
  generalize (converse _ w toySender 200 (some toyNode) (streamOf requestFrames)).effects = es at h
  have e : messagesOf requestFrames = [.ping ⟨5, 6⟩, .getPeerAddrs ⟨7⟩, .getBlock ⟨List.replicate 32 1⟩] := rfl
  rw [e] at h
  cases h with
  | ping m h =>
    cases h with
    | getPeerAddrs m p hp h =>
      cases h with
      | getBlock m b hb h => cases hb
      | getBlockUnknown m hb h => cases h; exact ⟨p, rfl⟩

/-- `C96_history`: two peers send, the entry of the second one is left alone when only the first one sends. -/
example (w : World) (ms : List (Message Toy.env)) :
    (afterMessages toyNode (ms.map fun m => (w, toySender, m))).table.find "10.0.0.2:13414" =
      toyNode.table.find "10.0.0.2:13414" := by
  obtain ⟨-, -, -, -, -, -, h, -⟩ := C96_history toyNode (by unfold UniqueKeys; decide) (by decide)
    (ms.map fun m => (w, toySender, m))
  obtain ⟨j, hj, -, -, -, -, -, he⟩ := h "10.0.0.2:13414" _ rfl
  rw [hj, he (by intro e he; obtain ⟨m, -, rfl⟩ := List.mem_map.1 he; exact ⟨(by decide : toySender.addr ≠ "10.0.0.2:13414"), (by decide : toySender.remote ≠ "10.0.0.2:13414")⟩)]
  rfl

end Gringo.Props
