import Verif.Proofs.Traffic
import Verif.Props.FullWitness
/-
C133: what a peer is sent is in proportion to what came in.
-/
namespace Gringo.Props
open Gringo.Spec Gringo.P2P Gringo.Traffic

variable {E : Env}

/-- **C133.** Whatever comes in on all connections and however the goroutines are scheduled, for a node with the storage that
is shipped and a genesis hash of 32 bytes: the bytes that were written on the connection with number `c` are at most 148
(the hand, a ping and a request for addresses), the bytes of the blocks with the height of the node's chain that came in
on all connections that there have been, each as often as it came in, and 2831/15 of the bytes that came in on this
connection. -/
theorem C133_in_proportion (u : Full.Setup) (chain : Chain E) (mempool : Option (Transaction E → Out Unit))
    (nonces : NonceList) (headHash : Bytes) (hh : HasHash chain.head headHash) (s : Full.State E)
    (h : Full.Reachable u chain (sqlStorage E) mempool nonces s) (hg : u.genesis.length = 32) (c : Nat) :
    ∃ fs : Nat → List (GoodFrame E), (∀ d, streamOf (fs d) <:+: cameOn s d) ∧
      15 * (sentOn s c).length ≤ 15 * (148 + wireLengths ((((List.range s.prog.pool.next).flatMap
        fun d => blocksOf (messagesOf (fs d))).filter fun b => b.header.height = chain.height).map .block)) +
        2831 * (cameOn s c).length := by
  have hi := Full.inv_reachable hh h
  obtain ⟨d, hp⟩ := hi.prog
  have hpi := Program.inv_reachable hp
  obtain ⟨fs, done, hcnt⟩ := Program.counted_reachable hp
  have harr : ∀ d, (s.prog.io d).arrived <:+ cameOn s d := by
    intro d
    cases hsh : (s.sockets d).shake with
    | none => rw [hi.early d hsh]; exact List.nil_suffix
    | some sh =>
      obtain ⟨-, -, -, -, len, -, -, g6⟩ := hi.shaken d sh hsh
      exact ⟨_, g6.symm⟩
  refine ⟨fs, fun d => ?_, ?_⟩
  · obtain ⟨t, ht⟩ := harr d
    exact ⟨t, (s.prog.io d).inbox, by
      rw [← ht, List.append_assoc]
      exact congrArg _ (hcnt.arrived d).symm⟩
  have hhand : ((s.sockets c).hand.take (s.sockets c).written).length ≤ 106 := by
    by_cases hc : c < s.prog.pool.next
    · obtain ⟨nonce, data, -, h2, h3⟩ := hi.hands c hc
      have := hand_length hg h2
      rw [List.length_take, h3]
      exact (Nat.min_le_right _ _).trans this
    · rw [(hi.fresh c (Nat.le_of_not_lt hc)).1, List.take_zero]
      exact Nat.zero_le _
  unfold sentOn
  rw [List.length_append]
  by_cases hx : ∃ x ∈ s.prog.pool.conns, x.id = c
  · obtain ⟨x, hx, rfl⟩ := hx
    have e1 := conn_length hh hp hcnt hx
    have e2 := (harr x.id).length_le
    have e3 : (s.prog.pool.conns.filter (·.id == x.id)).flatMap (·.peer.wire) = x.peer.wire := wire_of hpi hx
    rw [e3]
    have e1 : 15 * x.peer.wire.length ≤ 15 * (42 + wireLengths ((((List.range s.prog.pool.next).flatMap
      fun d => blocksOf (messagesOf (fs d))).filter fun b => b.header.height = chain.height).map .block)) +
      2831 * (s.prog.io x.id).arrived.length := e1
    omega
  · rw [List.filter_eq_nil_iff.2 (by
      intro x hm
      simpa using fun e => hx ⟨x, hm, e⟩), List.flatMap_nil]
    simp only [List.length_nil]
    omega

/-- C133 applies to a node that has greeted a peer and answered its ping. -/
example (w : World) (hw : Program.Real w) : ∃ (s : Full.State Toy.env) (x : Whole.Conn (Message Toy.env)),
    Full.Reachable oneSetup toyNode.chain (sqlStorage _) none someNonces s ∧ oneSetup.genesis.length = 32 ∧
    s.prog.pool.conns = [x] ∧ x.id = 0 ∧ (sentOn s 0).length = 102 + 27 + 15 + 27 ∧ (cameOn s 0).length = 68 + 27 := by
  obtain ⟨-, -, s, x, t1, t2, t3, -, t5, t6, t7, t8, -, t10, -, -, -, -, -, t11, -⟩ :=
    greeted_run toyNode.chain (sqlStorage _) none _ (Full.closed toyNode_head) w hw (by decide) pingFrame rfl
  refine ⟨s, x, t1, rfl, t6, t7, ?_, by rw [t10]; rfl⟩
  have := (C128_at_rest (by decide) oneSetup _ _ _ _ _ toyNode_head s t1 t2 t3 t5 x (by rw [t6]; simp) [10, 0, 0, 1] rfl 3414
    rfl rfl).2 t8
  rw [t7, t11] at this
  obtain ⟨nonce, hn, wire, g1, g2, -⟩ := this
  obtain ⟨frames, hf, rfl⟩ := g2
  rw [g1, List.length_append, frames_length hf, handFrame, frameBytes, handBody]
  simp only [List.length_append, be_length]
  rfl

/-- The proportion of C133 is that of a request for addresses, 15 bytes, and a full answer. -/
example : wireLength (.getPeerAddrs ⟨7⟩ : Message Toy.env) = 15 ∧
    wireLength (.peerAddrs ⟨List.replicate 256 ⟨List.replicate 16 1, 3414⟩⟩ : Message Toy.env) = 2831 := by decide +kernel

end Gringo.Props
