import Verif.Proofs.ProgramCount
import Verif.Props.ProgramWitness
/-
C125: a peer is sent a block no more often than it came in.
-/
namespace Gringo.Props
open Gringo.Spec Gringo.P2P

variable {E : Env}

/-- **C125.** Whatever comes in on all connections and however the goroutines are scheduled: of the messages that were
accepted for sending on a connection, take away the answers to its own messages. Then each block is left no more often
than it came in, on all connections that there have been (they are numbered from 0), with the height of the node's
chain. So a node does not multiply blocks. -/
theorem C125_no_more_than_came_in (remote : Nat → String) (chain : Chain E) (storage : Storage E)
    (mempool : Option (Transaction E → Out Unit)) (headHash : Bytes) (hh : HasHash chain.head headHash)
    (s : Program.State E) (h : Program.Reachable remote chain storage mempool s) (x : Whole.Conn (Message E))
    (hx : x ∈ s.pool.conns) :
    ∃ (unasked : List (Message E)) (fs : Nat → List (GoodFrame E)),
      (unasked ++ x.peer.replies).Perm x.peer.accepted ∧ (∀ c, streamOf (fs c) <+: (s.io c).arrived) ∧
      (blocksOf unasked).Subperm
        (((List.range s.pool.next).flatMap fun c => blocksOf (messagesOf (fs c))).filter
          fun b => b.header.height = chain.height) := by
  have hi := Program.inv_reachable h
  obtain ⟨node, n1, n2, n3, n4⟩ := hi.talks x hx
  obtain ⟨-, c2, -, -⟩ := C122_what_is_written LeavesEntries (fun _ _ h => h) (Program.sender remote x) node headHash
    (n1 ▸ hh) n3 _ n4
  obtain ⟨fs, done, hc⟩ := Program.counted_reachable h
  refine ⟨_, fs, c2, fun c => ⟨_, (hc.arrived c).symm⟩, ?_⟩
  have e1 : ((x.peer.threads.flatMap takenFrom)).Sublist (Program.handed x) := by
    unfold Program.handed
    generalize x.peer.threads = ts
    induction ts with
    | nil => exact List.Sublist.refl _
    | cons t ts ih =>
      rw [List.flatMap_cons, List.flatMap_cons]
      refine List.Sublist.append ?_ ih
      cases t with
      | sent m b => cases b <;> simp [takenFrom]
      | _ => exact List.nil_sublist _
  exact (e1.filterMap _).subperm.trans (Program.blocks_handed h hc hx)

/-- C125 applies to a run in which a block that came in on one connection is sent on another one, and there it says
that the block was not sent twice. -/
example (w : World) (hw : Program.Real w) :
    ∃ (b : Block Toy.env) (chain : Chain Toy.env) (s : Program.State Toy.env) (x y : Whole.Conn (Message Toy.env)),
      HasHash chain.head toyHash ∧ Program.Reachable hostOf chain (sqlStorage _) none s ∧ s.pool.conns = [x, y] ∧
      blocksOf x.peer.accepted = [] ∧ blocksOf y.peer.accepted = [b] ∧ (s.io y.id).arrived = [] ∧
      b.header.height = chain.height := by
  obtain ⟨f, b, chain, hf, hc, hb, hh, h0, -⟩ := sample_relay
  obtain ⟨s, x, y, h1, h2, -, h3, h4, -, h5, -, -⟩ := relayed_run chain (sqlStorage _) none w hw (by decide) f b hf hb hh h0
  exact ⟨b, chain, s, x, y, hc, h1, h2, by rw [h3]; rfl, by rw [h4]; rfl, h5, hh⟩

end Gringo.Props
