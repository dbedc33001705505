import Verif.Proofs.ProgramSent
/-
C124: what a peer gets to see of the whole program.
-/
namespace Gringo.Props
open Gringo.Spec Gringo.P2P

variable {E : Env}

/-- **C124.** Whatever comes in on all connections and however the goroutines are scheduled: what was written on a
connection are the frames, one after the other, of messages. Among them are at most one ping and after it at most one
request for addresses. Apart from those the messages are the answers, in order, to the messages that came in on this
very connection (all of them, except for the last one or two: see C122), and blocks that came in on some connection. -/
theorem C124_what_a_peer_sees (remote : Nat → String) (chain : Chain E) (storage : Storage E)
    (mempool : Option (Transaction E → Out Unit)) (headHash : Bytes) (hh : HasHash chain.head headHash)
    (s : Program.State E) (h : Program.Reachable remote chain storage mempool s) (x : Whole.Conn (Message E))
    (hx : x ∈ s.pool.conns) :
    WrittenTo x.peer.accepted x.peer.wire ∧
    (x.peer.accepted.filter isHello).Sublist [.ping ⟨1, 1⟩, .getPeerAddrs ⟨CapFullNode⟩] ∧
    ∃ (unasked replies : List (Message E)),
      (unasked ++ replies).Perm x.peer.accepted ∧ replies.Sublist x.peer.accepted ∧
      (∀ m ∈ unasked, isHello m = true ∨ ∃ b, m = .block b ∧ CameIn remote s b) ∧
      ∃ (fs : List (GoodFrame E)) (ms unhandled : List (Message E)) (es : List (Effect E)) (late : List (Message E)),
        (s.io x.id).arrived = streamOf fs ++ (s.io x.id).inbox ∧ messagesOf fs = ms ++ unhandled ∧
        Answered chain storage headHash ms es ∧ answersOf es = replies ++ late ∧
        (unhandled = [] ∨ ∃ m, unhandled = [m] ∧ ((s.io x.id).task = some m ∨ ∃ d, x.peer.reader = .closing d)) ∧
        (late = [] ∨ ∃ m, late = [m] ∧ (x.peer.reader = .replying m ∨ x.peer.flag = true)) := by
  obtain ⟨node, n1, n2, n3, n4⟩ := (Program.inv_reachable h).talks x hx
  obtain ⟨c1, c2, c3, c4⟩ := C122_what_is_written LeavesEntries (fun _ _ h => h) (Program.sender remote x) node headHash
    (n1 ▸ hh) n3 _ n4
  rw [n1, n2] at c4
  have g := (Program.sent_reachable hh h).conns x hx
  refine ⟨c1, ?_, _, _, c2, c3, ?_, c4⟩
  · rw [g.taken]
    have hst := g.staged
    revert hst
    generalize Program.stage s.pool.loop x.id = st
    intro hst
    have one : ∀ {t : Lifecycle.Thread (Message E)}, (t = .send Program.ping ∨ ∃ b, t = .sent Program.ping b) →
        (takenFrom t).Sublist [Program.ping] := by
      rintro t (rfl | ⟨b, rfl⟩)
      · exact List.nil_sublist _
      · cases b
        · exact List.nil_sublist _
        · exact List.Sublist.refl _
    cases st with
    | fresh =>
      have hst : x.peer.threads.filter Program.helloThread = [] := hst
      rw [hst]
      exact List.nil_sublist _
    | pinging k =>
      obtain ⟨t, -, h2, h3⟩ := hst
      rw [h2]
      show (takenFrom t ++ []).Sublist ([Program.ping] ++ [Program.ask])
      exact (one h3).append (List.nil_sublist _)
    | done =>
      obtain ⟨b, h2 | ⟨b', h2⟩⟩ := hst
      · rw [h2]
        show (takenFrom (Lifecycle.Thread.sent Program.ping b) ++ ([] ++ [])).Sublist ([Program.ping] ++ [Program.ask])
        exact (one (.inr ⟨b, rfl⟩)).append (List.nil_sublist _)
      · rw [h2]
        show (takenFrom (Lifecycle.Thread.sent Program.ping b) ++ (takenFrom (Lifecycle.Thread.sent Program.ask b') ++ [])).Sublist
          ([Program.ping] ++ [Program.ask])
        refine (one (.inr ⟨b, rfl⟩)).append ?_
        cases b'
        · exact List.nil_sublist _
        · exact List.Sublist.refl _
  · intro m hm
    obtain ⟨t, ht, hm⟩ := List.mem_flatMap.1 hm
    refine g.source t ht m (.inr ?_)
    cases t with
    | sent m' b =>
      cases b with
      | true => exact ⟨true, by rw [List.mem_singleton.1 hm]⟩
      | false => cases hm
    | _ => cases hm

/-- **C61, in the whole program (partial).** If every connection has the remote address that was dialled, as when all
addresses are numeric: every block that is sent without being asked for is one that the node accepts. Missing: other
addresses, for which it is false (`C61_refuted`). -/
theorem C61_program_partial (remote : Nat → String) (chain : Chain E) (storage : Storage E)
    (mempool : Option (Transaction E → Out Unit)) (headHash : Bytes) (hh : HasHash chain.head headHash)
    (s : Program.State E) (h : Program.Reachable remote chain storage mempool s)
    (hn : ∀ y ∈ s.pool.conns, remote y.id = y.addr) (x : Whole.Conn (Message E)) (hx : x ∈ s.pool.conns) (b : Block E)
    (hb : .block b ∈ x.peer.accepted) : .block b ∈ x.peer.replies ∨ (chain.processBlock storage b).1 = .ok () := by
  have hi := Program.inv_reachable h
  obtain ⟨node, n1, n2, n3, n4⟩ := hi.talks x hx
  obtain ⟨-, c2, -, -⟩ := C122_what_is_written LeavesEntries (fun _ _ h => h) (Program.sender remote x) node headHash
    (n1 ▸ hh) n3 _ n4
  rcases List.mem_append.1 (c2.mem_iff.2 hb) with hm | hm
  · right
    have hm : Message.block b ∈ x.peer.threads.flatMap takenFrom := hm
    obtain ⟨t, ht, hm⟩ := List.mem_flatMap.1 hm
    have : ∃ c, t = .sent (.block b) c := by
      cases t with
      | sent m' c =>
        cases c with
        | true => exact ⟨true, by rw [List.mem_singleton.1 hm]⟩
        | false => cases hm
      | _ => cases hm
    rcases ((Program.sent_reachable hh h).conns x hx).source t ht (.block b) (.inr this) with h | ⟨b', e, y, hy, -, -, -, -, h4⟩
    · cases h
    · cases e
      rw [hi.same.1, hi.same.2.1] at h4
      exact h4.resolve_right (fun h => h (hn y hy))
  · exact .inl hm

/-- **C124, the parts.** The program does what its parts were shown to do: the pool and the goroutines of all
connections are in a state of Model/Whole.lean (C57, C64, C78-C80, C105, C119, C121 are about those), every connection is
in a state of Model/Talk.lean (C122, C123), with a rest of the program that removes no entry of the table, and the
chain is what it was in the beginning. -/
theorem C124_parts (remote : Nat → String) (chain : Chain E) (storage : Storage E)
    (mempool : Option (Transaction E → Out Unit)) (s : Program.State E)
    (h : Program.Reachable remote chain storage mempool s) :
    Whole.Reachable Talk.frame (.ping ⟨1, 1⟩) (.getPeerAddrs ⟨CapFullNode⟩) s.pool ∧ s.chain = chain ∧ s.storage = storage ∧
    ∀ x ∈ s.pool.conns, ∃ (f : Sender) (node : Node E) (t : Talk.State E),
      f.addr = x.addr ∧ f.conn = x.id ∧ node.chain = chain ∧ node.storage = storage ∧ Known node f ∧
      Talk.Reachable LeavesEntries f node t ∧ t.peer = x.peer ∧ t.node = s.node ∧ t.arrived = (s.io x.id).arrived ∧
      t.inbox = (s.io x.id).inbox ∧ t.task = (s.io x.id).task := by
  have hi := Program.inv_reachable h
  refine ⟨hi.whole, hi.same.1, hi.same.2.1, fun x hx => ?_⟩
  obtain ⟨node, n1, n2, n3, n4⟩ := hi.talks x hx
  exact ⟨_, node, _, rfl, rfl, n1, n2, n3, n4, rfl, rfl, rfl, rfl, rfl⟩

end Gringo.Props
