import Verif.Props.ProgramCount
import Verif.Spec.Pile
/-
C132: what piles up for a peer that does not read.
-/
namespace Gringo.Props
open Gringo.Spec Gringo.P2P Gringo.Program

variable {E : Env}

/-- **C132, no more than came in.** Whatever comes in on all connections and however the goroutines are scheduled: at any
time the goroutines that wait to send on a connection are at most one more than the blocks with the height of the node's
chain that came in, on all connections that there have been. -/
theorem C132_waiting_partial (remote : Nat → String) (chain : Chain E) (storage : Storage E)
    (mempool : Option (Transaction E → Out Unit)) (headHash : Bytes) (hh : HasHash chain.head headHash)
    (s : Program.State E) (h : Program.Reachable remote chain storage mempool s) (x : Whole.Conn (Message E))
    (hx : x ∈ s.pool.conns) :
    ∃ fs : Nat → List (GoodFrame E), (∀ c, streamOf (fs c) <+: (s.io c).arrived) ∧
      (waiting x).length ≤ 1 + (((List.range s.pool.next).flatMap fun c => blocksOf (messagesOf (fs c))).filter
        fun b => b.header.height = chain.height).length := by
  obtain ⟨fs, done, hc⟩ := Program.counted_reachable h
  have h1 := waiting_length ((Program.sent_reachable hh h).conns x hx) rfl
  have h2 := (Program.blocks_handed h hc hx).length_le
  exact ⟨fs, fun c => ⟨_, (hc.arrived c).symm⟩, by omega⟩

/-- **C132 is false of the code.** Take any moment at which the peer of connection `y` takes no more bytes of the message that
is being written to it, its address is among the connected ones and its record is behind a block that the node accepts,
and another connection `x` is served. If this block comes in on `x` any number of times, as many goroutines come to wait
to send it on `y`, and not one byte of it was taken. -/
theorem C132_refuted (hmem : 20000000 ≤ E.maxAlloc) (remote : Nat → String) (chain : Chain E) (storage : Storage E)
    (mempool : Option (Transaction E → Out Unit)) (f : GoodFrame E) (b : Block E) (hf : f.msg = some (.block b))
    (hb : (chain.processBlock storage b).1 = .ok ()) (hh : b.header.height = chain.height)
    (s : Program.State E) (h : Program.Reachable remote chain storage mempool s) (hd : s.dead = false)
    (hp : s.pool.panicked = false) (x y : Whole.Conn (Message E)) (hx : x ∈ s.pool.conns) (hy : y ∈ s.pool.conns)
    (hne : x.addr ≠ y.addr) (hl : Listens s x) (hk : ¬ s.pool.locked x.addr) (ho : y.addr ∈ s.pool.online) (i : PeerInfo)
    (hi : s.pool.table.find y.addr = some i) (hc : i.peer = some y.id) (hi' : i.height < b.header.height)
    (m : Message E) (q : Bytes) (hw : y.peer.writer = .writing m q) (_hq : q ≠ []) (n : Nat) :
    ∃ s' y', Program.RunWhile remote (fun _ => True) s s' ∧ s'.dead = false ∧ s'.pool.panicked = false ∧
      y' ∈ s'.pool.conns ∧ y'.id = y.id ∧ y'.peer.writer = .writing m q ∧ y'.peer.wire = y.peer.wire ∧
      waiting y' = waiting y ++ List.replicate n (.block b) := by
  let w : World := Net.world ⟨fun _ => none, fun _ => none, fun _ => []⟩ id (fun _ => false)
  have hreal : Program.Real w := ⟨_, _, _, rfl, fun t => .refl _⟩
  suffices H : ∃ s' x' y', Program.Reachable remote chain storage mempool s' ∧ Program.RunWhile remote (fun _ => True) s s' ∧
      s'.dead = false ∧ s'.pool.panicked = false ∧ Program.Ready s' x' y' b ∧ y'.id = y.id ∧ y'.peer.writer = .writing m q ∧
      y'.peer.wire = y.peer.wire ∧ waiting y' = waiting y ++ List.replicate n (.block b) by
    obtain ⟨s', x', y', -, h1, h2, h3, h4, h5, h6, h7, h8⟩ := H
    exact ⟨s', y', h1, h2, h3, h4.right, h5, h6, h7, h8⟩
  induction n with
  | zero => exact ⟨s, x, y, h, .refl trivial, hd, hp, ⟨hx, hy, hne, hl, hk, ho, i, hi, hc, hi'⟩, rfl, hw, rfl, by simp⟩
  | succ n ih =>
    obtain ⟨s1, x1, y1, g1, g2, g3, g4, g5, g6, g7, g8, g9⟩ := ih
    obtain ⟨s2, x2, k1, k2, k3, -, -, k4⟩ := Program.feed hmem hreal hf hb hh g1 g3 g4 g5
    refine ⟨s2, x2, _, (Program.RunWhile.reachable g1 k1).1, g2.trans' k1, k2, k3, k4, g6, g7, g8, ?_⟩
    have : waiting (y1.calls (.send (.block b))) = waiting y1 ++ [.block b] := by
      simp [waiting, Whole.Conn.calls]
    rw [this, g9, List.append_assoc, List.replicate_succ']

/-- The hypotheses of `C132_refuted` are met by a run in which the peer of the second connection has stopped reading in
the middle of a block; those of `C132_waiting_partial` are met too. -/
example : ∃ (f : GoodFrame Toy.env) (b : Block Toy.env) (chain : Chain Toy.env) (s : Program.State Toy.env)
    (x y : Whole.Conn (Message Toy.env)) (i : PeerInfo) (q : Bytes),
    HasHash chain.head toyHash ∧ f.msg = some (.block b) ∧ (chain.processBlock (sqlStorage _) b).1 = .ok () ∧
    b.header.height = chain.height ∧ Program.Reachable hostOf chain (sqlStorage _) none s ∧ s.dead = false ∧
    s.pool.panicked = false ∧ x ∈ s.pool.conns ∧ y ∈ s.pool.conns ∧ x.addr ≠ y.addr ∧ Listens s x ∧ ¬ s.pool.locked x.addr ∧
    y.addr ∈ s.pool.online ∧ s.pool.table.find y.addr = some i ∧ i.peer = some y.id ∧ i.height < b.header.height ∧
    y.peer.writer = .writing (.block b) q ∧ q ≠ [] := by
  have hreal : Program.Real (Net.world ⟨fun _ => none, fun _ => none, fun _ => []⟩ id (fun _ => false)) :=
    ⟨_, _, _, rfl, fun t => .refl _⟩
  obtain ⟨f, b, chain, hf, hc, hb, hh, h0, hfr⟩ := sample_relay
  obtain ⟨_, _, _, -, -, -, -, -, -, -, -, _, _, -, -, -, -, -, -, -, -, -, g9⟩ :=
    relayed_run chain (sqlStorage _) none _ hreal (by decide) f b hf hb hh h0
  obtain ⟨t, e1, -, e3, e4, -, -, x, y, -, -, e9, -, -, -, e12, e13, e14⟩ := g9 hfr
  obtain ⟨t1, x1, k1, k2, k3, -, -, k4⟩ := Program.feed (by decide) hreal hf hb hh e1 e3 e4 e12
  have r1 := (Program.RunWhile.reachable e1 k1).1
  obtain ⟨t2, m1, m2, m3, m4⟩ := Program.ready_inner r1 k4
    (.sendTaken _ y.peer.threads [] (.block b) rfl e13) rfl
    (fun m q h => by
      have h : y.peer.writer = .got m := h
      rw [e13] at h; cases h)
    (by simp [Program.handed, Whole.Conn.calls])
  have r2 : Program.Reachable hostOf chain (sqlStorage _) none t2 := .next r1 k2 k3 m1
  obtain ⟨t3, n1, n2, n3, n4⟩ := Program.ready_inner r2 m4 (.gotWrite _ (.block b) rfl e9) rfl
    (fun m q h _ => by cases h; exact hfr) rfl
  obtain ⟨i, i1, i2, i3⟩ := n4.entry
  exact ⟨f, b, chain, t3, x1, _, i, _, hc, hf, hb, hh, .next r2 (m2.trans k2) (m3.trans k3) n1, n2.trans (m2.trans k2),
    n3.trans (m3.trans k3), n4.left, n4.right, n4.other, n4.listens, n4.unlocked, n4.online, i1, i2, i3, rfl, Talk.frame_ne _⟩

end Gringo.Props
