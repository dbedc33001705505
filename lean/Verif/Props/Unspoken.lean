import Verif.Props.Full
import Verif.Props.Crammed
import Verif.Props.ProgramWitness
/-
C149: what becomes of a transaction, and what a node never says.
-/
namespace Gringo.Props
open Gringo.Spec Gringo.P2P

variable {E : Env}

/-- The node says it: it greets, answers requests, or sends a block. -/
def Said : Message E → Prop
  | .ping _ | .getPeerAddrs _ | .pong _ | .peerAddrs _ | .headers _ | .block _ => True
  | .getHeaders _ | .getBlock _ | .header _ | .transaction _ => False

theorem answers_said : ∀ (es : List (Effect E)), ∀ m ∈ answersOf es, Said m
  | [], m, h => by cases h
  | .reply (.pong _) :: es, m, h | .reply (.peerAddrs _) :: es, m, h | .reply (.headers _) :: es, m, h
  | .reply (.block _) :: es, m, h => by
    rcases List.mem_cons.1 h with rfl | h
    · trivial
    · exact answers_said es m h
  | .relay _ _ _ :: es, m, h => answers_said es m h

/-- **C149 is false of the code.** Whatever comes in on all connections, and whatever the pool of transactions says: no
transaction is ever sent to anybody. The node also never asks for headers or blocks, and never announces a single header. -/
theorem C149_refuted (remote : Nat → String) (chain : Chain E) (storage : Storage E)
    (mempool : Option (Transaction E → Out Unit)) (headHash : Bytes) (hh : HasHash chain.head headHash)
    (s : Program.State E) (h : Program.Reachable remote chain storage mempool s) (x : Whole.Conn (Message E))
    (hx : x ∈ s.pool.conns) :
    WrittenTo x.peer.accepted x.peer.wire ∧ ∀ m ∈ x.peer.accepted, Said m := by
  obtain ⟨h1, -, un, re, hp, -, h2, fs, ms, unh, es, late, -, -, -, h3, -, -⟩ :=
    C124_what_a_peer_sees remote chain storage mempool headHash hh s h x hx
  refine ⟨h1, fun m hm => ?_⟩
  rcases List.mem_append.1 (hp.mem_iff.2 hm) with hu | hr
  · rcases h2 m hu with h | ⟨b, rfl, -⟩
    · cases m <;> trivial
    · trivial
  · exact answers_said es m (by rw [h3]; exact List.mem_append_left _ hr)

/-- The same from the first byte, with the handshakes. -/
theorem C149_refuted_full (u : Full.Setup) (chain : Chain E) (storage : Storage E)
    (mempool : Option (Transaction E → Out Unit)) (nonces : NonceList) (headHash : Bytes) (hh : HasHash chain.head headHash)
    (s : Full.State E) (h : Full.Reachable u chain storage mempool nonces s) (x : Whole.Conn (Message E))
    (hx : x ∈ s.prog.pool.conns) : ∀ t, .transaction t ∉ x.peer.accepted := by
  obtain ⟨d, hd⟩ := (C128_parts u chain storage mempool nonces headHash hh s h).2
  intro t ht
  exact (C149_refuted u.remote chain storage mempool headHash hh _ hd x hx).2 _ ht

/-- **C149, the part that holds.** A transaction from a known peer is handed to the pool of transactions, once, and
changes nothing else: if it is taken, nothing happens to the node and nothing is sent; if it is refused, the sender is
banned and nothing is sent. -/
theorem C149_taken_partial (w : World) (node : Node E) (f : Sender) (known : Known node f)
    (processTx : Transaction E → Out Unit) (hm : node.mempool = some processTx) (t : Transaction E) :
    (processMessage w node f (.transaction t)).effects = [] ∧
    (processTx t = .ok () → (processMessage w node f (.transaction t)).node = node ∧
      (processMessage w node f (.transaction t)).ended = .done) ∧
    (∀ e, processTx t = .err e → (processMessage w node f (.transaction t)).node =
      { node with table := (ban node.table f.remote (some f.conn) w.closing).1 }) := by
  rw [process_known w node f known]
  simp only [handle, hm]
  refine ⟨?_, fun h => by rw [h]; exact ⟨rfl, rfl⟩, fun e h => ?_⟩
  · unfold orBan afterBan
    split
    · rfl
    · split <;> rfl
    · rfl
    · rfl
  · rw [h]
    unfold orBan afterBan
    simp only
    split <;> rename_i h' <;> rw [h'] <;> simp [hm]

/-- A run in which a connection was written to: a block was passed on to it. -/
example (w : World) (hw : Program.Real w) :
    ∃ (b : Block Toy.env) (chain : Chain Toy.env) (s : Program.State Toy.env) (x y : Whole.Conn (Message Toy.env)),
      Program.Reachable hostOf chain (sqlStorage _) none s ∧ s.pool.conns = [x, y] ∧ y.peer.accepted = [.block b] ∧
      ∀ m ∈ y.peer.accepted, Said m := by
  obtain ⟨f, b, chain, hf, hc, hb, hh, h0, -⟩ := sample_relay
  obtain ⟨s, x, y, h1, h2, -, -, h3, -⟩ := relayed_run chain (sqlStorage _) none w hw (by decide) f b hf hb hh h0
  exact ⟨b, chain, s, x, y, h1, h2, h3, (C149_refuted hostOf chain _ none toyHash hc s h1 y (by rw [h2]; simp)).2⟩

/-- A known peer, and a pool of transactions that takes everything or nothing. -/
example (E : Env) (r : Net.Resolver) (w : World) (t : Transaction E) :
    (processMessage w { shipped E r with mempool := some fun _ => .ok () } ⟨"127.0.0.1:13414", 0, "127.0.0.1:13414"⟩
      (.transaction t)).ended = .done ∧
    (processMessage w { shipped E r with mempool := some fun _ => .err "refused" }
      ⟨"127.0.0.1:13414", 0, "127.0.0.1:13414"⟩ (.transaction t)).effects = [] := by
  have known : ∀ m, Known { shipped E r with mempool := m } ⟨"127.0.0.1:13414", 0, "127.0.0.1:13414"⟩ := by
    intro m
    have e : written 127 0 0 1 13414 = "127.0.0.1:13414" := by decide
    show _ ∈ (shipped E r).table.map (·.1)
    rw [shipped_table, e]
    simp
  exact ⟨((C149_taken_partial w _ _ (known _) (fun _ => .ok ()) rfl t).2.1 rfl).2,
    (C149_taken_partial w _ _ (known _) (fun _ => .err "refused") rfl t).1⟩

end Gringo.Props
