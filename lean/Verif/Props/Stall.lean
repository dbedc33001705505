import Verif.Props.Lifecycle
import Verif.Props.SyncWitness
import Verif.Props.PoolRun
import Verif.Props.Genesis
/-
C103: a peer that does not read. C104: a block that comes again.
-/
namespace Gringo.Props
open Gringo.Spec Gringo.Lifecycle

section Stall
variable {M : Type} {frame : M → Bytes}

/-! ### C103 -/

/-- The remote peer has stopped to take bytes: the write handler is in the middle of a message, the connection is up
and nobody is closing it. -/
structure Stalled (s : Peer M) : Prop where
  writer : ∃ m q, s.writer = .writing m q ∧ q ≠ []
  reader : s.reader = .loop ∨ s.reader = .reading ∨ s.reader = .handling .nothing ∨
    (∃ m, s.reader = .handling (.reply m)) ∨ ∃ m, s.reader = .replying m
  up : s.flag = false ∧ s.quit = 0 ∧ s.conn = 0
  calls : (∀ d, Thread.disconnect d ∉ s.threads) ∧ Thread.waitGroup ∉ s.threads

/-- What may happen while the remote peer takes no bytes: any steps of this process, any messages from the remote
peer for which it is not banned, and any new calls but `Disconnect`. -/
inductive Unread (frame : M → Bytes) (s : Peer M) : Peer M → Prop
  | refl : Unread frame s s
  | own {s' s'' : Peer M} (h : Unread frame s s') (hs : Step frame .own s' s'') : Unread frame s s''
  | message {s' : Peer M} {a : Act M} (h : Unread frame s s') (hr : s'.reader = .reading) (ha : a ≠ .close) :
      Unread frame s { s' with reader := .handling a }
  | send {s' : Peer M} (m : M) (h : Unread frame s s') : Unread frame s { s' with threads := s'.threads ++ [.send m] }
  | wait {s' : Peer M} (h : Unread frame s s') : Unread frame s { s' with threads := s'.threads ++ [.wait] }

theorem stalled_own {s s' : Peer M} (h : Stalled s) (hs : Step frame .own s s') :
    Stalled s' ∧ s'.threads = s.threads ∧ s'.writer = s.writer ∧ s'.wire = s.wire := by
  obtain ⟨⟨m, q, hw, hq⟩, hr, ⟨hf, hz, hc⟩, hd, hg0⟩ := h
  have notDisc : ∀ d, ¬ (s.reader = .closing d ∨ s.reader = .leaving d) := by
    rintro d (h | h) <;> rw [h] at hr <;> simp at hr
  cases hs with
  | loopGo _ h _ => exact ⟨⟨⟨m, q, hw, hq⟩, .inr (.inl rfl), ⟨hf, hz, hc⟩, hd, hg0⟩, rfl, rfl, rfl⟩
  | loopEnd _ h hf' => rw [hf] at hf'; cases hf'
  | readClosed _ h hc' => rw [hc] at hc'; cases hc'
  | handleNothing _ h => exact ⟨⟨⟨m, q, hw, hq⟩, .inl rfl, ⟨hf, hz, hc⟩, hd, hg0⟩, rfl, rfl, rfl⟩
  | handleReply _ x h => exact ⟨⟨⟨m, q, hw, hq⟩, .inr (.inr (.inr (.inr ⟨x, rfl⟩))), ⟨hf, hz, hc⟩, hd, hg0⟩, rfl, rfl, rfl⟩
  | handleClose _ h => rw [h] at hr; simp at hr
  | replyQuit _ x h hq' => rw [hz] at hq'; cases hq'
  | replyTaken _ x h hw' => rw [hw] at hw'; cases hw'
  | closingStep _ s0 d d' h _ => exact absurd (.inl h) (notDisc d)
  | closingEnd _ h => exact absurd (.inl h) (notDisc _)
  | readerDone _ h => rw [h] at hr; simp at hr
  | readerLeave _ s0 d d' h _ => exact absurd (.inr h) (notDisc d)
  | gotDrop _ x h _ => rw [hw] at h; cases h
  | gotWrite _ x h _ => rw [hw] at h; cases h
  | writeClosed _ x q' h _ hc' => rw [hc] at hc'; cases hc'
  | writeDone _ x h => rw [hw] at h; cases h; exact absurd rfl hq
  | selectQuit _ h _ => rw [hw] at h; cases h
  | writerDone _ h => rw [hw] at h; cases h
  | writerLeave _ s0 d d' h _ => rw [hw] at h; cases h
  | threadDisc _ s0 l r d d' h _ => exact absurd (by rw [h]; simp) (hd d)
  | sendQuit _ l r x h hq' => rw [hz] at hq'; cases hq'
  | sendTaken _ l r x h hw' => rw [hw] at hw'; cases hw'
  | waitQuit _ l r h hq' => rw [hz] at hq'; cases hq'
  | waitEnd _ l r h hg => exact absurd (by rw [h]; simp) hg0

/-- **C103 is false of the code.** Once a peer has stopped to take bytes, no call that is waiting to send it something
ever returns, however long the process runs and whatever else the peer sends: there is no time limit. -/
theorem C103_refuted {s s' : Peer M} (h : Stalled s) (hr : Unread frame s s') :
    Stalled s' ∧ s.threads <+: s'.threads ∧ s'.wire = s.wire := by
  induction hr with
  | refl => exact ⟨h, List.prefix_refl _, rfl⟩
  | own _ hs ih =>
    obtain ⟨h1, h2, -, h3⟩ := stalled_own ih.1 hs
    exact ⟨h1, by rw [h2]; exact ih.2.1, by rw [h3]; exact ih.2.2⟩
  | @message s' a _ hr ha ih =>
    obtain ⟨⟨h1, h2, h3, h4⟩, h5, h6⟩ := ih
    refine ⟨⟨h1, ?_, h3, h4⟩, h5, h6⟩
    cases a with
    | nothing => exact .inr (.inr (.inl rfl))
    | reply m => exact .inr (.inr (.inr (.inl ⟨m, rfl⟩)))
    | close => exact absurd rfl ha
  | send m _ ih =>
    obtain ⟨⟨h1, h2, h3, h4⟩, h5, h6⟩ := ih
    exact ⟨⟨h1, h2, h3, by simpa using h4⟩, h5.trans (List.prefix_append _ _), h6⟩
  | wait _ ih =>
    obtain ⟨⟨h1, h2, h3, h4⟩, h5, h6⟩ := ih
    exact ⟨⟨h1, h2, h3, by simpa using h4⟩, h5.trans (List.prefix_append _ _), h6⟩

/-- Such states are reached by every peer, and any number of messages can be waiting: the memory they take has no
bound. -/
theorem C103_unbounded (frame : M → Bytes) (first : M) (hne : frame first ≠ []) (waiting : List M) :
    ∃ s : Peer M, Reachable frame s ∧ Stalled s ∧ s.threads = .sent first true :: waiting.map .send := by
  have h1 : Reachable frame _ := .step (.new (M := M)) (.start _ rfl rfl)
  have h2 := Reachable.step h1 (.callSend _ first)
  have h3 := Reachable.step h2 (.sendTaken _ [] [] first rfl rfl)
  have h4 := Reachable.step h3 (.gotWrite _ first rfl rfl)
  have base : ∃ s : Peer M, Reachable frame s ∧ Stalled s ∧ s.threads = [.sent first true] :=
    ⟨_, h4, ⟨⟨first, frame first, rfl, hne⟩, .inl rfl, ⟨rfl, rfl, rfl⟩, by simp⟩, rfl⟩
  induction waiting using List.reverseRecOn with
  | nil => exact base
  | append_singleton l m ih =>
    obtain ⟨s, hs, ⟨a, b, c, d⟩, ht⟩ := ih
    refine ⟨_, .step hs (.callSend s m), ⟨a, b, c, by simpa using d⟩, ?_⟩
    simp [ht]

/-- **C103, the part that holds.** A call that sends something only ever waits for the remote peer: when the process
has nothing more to do by itself, the handlers have not been started, or the write handler is in the middle of a
message that the connection does not take. -/
theorem C103_waits_partial {s : Peer M} (h : Reachable frame s) (hn : ¬ SelfClosing s) (hi : Idle frame s) (m : M)
    (hm : .send m ∈ s.threads) : s.writer = .notStarted ∨ ∃ m' q, s.writer = .writing m' q ∧ q ≠ [] := by
  have hf : s.flag = false := by
    cases hf : s.flag with
    | false => rfl
    | true =>
      have := (idle_settled (inv_reachable h) hf hn hi).1.2.2 _ hm
      exact this.elim
  obtain ⟨l, r, ht⟩ := List.append_of_mem hm
  cases hw : s.writer with
  | notStarted => exact .inl rfl
  | select => exact absurd (.sendTaken s l r m ht hw) (hi _)
  | got x => exact absurd (.gotWrite s x hw hf) (hi _)
  | writing x q =>
    cases q with
    | nil => exact absurd (.writeDone s x hw) (hi _)
    | cons a q => exact .inr ⟨x, _, rfl, by simp⟩
  | stopping => exact absurd (.writerDone s hw) (hi _)
  | leaving d =>
    exfalso
    cases d with
    | cas => exact hi _ (.writerLeave s _ _ _ hw (.win s hf))
    | won => exact hi _ (.writerLeave s _ _ _ hw (.closeQuit s))
    | closing => exact hi _ (.writerLeave s _ _ _ hw (.closeConn s))
    | waiting =>
      have := discs_alone (inv_reachable h) (d := .waiting) (by simp [Peer.discs, hw, Writer.discs]) (by simp)
      rw [hf] at this; cases this
    | returned =>
      have := returned_flag h (by simp [Peer.discs, hw, Writer.discs])
      rw [hf] at this; cases this

/-- Disconnecting frees the callers: see `C66_completes`. -/
theorem C103_freed_partial {s : Peer M} (h : Reachable frame s) (hf : s.flag = true) (hn : ¬ SelfClosing s) :
    ∃ N, ∀ s' n c, Run frame s s' n c → n ≤ N + 13 * c ∧ (Idle frame s' → ∀ m, .send m ∉ s'.threads) := by
  obtain ⟨N, hN⟩ := C66_completes h hf hn
  refine ⟨N, fun s' n c hr => ⟨(hN s' n c hr).1, fun hi m hm => ?_⟩⟩
  exact ((hN s' n c hr).2 hi).2.2 _ hm

/-- A stalled peer with `n` messages waiting: they are still waiting after everything else that may happen. -/
example (f : Unit → Bytes) (hf : f () ≠ []) (n : Nat) : ∃ s : Peer Unit, Reachable f s ∧
    (s.threads.filter (· == .send ())).length = n ∧
    ∀ s', Unread f s s' → n ≤ (s'.threads.filter (· == .send ())).length := by
  obtain ⟨s, h1, h2, h3⟩ := C103_unbounded f () hf (List.replicate n ())
  have hl : (s.threads.filter (· == .send ())).length = n := by
    rw [h3, List.map_replicate]
    simp
  refine ⟨s, h1, hl, fun s' hr => ?_⟩
  rw [← hl]
  exact (((C103_refuted h2 hr).2.1.sublist.filter _)).length_le

/-- A stalled peer with one caller, the read handler waiting for input. -/
def stalledPeer (f : Unit → Bytes) : Peer Unit :=
  { Peer.new Unit with
    wg := 2, reader := .reading, writer := .writing () (f ()), threads := [.sent () true, .send ()], accepted := [()] }

/-- `C103_waits_partial` -/
example (f : Unit → Bytes) (hf : f () ≠ []) : Reachable f (stalledPeer f) ∧ ¬ SelfClosing (stalledPeer f) ∧
    Idle f (stalledPeer f) ∧ .send () ∈ (stalledPeer f).threads := by
  have h1 : Reachable f _ := .step (.new (M := Unit)) (.start _ rfl rfl)
  have h2 := Reachable.step h1 (.callSend _ ())
  have h3 := Reachable.step h2 (.sendTaken _ [] [] () rfl rfl)
  have h4 := Reachable.step h3 (.gotWrite _ () rfl rfl)
  have h5 := Reachable.step h4 (.loopGo _ rfl rfl)
  have h6 := Reachable.step h5 (.callSend _ ())
  refine ⟨h6, fun h => by simp [SelfClosing, stalledPeer] at h, ?_,
    by simp [stalledPeer]⟩
  clear h1 h2 h3 h4 h5 h6
  have st : Stalled (stalledPeer f) := ⟨⟨(), f (), rfl, hf⟩, .inr (.inl rfl), ⟨rfl, rfl, rfl⟩,
    by simp [stalledPeer]⟩
  intro s' hs
  cases hs with
  | loopGo _ h => cases h
  | loopEnd _ h => cases h
  | readClosed _ _ h => cases h
  | handleNothing _ h => cases h
  | handleReply _ _ h => cases h
  | handleClose _ h => cases h
  | replyQuit _ _ h => cases h
  | replyTaken _ _ h => cases h
  | closingStep _ _ _ _ h => cases h
  | closingEnd _ h => cases h
  | readerDone _ h => cases h
  | readerLeave _ _ _ _ h => cases h
  | gotDrop _ _ h => cases h
  | gotWrite _ _ h => cases h
  | writeClosed _ _ _ _ _ h => cases h
  | writeDone _ _ h => injection h with _ h; exact hf h
  | selectQuit _ h => cases h
  | writerDone _ h => cases h
  | writerLeave _ _ _ _ h => cases h
  | threadDisc _ _ _ _ d _ h => exact st.calls.1 d (by rw [h]; simp)
  | sendQuit _ _ _ _ _ h => cases h
  | sendTaken _ _ _ _ _ h => cases h
  | waitQuit _ _ _ _ h => cases h
  | waitEnd _ _ _ h => exact st.calls.2 (by rw [h]; simp)

end Stall

/-! ### C104 -/

section Again
open Gringo.P2P
variable {E : Env}

/-- The node and what it has sent after `n` times the same message from the same peer; `none` when the handling of one
of them did not end normally. -/
def repeated (w : World) (from_ : Sender) (m : Message E) : Nat → Node E → Option (Node E × List (Effect E))
  | 0, node => some (node, [])
  | n + 1, node =>
    let r := processMessage w node from_ m
    if r.ended = .done then
      (repeated w from_ m n r.node).map fun x => (x.1, r.effects ++ x.2)
    else none

/-- **C104 is false of the code.** Take any block that is accepted and has the chain's height (the node's own head is
one), and any connected peer with a lower record. Every time a peer sends the block, it is relayed once more: `n`
copies make `n` relays to every such peer. -/
theorem C104_refuted (w : World) (from_ : Sender) (b : Block E) (n : Nat) (node : Node E) (known : Known node from_)
    (hok : (node.chain.processBlock node.storage b).1 = .ok ()) (hheight : b.header.height = node.chain.height)
    (addr : String) (hne : addr ≠ from_.addr) (hon : addr ∈ node.online) (i : PeerInfo)
    (hi : node.table.find addr = some i) (c : Nat) (hc : i.peer = some c)
    (hlow : i.height.toNat < b.header.height.toNat ∨ i.totalDifficulty.toNat < b.header.totalDifficulty.toNat) :
    ∃ node' effects, repeated w from_ (.block b) n node = some (node', effects) ∧
      (List.replicate n (.relay addr c b)).Sublist effects := by
  induction n generalizing node with
  | zero => exact ⟨node, [], rfl, List.Sublist.refl _⟩
  | succ n ih =>
    have hr : processMessage w node from_ (.block b) =
        { node := { node with table := node.table.update from_.addr (blockRecord b) }
          effects := (relayTargets (node.table.update from_.addr (blockRecord b)) node.online b.header.height
            b.header.totalDifficulty).map fun x => .relay x.1 x.2 b
          ended := .done } := by
      rw [process_known w node from_ known]
      simp only [handle, orBan, hok]
      have : (node.chain.processBlock node.storage b).2 = node.chain := rfl
      rw [this, if_pos hheight]
    have hi' : (node.table.update from_.addr (blockRecord b)).find addr = some i := by
      rw [find_update, if_neg hne]; exact hi
    obtain ⟨node', eff, h1, h2⟩ := ih { node with table := node.table.update from_.addr (blockRecord b) }
      (by
        rw [known_iff] at known ⊢
        obtain ⟨j, hj⟩ := known
        exact ⟨_, by rw [find_update, if_pos rfl, hj]; rfl⟩) hok hheight hon hi'
    refine ⟨node', _, by simp only [repeated, hr, if_true, h1, Option.map_some]; rfl, ?_⟩
    rw [List.replicate_succ]
    have hm : Effect.relay addr c b ∈ (relayTargets (node.table.update from_.addr (blockRecord b)) node.online
        b.header.height b.header.totalDifficulty).map fun x => .relay x.1 x.2 b :=
      List.mem_map.2 ⟨(addr, c), (C62_targets _ _ _ _ _ _).2 ⟨hon, i, hi', hc, hlow⟩, rfl⟩
    exact (List.singleton_sublist.2 hm).append h2

/-- **C104, the part that holds.** One message makes at most one relay to each peer, in every state the pool can get
into, and none to a peer whose record has at least the height and the total difficulty of the block. -/
theorem C104_one_message_partial (w : World) (node : Node E) (from_ : Sender) (b : Block E) (known : Known node from_)
    (s : PoolRun.Pool) (hs : PoolRun.Reachable PoolRun.Pool.new s) (honline : node.online = s.online) :
    (processMessage w node from_ (.block b)).effects.Nodup ∧
    ∀ addr c b' i, addr ≠ from_.addr → node.table.find addr = some i →
      b.header.height.toNat ≤ i.height.toNat → b.header.totalDifficulty.toNat ≤ i.totalDifficulty.toNat →
      .relay addr c b' ∉ (processMessage w node from_ (.block b)).effects := by
  have hn : node.online.Nodup := by rw [honline]; exact (PoolRun.inv_reachable hs).online.nodup
  rcases block_cases w node from_ b known with ⟨-, h2, -, -, h4⟩ | ⟨-, h2, -⟩
  · rw [h4]
    split
    · refine ⟨(C62_once _ _ hn _ _).map fun _ _ h => ?_, ?_⟩
      · injection h with h1 h2; exact Prod.ext h1 h2
      · intro addr c b' i hne hi hh htd hm
        rw [List.mem_map] at hm
        obtain ⟨x, hx, e⟩ := hm
        injection e with e1 e2
        obtain ⟨-, j, hj, -, hl⟩ := (C62_targets _ _ _ _ x.1 x.2).1 hx
        rw [h2, find_update, e1, if_neg hne, hi] at hj
        cases hj
        omega
    · exact ⟨List.nodup_nil, by simp⟩
  · rw [h2]; exact ⟨List.nodup_nil, by simp⟩

/-- `C104_refuted`: the peer at `10.0.0.2` sends the node's own genesis block a hundred times, and the peer known by
host name gets it a hundred times. -/
example (w : World) : ∃ node' effects, repeated w toySender2 (.block (testnet1 Toy.env)) 100 toyNode = some (node', effects) ∧
    (List.replicate 100 (.relay "seed.example:13414" 0 (testnet1 Toy.env))).Sublist effects := by
  have h1 : toyNode.chain.head.hash = .ok (Toy.env.blake2b []) := genesis_hash Toy.env .testnet1
  have h2 : (testnet1 Toy.env).hash = .ok (Toy.env.blake2b []) := genesis_hash Toy.env .testnet1
  have h3 : (toyNode.chain.processBlock toyNode.storage (testnet1 Toy.env)).1 = .ok () := by
    unfold Chain.processBlock
    simp only [h1, h2, Out.bind_ok]
    rw [if_pos trivial]; rfl
  exact C104_refuted w toySender2 (testnet1 Toy.env) 100 toyNode toy_known2 h3 rfl "seed.example:13414" (by decide)
    (by decide) _ rfl 0 rfl (.inr (by decide +kernel))

/-- `C104_one_message_partial`: the pool has one connection. -/
example (w : World) (resolve : String → Option TCPAddr) (hr : ∀ a, resolve "" = some a → a.port = 0)
    (ha : Admissible resolve "10.0.0.2:13414") (b : Block Toy.env) :
    (processMessage w { toyNode with online := ["10.0.0.2:13414"] } toySender (.block b)).effects.Nodup :=
  (C104_one_message_partial w { toyNode with online := ["10.0.0.2:13414"] } toySender b toy_known _
    (live_reachable hr ha) rfl).1

end Again
end Gringo.Props
