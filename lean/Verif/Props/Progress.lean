import Verif.Props.ExchangeWitness
/-
C110: a node that hears of more work adopts it. C111: the two ends of a connection know each other's state.
-/
namespace Gringo.Props
open Gringo.Spec Gringo.P2P

variable {E : Env}

/-- What a node does while it handles a history of messages. -/
def effectsOf (node : Node E) : History E → List (Effect E)
  | [] => []
  | (w, f, m) :: h => (processMessage w node f m).effects ++ effectsOf (processMessage w node f m).node h

/-- The message that goes out. -/
def Outgoing : Effect E → Message E
  | .reply r => replyMessage r
  | .relay _ _ b => .block b

theorem orBan_effects (w : World) (node : Node E) (f : Sender) (r : Out Unit) (k : Node E → Handled E) (e : Effect E)
    (h : e ∈ (orBan w node f r k).effects) : ∃ node', e ∈ (k node').effects := by
  unfold orBan afterBan at h
  split at h
  · exact ⟨_, h⟩
  · split at h
    · exact ⟨_, h⟩
    · cases h
    · cases h
  · cases h
  · cases h

/-- What handling one message sends. -/
theorem process_sends (w : World) (node : Node E) (f : Sender) (m : Message E) (e : Effect E)
    (h : e ∈ (processMessage w node f m).effects) :
    ∀ p, Outgoing e = .pong p → p = ⟨node.chain.totalDifficulty, node.chain.height⟩ := by
  intro p hp
  unfold processMessage at h
  split at h
  · cases h
  · cases m with
    | ping m => simp only [handle, List.mem_singleton] at h; subst h; cases hp; rfl
    | pong m => cases h
    | getPeerAddrs m => simp only [handle, List.mem_singleton] at h; subst h; cases hp
    | peerAddrs m => cases h
    | getHeaders m =>
      simp only [handle] at h
      split at h
      · simp only [List.mem_singleton] at h; subst h; cases hp
      all_goals cases h
    | header m => simp only [handle] at h; split at h <;> cases h
    | headers m =>
      obtain ⟨n', h⟩ := orBan_effects w node f _ _ e h
      cases h
    | getBlock m =>
      simp only [handle] at h
      split at h
      · simp only [List.mem_singleton] at h; subst h; cases hp
      · cases h
    | block b =>
      obtain ⟨n', h⟩ := orBan_effects w _ f _ _ e h
      simp only at h
      split at h
      · obtain ⟨x, -, rfl⟩ := List.mem_map.1 h
        cases hp
      · cases h
    | transaction t =>
      simp only [handle] at h
      split at h
      · cases h
      · obtain ⟨n', h⟩ := orBan_effects w node f _ _ e h
        cases h

/-- **C110 is false of the code.** Whatever messages a node receives, in any number and order, from anybody: its head,
height and total difficulty are as at the start; every pong it sends tells the height and total difficulty of the
start; and no message it sends while handling them is a request for a header or a block, so it never asks for what it
has heard of. -/
theorem C110_refuted (node : Node E) (h : History E) :
    (afterMessages node h).chain.head = node.chain.head ∧ (afterMessages node h).chain.height = node.chain.height ∧
    (afterMessages node h).chain.totalDifficulty = node.chain.totalDifficulty ∧
    ∀ e ∈ effectsOf node h, (∀ p, Outgoing e = .pong p → p = ⟨node.chain.totalDifficulty, node.chain.height⟩) ∧
      (∀ l, Outgoing e ≠ .getHeaders l) ∧ ∀ g, Outgoing e ≠ .getBlock g := by
  induction h generalizing node with
  | nil => exact ⟨rfl, rfl, rfl, fun e he => by cases he⟩
  | cons x h ih =>
    obtain ⟨w, f, m⟩ := x
    obtain ⟨t, hn, -⟩ := process_touches w node f m
    have hc : (processMessage w node f m).node.chain = node.chain := by rw [hn]
    obtain ⟨h1, h2, h3, h4⟩ := ih (processMessage w node f m).node
    rw [hc] at h1 h2 h3 h4
    refine ⟨h1, h2, h3, fun e he => ?_⟩
    rcases List.mem_append.1 he with he | he
    · refine ⟨process_sends w node f m e he, fun l => ?_, fun g => ?_⟩ <;>
        (cases e with
        | reply r => cases r <;> exact fun h => by cases h
        | relay a c b => exact fun h => by cases h)
    · exact h4 e he

/-- **C110, the part that holds**: no message makes the node's height or total difficulty fall. -/
theorem C110_never_falls_partial (node : Node E) (h : History E) :
    node.chain.height.toNat ≤ (afterMessages node h).chain.height.toNat ∧
    node.chain.totalDifficulty.toNat ≤ (afterMessages node h).chain.totalDifficulty.toNat := by
  obtain ⟨-, h2, h3, -⟩ := C110_refuted node h
  rw [h2, h3]
  exact ⟨Nat.le_refl _, Nat.le_refl _⟩

/-! ### C111 -/

/-- **C111 is false of the code.** The ping with which a node opens a connection says height 1 and total difficulty 1,
whatever its chain is. The node at the other end reads it so and records it, in place of what the handshake told;
so for every state of the sending node but that one the record is wrong. -/
theorem C111_refuted (hmem : 20000000 ≤ E.maxAlloc) (sender : Chain E)
    (hs : sender.height ≠ 1 ∨ sender.totalDifficulty ≠ 1) (w : World) (receiver : Node E) (f : Sender) (i : PeerInfo)
    (hi : receiver.table.find f.addr = some i) :
    ∃ m b p, sendPing (E := E) = .ok m ∧ m.frame = .ok b ∧ (readHandler E b).dispatched = [p] ∧
      ∃ j, (processMessage w receiver f p).node.table.find f.addr = some j ∧ j.height = 1 ∧ j.totalDifficulty = 1 ∧
        (j.height ≠ sender.height ∨ j.totalDifficulty ≠ sender.totalDifficulty) := by
  obtain ⟨-, -, -, m, b, h1, h2, h3⟩ := C82_arrives (E := E) hmem
  refine ⟨m, b, _, h1, h2, h3, _, (C60_ping w receiver f i hi ⟨1, 1⟩).2.2.1, rfl, rfl, ?_⟩
  rcases hs with hs | hs
  · exact .inl fun h => hs h.symm
  · exact .inr fun h => hs h.symm

/-- **C111, the part that holds**: the answer to a ping tells height and total difficulty of the answering node's chain,
and the node that asked records them. -/
theorem C111_pong_partial (P : Point → Prop) (Q : E.Prf → Prop) (hE : PointCodec E P) (hQ : PrfCodec E Q)
    (hS : SortOK E) (hmem : 1000000 * (104 + E.outputSize) ≤ E.maxAlloc) (others : Nat → Node E → Node E)
    (ho : ∀ n x, LeavesEntries x (others n x)) (w : Nat → World) (f : Sender) (answering : Node E) (headHash : Bytes)
    (hh : HasHash answering.chain.head headHash) (known : Known answering f)
    (w' : World) (asking : Node E) (f' : Sender) (i : PeerInfo) (hi : asking.table.find f'.addr = some i) :
    ∃ ping, (sendPing >>= Message.frame (E := E)) = .ok ping ∧ ∀ n, ping.length < n →
      ∃ r pong p, (converse others w f n (some answering) ping).effects = [.reply r] ∧
        (replyMessage r).frame = .ok pong ∧ (readHandler E pong).dispatched = [p] ∧
        (processMessage w' asking f' p).node.table.find f'.addr = some
          { i with height := answering.chain.height, totalDifficulty := answering.chain.totalDifficulty } := by
  obtain ⟨asked, h1, h2⟩ := C97_ping P Q hE hQ hS hmem others ho w f answering headHash hh known
  refine ⟨asked, h1, fun n hn => ?_⟩
  obtain ⟨written, h3, h4, h5⟩ := h2 n hn
  exact ⟨_, written, _, h3, h4, h5, (C60_pong w' asking f' i hi _).2.2.1⟩

/-! ### Concrete cases -/

/-- `C110_refuted` on a history with a block and a ping. -/
example (w : World) : ∃ r, effectsOf toyNode [(w, toySender, .block toyParent), (w, toySender, .ping ⟨1, 1⟩)] = r ++
      [.reply (.pong ⟨10, 0⟩)] ∧
    (afterMessages toyNode [(w, toySender, .block toyParent), (w, toySender, .ping ⟨1, 1⟩)]).chain.height = 0 := by
  obtain ⟨-, h2, h3, -⟩ := C110_refuted toyNode [(w, toySender, .block toyParent)]
  refine ⟨(processMessage w toyNode toySender (.block toyParent)).effects, ?_,
    (C110_refuted toyNode _).2.1⟩
  have hk : Known (processMessage w toyNode toySender (.block toyParent)).node toySender :=
    (process_leaves w toyNode toySender _).2.2.2 _ toy_known
  obtain ⟨i, hi⟩ := (known_iff _ _).1 hk
  obtain ⟨-, e, -⟩ := C60_ping w _ toySender i hi ⟨1, 1⟩
  simp only [effectsOf, List.append_nil]
  rw [e]
  exact congrArg _ (congrArg (fun x => [Effect.reply (.pong x)]) (by
    simp only [afterMessages, List.foldl_cons, List.foldl_nil] at h2 h3
    rw [h2, h3]; rfl))

/-- `C111_refuted`: the ping of a node on the first test network. -/
example (w : World) : ∃ p j, (processMessage w toyNode toySender p).node.table.find toySender.addr = some j ∧
    j.totalDifficulty = 1 ∧ toyNode.chain.totalDifficulty = 10 := by
  obtain ⟨i, hi⟩ := (known_iff toyNode toySender).1 toy_known
  obtain ⟨-, -, p, -, -, -, j, h1, -, h2, -⟩ := C111_refuted (E := Toy.env) (by norm_num) toyNode.chain
    (.inr (by decide)) w toyNode toySender i hi
  exact ⟨p, j, h1, h2, rfl⟩

/-- `C111_pong_partial`. -/
example (w : Nat → World) (w' : World) : ∃ p j,
    (processMessage w' toyNode toySender p).node.table.find toySender.addr = some j ∧ j.height = 0 ∧
      j.totalDifficulty = 10 := by
  obtain ⟨i, hi⟩ := (known_iff toyNode toySender).1 toy_known
  obtain ⟨ping, -, h⟩ := C111_pong_partial Toy.OKPoint (fun _ => True) Toy.pointCodec Toy.prfCodec Toy.sortOK
    (by norm_num) (fun _ x => x) (fun _ x => ⟨rfl, rfl, rfl, fun _ h => h⟩) w toySender toyNode
    _ (genesis_hash Toy.env .testnet1) toy_known w' toyNode toySender i hi
  obtain ⟨-, -, p, -, -, -, hp⟩ := h (ping.length + 1) (by omega)
  exact ⟨p, _, hp, rfl, rfl⟩

end Gringo.Props
