import Verif.Model.Sync
import Verif.Props.Pool
import Verif.Props.ReadLoop
import Verif.Props.Genesis
/-
C60, C61, C63, C75, C76: handling messages.
-/
namespace Gringo.Props
open Gringo.Spec Gringo.P2P

variable {E : Env}

/-- The sender is in the table. -/
def Known (node : Node E) (from_ : Sender) : Prop := from_.addr ∈ node.table.map (·.1)

theorem known_iff (node : Node E) (from_ : Sender) :
    Known node from_ ↔ ∃ i, node.table.find from_.addr = some i := by
  unfold Known
  rw [← find_isSome_iff, Option.isSome_iff_exists]

theorem process_known (w : World) (node : Node E) (from_ : Sender) (h : Known node from_) (m : Message E) :
    processMessage w node from_ m = handle w node from_ m := by
  obtain ⟨i, hi⟩ := (known_iff node from_).1 h
  unfold processMessage; rw [hi]

/-! ### C60 -/

/-- **C60, Ping.** The answer is one Pong with the chain's state; the sender's height and difficulty are
recorded; nothing else changes. -/
theorem C60_ping (w : World) (node : Node E) (from_ : Sender) (i : PeerInfo)
    (hi : node.table.find from_.addr = some i) (m : Ping) :
    let r := processMessage w node from_ (.ping m)
    r.ended = .done ∧
    r.effects = [.reply (.pong { totalDifficulty := node.chain.totalDifficulty, height := node.chain.height })] ∧
    r.node.table.find from_.addr = some { i with totalDifficulty := m.totalDifficulty, height := m.height } ∧
    (∀ a, a ≠ from_.addr → r.node.table.find a = node.table.find a) ∧
    r.node.chain = node.chain ∧ r.node.online = node.online := by
  simp only
  rw [process_known w node from_ ((known_iff _ _).2 ⟨i, hi⟩)]
  refine ⟨rfl, rfl, ?_, ?_, rfl, rfl⟩
  · simp only [handle]; rw [find_update, if_pos rfl, hi]; rfl
  · intro a ha; simp only [handle]; rw [find_update, if_neg ha]

/-- **C60, Pong.** The same record, and no answer. -/
theorem C60_pong (w : World) (node : Node E) (from_ : Sender) (i : PeerInfo)
    (hi : node.table.find from_.addr = some i) (m : Ping) :
    let r := processMessage w node from_ (.pong m)
    r.ended = .done ∧ r.effects = [] ∧
    r.node.table.find from_.addr = some { i with totalDifficulty := m.totalDifficulty, height := m.height } ∧
    (∀ a, a ≠ from_.addr → r.node.table.find a = node.table.find a) ∧
    r.node.chain = node.chain ∧ r.node.online = node.online := by
  simp only
  rw [process_known w node from_ ((known_iff _ _).2 ⟨i, hi⟩)]
  refine ⟨rfl, rfl, ?_, ?_, rfl, rfl⟩
  · simp only [handle]; rw [find_update, if_pos rfl, hi]; rfl
  · intro a ha; simp only [handle]; rw [find_update, if_neg ha]

/-! ### C61 -/

/-- How handling a block can go: it is accepted, or `Ban` does not know the remote address, and then the
record is updated and the block perhaps relayed; or the call does not end normally and nothing is sent. -/
theorem block_cases (w : World) (node : Node E) (from_ : Sender) (b : Block E) (h : Known node from_) :
    let r := processMessage w node from_ (.block b)
    ((node.chain.processBlock node.storage b).1 = .ok () ∨
      (∃ e, (node.chain.processBlock node.storage b).1 = .err e) ∧ from_.remote ∉ node.table.map (·.1)) ∧
      r.node.table = node.table.update from_.addr (blockRecord b) ∧ r.ended = .done ∧ r.node.chain = node.chain ∧
      r.effects = (if b.header.height = node.chain.height then
        (relayTargets r.node.table node.online b.header.height b.header.totalDifficulty).map fun x => .relay x.1 x.2 b
        else [])
    ∨ r.ended ≠ .done ∧ r.effects = [] ∧ r.node.chain = node.chain ∧
      (r.node.table = node.table ∨ r.node.table = node.table.update from_.remote fun i => { i with status := .banned }) := by
  simp only
  rw [process_known w node from_ h]
  simp only [handle, orBan]
  have hc : (node.chain.processBlock node.storage b).2 = node.chain := rfl
  cases hr : (node.chain.processBlock node.storage b).1 with
  | ok u => left; exact ⟨.inl rfl, rfl, rfl, hc, rfl⟩
  | err e =>
    simp only [afterBan]
    cases hf : node.table.find from_.remote with
    | none =>
      left
      rw [ban_unknown hf]
      refine ⟨.inr ⟨⟨e, rfl⟩, ?_⟩, rfl, rfl, hc, rfl⟩
      rw [← find_isSome_iff, hf]; simp
    | some i =>
      right
      have hk : from_.remote ∈ node.table.map (·.1) := by rw [← find_isSome_iff, hf]; rfl
      have h1 := (C56_refuted node.table from_.remote hk (some from_.conn) w.closing).1
      have h2 := ban_known hf (some from_.conn) w.closing
      cases hb : ban node.table from_.remote (some from_.conn) w.closing with
      | mk t o =>
        rw [hb] at h1 h2
        cases o with
        | returned => exact absurd rfl h1
        | panics p => exact ⟨by simp, rfl, hc, .inr h2⟩
        | blocks => exact ⟨by simp, rfl, hc, .inr h2⟩
  | panic p => right; exact ⟨by simp, rfl, hc, .inl rfl⟩
  | fatal p => right; exact ⟨by simp, rfl, hc, .inl rfl⟩

/-- **C61 is false of the code.** A rejected block of the chain's height from a peer whose remote address is
not spelled like a table key (for example one configured by host name) is sent on to every connected peer
with a lower record. -/
theorem C61_refuted (w : World) (node : Node E) (from_ : Sender) (b : Block E) (known : Known node from_)
    (e : String) (hrej : (node.chain.processBlock node.storage b).1 = .err e)
    (hremote : from_.remote ∉ node.table.map (·.1)) (hheight : b.header.height = node.chain.height)
    (addr : String) (hne : addr ≠ from_.addr) (hon : addr ∈ node.online) (i : PeerInfo)
    (hi : node.table.find addr = some i) (c : Nat) (hc : i.peer = some c)
    (hlow : i.height.toNat < b.header.height.toNat ∨ i.totalDifficulty.toNat < b.header.totalDifficulty.toNat) :
    .relay addr c b ∈ (processMessage w node from_ (.block b)).effects := by
  have hf : node.table.find from_.remote = none := by
    cases h : node.table.find from_.remote with
    | none => rfl
    | some i => exact absurd ((find_isSome_iff _ _).1 (by rw [h]; rfl)) hremote
  rcases block_cases w node from_ b known with ⟨-, h2, h3, -, h4⟩ | ⟨h1, -⟩
  · rw [h4, if_pos hheight, List.mem_map]
    refine ⟨(addr, c), ?_, rfl⟩
    rw [C62_targets, h2]
    exact ⟨hon, i, by rw [find_update, if_neg hne]; exact hi, hc, hlow⟩
  · exfalso
    apply h1
    rw [process_known w node from_ known]
    simp only [handle, orBan, hrej, afterBan, ban_unknown hf]

/-- **C61, the part that holds**: when the remote address is a table key, only accepted blocks are relayed. -/
theorem C61_known_remote_partial (w : World) (node : Node E) (from_ : Sender) (b : Block E)
    (known : Known node from_) (hremote : from_.remote ∈ node.table.map (·.1)) (addr : String) (c : Nat) (b' : Block E)
    (h : .relay addr c b' ∈ (processMessage w node from_ (.block b)).effects) :
    b' = b ∧ (node.chain.processBlock node.storage b).1 = .ok () ∧ b.header.height = node.chain.height := by
  rcases block_cases w node from_ b known with ⟨h1, -, -, -, h4⟩ | ⟨-, h2, -⟩
  · rw [h4] at h
    split at h
    · rename_i hh
      rw [List.mem_map] at h
      obtain ⟨x, -, hx⟩ := h
      cases hx
      rcases h1 with h1 | h1
      · exact ⟨rfl, h1, hh⟩
      · exact absurd hremote h1.2
    · cases h
  · rw [h2] at h; cases h

/-- Only blocks are ever relayed, and only the one received. -/
theorem C61_only_blocks (w : World) (node : Node E) (from_ : Sender) (m : Message E) (addr : String) (c : Nat)
    (b : Block E) (h : .relay addr c b ∈ (processMessage w node from_ m).effects) : m = .block b := by
  unfold processMessage at h
  split at h
  · cases h
  · have ob : ∀ (n : Node E) (r : Out Unit) (x : Effect E),
        x ∉ (orBan w n from_ r fun node => { node, effects := [], ended := .done }).effects := by
      intro n r x hx
      unfold orBan afterBan at hx
      split at hx
      · cases hx
      · split at hx <;> cases hx
      · cases hx
      · cases hx
    cases m with
    | ping m => simp [handle] at h
    | pong m => simp [handle] at h
    | getPeerAddrs m => simp [handle] at h
    | peerAddrs m => simp [handle] at h
    | getHeaders m => simp only [handle] at h; split at h <;> simp at h
    | header m => simp only [handle] at h; split at h <;> simp at h
    | headers m => exact absurd h (ob _ _ _)
    | getBlock m => simp only [handle] at h; split at h <;> simp at h
    | block b' =>
      have key : ∀ (p : Prop) [Decidable p] (l : List (String × Nat)), .relay addr c b ∈
          (if p then l.map fun (x : String × Nat) => Effect.relay x.1 x.2 b' else []) → b = b' := by
        intro p _ l hx
        split at hx
        · rw [List.mem_map] at hx
          obtain ⟨x, -, hx⟩ := hx
          cases hx; rfl
        · cases hx
      have : b = b' := by
        simp only [handle, orBan, afterBan] at h
        split at h
        · exact key _ _ h
        · split at h
          · exact key _ _ h
          · cases h
          · cases h
        · cases h
        · cases h
      rw [this]
    | transaction t =>
      simp only [handle] at h
      split at h
      · cases h
      · exact absurd h (ob _ _ _)

/-! ### C63 -/

/-- **C63 is false of the code.** A block with more total difficulty but less height than recorded for the
peer (or the other way round) lowers the recorded height (or total difficulty). -/
theorem C63_refuted (w : World) (node : Node E) (from_ : Sender) (b : Block E) (i : PeerInfo)
    (hi : node.table.find from_.addr = some i) (hacc : (node.chain.processBlock node.storage b).1 = .ok ())
    (hmix : (i.totalDifficulty.toNat < b.header.totalDifficulty.toNat ∧ b.header.height.toNat < i.height.toNat) ∨
      (i.height.toNat < b.header.height.toNat ∧ b.header.totalDifficulty.toNat < i.totalDifficulty.toNat)) :
    ∃ j, (processMessage w node from_ (.block b)).node.table.find from_.addr = some j ∧
      (j.height.toNat < i.height.toNat ∨ j.totalDifficulty.toNat < i.totalDifficulty.toNat) := by
  have known : Known node from_ := (known_iff _ _).2 ⟨i, hi⟩
  rcases block_cases w node from_ b known with ⟨-, h2, -⟩ | ⟨h1, -⟩
  · refine ⟨blockRecord b i, by rw [h2, find_update, if_pos rfl, hi]; rfl, ?_⟩
    unfold blockRecord
    rw [if_pos (by
      rw [UInt64.lt_iff_toNat_lt, UInt64.lt_iff_toNat_lt]
      rcases hmix with h | h
      · exact .inl h.1
      · exact .inr h.1)]
    simp only
    omega
  · exfalso; apply h1
    rw [process_known w node from_ known]
    simp only [handle, orBan, hacc]

/-- **C63, the part that holds**: if the block is not higher in one and lower in the other of height and total
difficulty, neither of the recorded values goes down; and in no case do both. -/
theorem C63_partial (w : World) (node : Node E) (from_ : Sender) (b : Block E) (i : PeerInfo)
    (hi : node.table.find from_.addr = some i) :
    ∃ j, (processMessage w node from_ (.block b)).node.table.find from_.addr = some j ∧
      (i.height ≤ j.height ∨ i.totalDifficulty ≤ j.totalDifficulty) ∧
      ((i.height ≤ b.header.height ∧ i.totalDifficulty ≤ b.header.totalDifficulty ∨
        b.header.height ≤ i.height ∧ b.header.totalDifficulty ≤ i.totalDifficulty) →
        i.height ≤ j.height ∧ i.totalDifficulty ≤ j.totalDifficulty) := by
  have known : Known node from_ := (known_iff _ _).2 ⟨i, hi⟩
  simp only [UInt64.le_iff_toNat_le]
  rcases block_cases w node from_ b known with ⟨-, h2, -⟩ | ⟨-, -, -, h2⟩
  · refine ⟨blockRecord b i, by rw [h2, find_update, if_pos rfl, hi]; rfl, ?_⟩
    unfold blockRecord
    split
    · rename_i h
      rw [UInt64.lt_iff_toNat_lt, UInt64.lt_iff_toNat_lt] at h
      simp only
      omega
    · omega
  · rcases h2 with h2 | h2
    · exact ⟨i, by rw [h2]; exact hi, by omega, by omega⟩
    · by_cases hr : from_.addr = from_.remote
      · exact ⟨{ i with status := .banned }, by rw [h2, find_update, if_pos hr, hi]; rfl, by simp, by simp⟩
      · exact ⟨i, by rw [h2, find_update, if_neg hr]; exact hi, by omega, by omega⟩

/-! ### C76: a block is not sent back -/

/-- **C76.** Handling a block never sends it back to the peer it came from. -/
theorem C76_no_echo (w : World) (node : Node E) (from_ : Sender) (b : Block E) (known : Known node from_)
    (c : Nat) (b' : Block E) : .relay from_.addr c b' ∉ (processMessage w node from_ (.block b)).effects := by
  intro h
  obtain ⟨i, hi⟩ := (known_iff _ _).1 known
  rcases block_cases w node from_ b known with ⟨-, h2, -, -, h4⟩ | ⟨-, h2, -⟩
  · rw [h4] at h
    split at h
    · rw [List.mem_map] at h
      obtain ⟨x, hx, hxe⟩ := h
      obtain ⟨xa, xc⟩ := x
      cases hxe
      rw [C62_targets] at hx
      obtain ⟨-, j, hj, -, hlt⟩ := hx
      rw [h2, find_update, if_pos rfl, hi] at hj
      simp only [Option.map_some, Option.some.injEq] at hj
      subst hj
      unfold blockRecord at hlt
      split at hlt
      · simp at hlt
      · rename_i hn
        rw [UInt64.lt_iff_toNat_lt, UInt64.lt_iff_toNat_lt] at hn
        omega
    · cases h
  · rw [h2] at h; cases h

/-! ### C75 -/

theorem block_validate_safe (b : Block E) (h : (b.header.validate E).Safe) : b.validate.Safe := by
  unfold Block.validate
  have hb : ∀ (x : Out Unit) (y : Out Unit), x.Safe → y.Safe → (x >>= fun _ => y).Safe := by
    intro x y hx hy
    cases x with
    | ok _ => simpa using hy
    | err e => simp [Out.Safe]
    | panic _ => simp [Out.Safe] at hx
    | fatal _ => simp [Out.Safe] at hx
  have hcb : ∀ (l : List (Output E)) (n : Nat), (Block.verifyCoinbaseLoop n l).Safe := by
    intro l
    induction l with
    | nil => intro n; simp [Block.verifyCoinbaseLoop, Out.Safe]
    | cons o l ih =>
      intro n
      unfold Block.verifyCoinbaseLoop
      split
      · split
        · simp [Out.Safe]
        · exact hb _ _ (by simp [Output.validate, Out.Safe]) (ih _)
      · exact ih _
  have hkl : ∀ (l : List TxKernel) (n : Nat), (Block.verifyKernelsLoop E n l).Safe := by
    intro l
    induction l with
    | nil => intro n; simp [Block.verifyKernelsLoop, Out.Safe]
    | cons o l ih =>
      intro n
      unfold Block.verifyKernelsLoop
      split
      · split
        · simp [Out.Safe]
        · refine hb _ _ ?_ (ih _)
          unfold TxKernel.validate
          simp only
          split <;> simp [Out.Safe]
      · exact ih _
  have hrl : ∀ (l : List (Output E)), (Block.verifyRangeProofs l).Safe := by
    intro l
    induction l with
    | nil => simp [Block.verifyRangeProofs, Out.Safe]
    | cons o l ih =>
      unfold Block.verifyRangeProofs
      split
      · exact ih
      · simp [Out.Safe]
  refine hb _ _ h ?_
  split
  · simp [Out.Safe]
  · refine hb _ _ ?_ (hb _ _ (hcb _ _) (hb _ _ (hrl _) (hkl _ _)))
    unfold Block.verifySorted
    split
    · simp [Out.Safe]
    · split
      · simp [Out.Safe]
      · split <;> simp [Out.Safe]

/-- A node like the one cmd/node starts: the Testnet1 chain over the stub storage, no memory pool; any peer
tables. -/
def LikeMain (node : Node E) : Prop :=
  node.chain = Chain.new (testnet1 E) (sqlStorage E) ∧ node.storage = sqlStorage E ∧ node.mempool = none

theorem main_like (resolve : String → Option TCPAddr) : LikeMain (mainNode E resolve) := ⟨rfl, rfl, rfl⟩

/-- Handling messages keeps it like that. -/
theorem likeMain_preserved (w : World) (node : Node E) (from_ : Sender) (m : Message E) (h : LikeMain node) :
    LikeMain (processMessage w node from_ m).node := by
  have ob : ∀ (n : Node E) (r : Out Unit) (k : Node E → Handled E), LikeMain n →
      (∀ n, LikeMain n → LikeMain (k n).node) → LikeMain (orBan w n from_ r k).node := by
    intro n r k hn hk
    unfold orBan afterBan
    split
    · exact hk _ hn
    · split
      · exact hk _ hn
      · exact hn
      · exact hn
    · exact hn
    · exact hn
  unfold processMessage
  split
  · exact h
  · cases m with
    | ping m => exact h
    | pong m => exact h
    | getPeerAddrs m => exact h
    | peerAddrs m => exact h
    | getHeaders m => simp only [handle]; split <;> exact h
    | header m => simp only [handle]; split <;> exact h
    | headers m => exact ob _ _ _ h fun n hn => hn
    | getBlock m => exact h
    | block b => exact ob _ _ _ h fun n hn => hn
    | transaction t =>
      simp only [handle]
      split
      · exact h
      · exact ob _ _ _ h fun n hn => hn

/-- **C75 is false of the code: transactions.** Any transaction a peer manages to have decoded makes the
node panic. -/
theorem C75_refuted_transaction (w : World) (node : Node E) (h : LikeMain node) (from_ : Sender)
    (known : Known node from_) (t : Transaction E) :
    ∃ p, (processMessage w node from_ (.transaction t)).ended = .panic p := by
  rw [process_known w node from_ known]
  simp only [handle, h.2.2]
  exact ⟨_, rfl⟩

/-- **C75 is false of the code: invalid blocks and headers.** If the sender's remote address is a table key
(as for the node's configured peer), the first rejected block or list of headers makes the node panic, or
the read loop hang. -/
theorem C75_refuted_ban (w : World) (node : Node E) (from_ : Sender) (known : Known node from_)
    (hremote : from_.remote ∈ node.table.map (·.1)) (m : Message E)
    (hm : (∃ b e, m = .block b ∧ (node.chain.processBlock node.storage b).1 = .err e) ∨
      (∃ hs e, m = .headers hs ∧ Chain.processHeaders E hs.headers = .err e)) :
    (processMessage w node from_ m).ended ≠ .done := by
  have key : ∀ (n : Node E) (k : Node E → Handled E), n.table = node.table →
      (afterBan w n from_ k).ended ≠ .done := by
    intro n k hn
    have h1 := (C56_refuted n.table from_.remote (by rw [hn]; exact hremote) (some from_.conn) w.closing).1
    unfold afterBan
    split
    · rename_i heq; rw [heq] at h1; exact absurd rfl h1
    · simp
    · simp
  rw [process_known w node from_ known]
  rcases hm with ⟨b, e, rfl, he⟩ | ⟨hs, e, rfl, he⟩
  · simp only [handle, orBan, he]
    exact key _ _ rfl
  · simp only [handle, orBan, he]
    exact key _ _ rfl

theorem processHeaders_safe (hs : List BlockHeader) (h : ∀ x ∈ hs, (x.validate E).Safe) :
    (Chain.processHeaders E hs).Safe := by
  induction hs with
  | nil => simp [Chain.processHeaders, Out.Safe]
  | cons x t ih =>
    have hx := h x List.mem_cons_self
    unfold Chain.processHeaders
    cases hv : x.validate E with
    | ok _ => rw [Out.bind_ok]; exact ih fun y hy => h y (List.mem_cons_of_mem _ hy)
    | err e => simp [Out.Safe]
    | panic _ => rw [hv] at hx; simp [Out.Safe] at hx
    | fatal _ => rw [hv] at hx; simp [Out.Safe] at hx

/-- What leaves the node can be serialised. -/
def Effect.Serialisable : Effect E → Prop
  | .reply r => ∃ v, r.bytes = .ok v
  | .relay _ _ b => ∃ v, b.bytes = .ok v

theorem block_bytes_ok (b : Block E) (h : b.header.bytes.isOk = true) : ∃ v, b.bytes = .ok v := by
  unfold Block.bytes Block.bytesAndState
  cases hb : b.header.bytes with
  | ok v => exact ⟨_, rfl⟩
  | _ => rw [hb] at h; cases h

/-- The messages `ProcessMessage` rejects on such a node. -/
def Offends (node : Node E) : Message E → Prop
  | .block b => ∃ e, (node.chain.processBlock node.storage b).1 = .err e
  | .headers hs => ∃ e, Chain.processHeaders E hs.headers = .err e
  | _ => False

/-- **C75, the part that holds.** A message off the wire that is not a transaction, from a known peer, is
handled to the end, and whatever is sent because of it can be serialised, provided that it is not rejected
or else `Ban` does not find the remote address, and that the addresses in the table resolve to IPs. -/
theorem C75_survives_partial (w : World) (node : Node E) (h : LikeMain node) (from_ : Sender)
    (known : Known node from_) (t : UInt8) (body : Bytes) (m : Message E) (hm : Carries E t body (some m))
    (htx : t ≠ 15) (hoff : ¬ Offends node m ∨ from_.remote ∉ node.table.map (·.1))
    (hord : OrderOf (w.order node.table) node.table)
    (hip : ∀ e ∈ node.table, ∀ a, w.resolve e.1 = some a → a.ip.length = 4 ∨ a.ip.length = 16) :
    (processMessage w node from_ m).ended = .done ∧
    ∀ x ∈ (processMessage w node from_ m).effects, Effect.Serialisable x := by
  obtain ⟨hc, hst, hmp⟩ := h
  have hhead : HasHash node.chain.head (E.blake2b (Network.hashed .testnet1)) := by
    rw [hc]; exact genesis_hash E .testnet1
  have ban : ∀ (n : Node E) (r : Out Unit) (k : Node E → Handled E), n.table = node.table → r.Safe →
      ((∃ e, r = .err e) → from_.remote ∉ node.table.map (·.1)) → orBan w n from_ r k = k n := by
    intro n r k hn hr hb
    cases r with
    | ok _ => rfl
    | err e =>
      have hf : n.table.find from_.remote = none := by
        cases hx : n.table.find from_.remote with
        | none => rfl
        | some i => exact absurd (by rw [← hn, ← find_isSome_iff, hx]; rfl) (hb ⟨e, rfl⟩)
      unfold orBan afterBan
      simp only [ban_unknown hf]
    | panic _ => simp [Out.Safe] at hr
    | fatal _ => simp [Out.Safe] at hr
  rw [process_known w node from_ known]
  cases hm with
  | ping body r m hr =>
    exact ⟨rfl, fun x hx => by simp only [handle, List.mem_singleton] at hx; subst hx; exact ⟨_, rfl⟩⟩
  | pong body r m hr => exact ⟨rfl, fun x hx => by cases hx⟩
  | getPeerAddrs body r m hr =>
    refine ⟨rfl, fun x hx => ?_⟩
    simp only [handle, List.mem_singleton] at hx
    subst hx
    exact C54_serialisable_partial w.resolve node.table _ hord _ hip
  | peerAddrs body r m hr => exact ⟨rfl, fun x hx => by cases hx⟩
  | getHeaders body r m hr =>
    obtain ⟨hs, e⟩ : ∃ hs, node.chain.getBlockHeaders node.storage m = .ok hs ∧ hs = [] := by
      unfold Chain.getBlockHeaders
      generalize (if m.hashes.length > MaxLocators then m.hashes.take MaxLocators else m.hashes) = l
      induction l with
      | nil => exact ⟨[], rfl, rfl⟩
      | cons x l ih =>
        unfold Chain.headersLoop
        have hh : node.chain.head.hash = .ok _ := hhead
        rw [hh, Out.bind_ok, hst]
        split
        · exact ⟨[], rfl, rfl⟩
        · rw [hst] at ih; exact ih
    obtain ⟨e, rfl⟩ := e
    simp only [handle, e]
    refine ⟨trivial, fun x hx => ?_⟩
    rw [List.mem_singleton] at hx; subst hx
    exact ⟨_, rfl⟩
  | header body r m hr =>
    have hsafe := C13_decoded_safe E _ _ _ hr
    obtain ⟨v, hv⟩ := hash_ok hr
    have hp := processHeaders_safe [m] (by intro x hx; rw [List.mem_singleton] at hx; subst hx; exact hsafe.2.2)
    simp only [handle, hv]
    cases hx : Chain.processHeaders E [m] with
    | ok _ => exact ⟨rfl, fun x hx => by cases hx⟩
    | err _ => exact ⟨rfl, fun x hx => by cases hx⟩
    | panic _ => rw [hx] at hp; simp [Out.Safe] at hp
    | fatal _ => rw [hx] at hp; simp [Out.Safe] at hp
  | headers body r m hr =>
    have hwf := ((C21_headers_limit E).1 _ _ _ hr).2
    have hp := processHeaders_safe m.headers fun x hx => (wellFormed_safe E x (hwf x hx).1).2.2
    simp only [handle]
    rw [ban node _ _ rfl hp (fun he => hoff.resolve_left fun hn => hn he)]
    exact ⟨rfl, fun x hx => by cases hx⟩
  | getBlock body r m hr =>
    have hn : node.chain.getBlock node.storage m.hash = none := by
      rw [hst]; unfold Chain.getBlock; split <;> rfl
    simp only [handle, hn]
    exact ⟨trivial, fun x hx => by cases hx⟩
  | block body r b hr =>
    obtain ⟨⟨r1, h1⟩, -⟩ := block_read_ok hr
    have hsafe := C13_decoded_safe E _ _ _ h1
    obtain ⟨v, hv⟩ := hash_ok h1
    have hps : (node.chain.processBlock node.storage b).1.Safe := by
      unfold Chain.processBlock
      have hh : node.chain.head.hash = .ok _ := hhead
      have hb : b.hash = .ok v := hv
      simp only [hh, hb, Out.bind_ok]
      split
      · simp [Out.Safe]
      · have hval := block_validate_safe b hsafe.2.2
        cases hx : b.validate with
        | ok _ => rw [hst]; simp [Chain.checkParent, sqlStorage, Out.Safe]
        | err _ => simp [Out.Safe]
        | panic _ => rw [hx] at hval; simp [Out.Safe] at hval
        | fatal _ => rw [hx] at hval; simp [Out.Safe] at hval
    simp only [handle]
    rw [ban { node with chain := (node.chain.processBlock node.storage b).2 } _ _ rfl hps (fun he => hoff.resolve_left fun hn => hn he)]
    refine ⟨rfl, fun x hx => ?_⟩
    simp only at hx
    split at hx
    · rw [List.mem_map] at hx
      obtain ⟨y, -, rfl⟩ := hx
      exact block_bytes_ok b hsafe.1
    · cases hx
  | transaction => exact absurd rfl htx

/-- **C75 is false, end to end.** A stream of good frames one of which is a transaction makes the read loop
hand the node a message on which it panics. -/
theorem C75_refuted (w : World) (node : Node E) (h : LikeMain node) (from_ : Sender) (known : Known node from_)
    (hmem : 20000000 ≤ E.maxAlloc) (fs : List (GoodFrame E)) (f : GoodFrame E) (hf : f ∈ fs) (ht : f.type = 15) :
    ∃ m ∈ (readHandler E (streamOf fs)).dispatched, ∃ p, (processMessage w node from_ m).ended = .panic p := by
  rw [(C07_exact_split E hmem fs).1]
  obtain ⟨type, body, msg, size, carries⟩ := f
  simp only at ht
  subst ht
  cases carries with
  | transaction body r t hr =>
    exact ⟨.transaction t, List.mem_flatMap.2 ⟨_, hf, by simp⟩, C75_refuted_transaction w node h from_ known t⟩

end Gringo.Props
