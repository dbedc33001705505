import Verif.Proofs.PoolRun
import Verif.Props.Sync
/-
C57, C58, C64, C77-C80: the pool's run loop and the connections it makes, under every schedule.
-/
namespace Gringo.Props
open Gringo.Spec Gringo.P2P Gringo.PoolRun

/-! ### C57 -/

theorem countP_eq_length_filter' (p : Link → Bool) (l : List Link) : (l.filter p).length = l.countP p :=
  (List.countP_eq_length_filter ..).symm

/-- **C57, the part that holds.** At no time are there more than 15 connections on which the handshake
succeeded and which nobody has begun to close, not even if those are counted whose goroutines have not ended yet;
and the former are open. What is missing: connections on which the handshake failed (`C57_refuted`), and those
whose goroutines have ended before the socket is closed (`C57_refuted_closing`). -/
theorem C57_partial (s : Pool) (h : Reachable Pool.new s) :
    (s.links.filter fun x => decide (x.phase = .up)).length ≤ 15 ∧
    (s.links.filter fun x => decide (x.phase ≠ .gone)).length ≤ 15 ∧
    ∀ x ∈ s.links, x.phase = .up → x.conn ∈ s.opened := by
  have hi := inv_reachable h
  have h3 : (s.links.filter fun x => decide (x.phase ≠ .gone)).length ≤ 15 := by
    have e : (fun x : Link => decide (x.phase ≠ .gone)) = holding := by
      funext x; unfold holding; cases x.phase <;> rfl
    rw [e, countP_eq_length_filter']
    have := hi.counts.slots
    have := hi.counts.cap
    have e15 : maxOnlineConnections = 15 := rfl
    omega
  refine ⟨?_, h3, hi.conns.up⟩
  refine Nat.le_trans ?_ h3
  rw [countP_eq_length_filter', countP_eq_length_filter']
  refine List.countP_mono_left fun x _ hx => ?_
  have : x.phase = .up := by simpa using hx
  simp [this]

/-- The pool after `Add` of one address. -/
def Pool.one (addr : String) (i : PeerInfo) : Pool := { Pool.new with table := [(addr, i)] }

theorem find_one (addr : String) (i : PeerInfo) : Table.find [(addr, i)] addr = some i := by
  simp [Table.find, List.lookup]

theorem update_one (addr : String) (i : PeerInfo) (f : PeerInfo → PeerInfo) :
    Table.update [(addr, i)] addr f = [(addr, f i)] := by
  simp [Table.update]

theorem choice_one (addr : String) (i : PeerInfo) (h : Dialable i) :
    notConnected [(addr, i)] [(addr, i)] = addr := by
  unfold notConnected
  rcases h with h | h | h <;> simp [h]

theorem not_locked {s : Pool} {a b : String} (h : s.loop = .connecting b) (hc : s.closers = []) : ¬ s.locked a := by
  unfold Pool.locked
  rw [h, hc]
  simp

theorem admissible_ne {resolve : String → Option TCPAddr} (hr : ∀ a, resolve "" = some a → a.port = 0)
    {addr : String} (ha : Admissible resolve addr) : addr ≠ "" := by
  rintro rfl
  obtain ⟨a, h1, h2, -⟩ := ha
  exact h2 (hr a h1)

theorem one_reachable {resolve : String → Option TCPAddr} (hr : ∀ a, resolve "" = some a → a.port = 0)
    {addr : String} (ha : Admissible resolve addr) : Reachable Pool.new (Pool.one addr PeerInfo.fresh) := by
  have h := Reachable.next (.here (start := Pool.new)) rfl (.add _ addr resolve hr)
  have e : P2P.add resolve Pool.new.table addr = [(addr, PeerInfo.fresh)] :=
    (C55_add resolve [] addr).1 ⟨ha, by simp, by simp⟩
  rw [e] at h
  exact h

/-- The loop takes a slot, chooses the only address and dials it. -/
theorem dials (s : Pool) (addr : String) (i : PeerInfo) (ht : s.table = [(addr, i)]) (hd : Dialable i)
    (hne : addr ≠ "") (hl : s.loop = .select) (hs : s.slots < 15) (hcn : s.connected ≤ 15) (hc : s.closers = [])
    (hp : s.panicked = false) :
    Reachable s { s with loop := .dialing addr, slots := s.slots + 1 } := by
  have h1 := Reachable.next (.here (start := s)) hp (.take s hl hs)
  have h2 := h1.next hp (.choose _ s.table s.table rfl (.refl _) (.refl _))
  simp only [ht, choice_one addr i hd] at h2
  refine h2.next hp ?_
  have hst : ¬ (i.status = .banned ∨ i.status = .connected) := by
    rcases hd with h | h | h <;> simp [h]
  have h3 := Step.dial { s with loop := .connecting addr, slots := s.slots + 1, table := [(addr, i)] } addr i rfl hne
    hcn (find_one addr i) (not_locked rfl hc) hst
  simpa only [ht] using h3

/-- **C57 is false of the code.** When the remote side accepts the connection but does not complete the
handshake, the connection is not closed, and the pool dials again. So for every number there is a schedule
that leaves that many different connections open, with a single address in the table. -/
theorem C57_refuted (resolve : String → Option TCPAddr) (hr : ∀ a, resolve "" = some a → a.port = 0)
    (addr : String) (ha : Admissible resolve addr) (n : Nat) :
    ∃ s, Reachable Pool.new s ∧ s.opened.length = n ∧ s.opened.Nodup ∧ s.panicked = false ∧ s.links = [] ∧
      s.table.map (·.1) = [addr] := by
  have hne := admissible_ne hr ha
  suffices h : ∀ n, ∃ s i, Reachable Pool.new s ∧ s.opened.length = n ∧ s.panicked = false ∧ s.links = [] ∧
      s.table = [(addr, i)] ∧ Dialable i ∧ s.loop = .select ∧ s.slots = 0 ∧ s.connected = 0 ∧ s.closers = [] ∧ s.seen = none by
    obtain ⟨s, i, h1, h2, h3, h4, h5, -⟩ := h n
    exact ⟨s, h1, h2, (inv_reachable h1).conns.openedNodup, h3, h4, by rw [h5]; rfl⟩
  intro n
  induction n with
  | zero =>
    exact ⟨Pool.one addr PeerInfo.fresh, PeerInfo.fresh, one_reachable hr ha, rfl, rfl, rfl, rfl, .inl rfl, rfl, rfl,
      rfl, rfl, rfl⟩
  | succ n ih =>
    obtain ⟨s, i, h1, h2, h3, h4, h5, h6, h7, h8, h9, h10, h11⟩ := ih
    have d := h1.trans (dials s addr i h5 h6 hne h7 (by omega) (by omega) h10 h3)
    have d1 := d.next h3 (.opens _ addr rfl)
    have d2 := d1.next h3 (.noShake _ addr s.next rfl h11)
    have d3 := d2.next h3 (.release _ rfl (by simp))
    have d4 := d3.next h3 (.wake _ rfl)
    refine ⟨_, setStatus .failedConn i, d4, by simp [h2], h3, h4, ?_, .inr (.inr rfl), rfl, ?_, h9, h10, h11⟩
    · simp only [h5, update_one]
    · simp [h8]

/-! ### C58 -/

theorem kept_grows {s s' : Pool} (h : Reachable s s') : s.kept ≤ s'.kept := by
  induction h with
  | here => exact Nat.le_refl _
  | next _ _ hs ih => cases hs <;> first | exact ih | exact Nat.le_succ_of_le ih

/-- A pool that has gone through 15 turns without a connection never dials again. -/
theorem C58_dead (s : Pool) (h : Reachable Pool.new s) (hk : s.kept = 15) :
    ∀ s', Reachable s s' → s'.next = s.next ∧ ∀ a, s'.loop ≠ .dialing a := by
  have none : ∀ s', Reachable s s' → ∀ a, s'.loop ≠ .dialing a := by
    intro s' h' a ha
    have hi := inv_reachable (h.trans h')
    have := kept_grows h'
    have h1 := hi.counts.slots
    have h2 := hi.counts.cap
    have e15 : maxOnlineConnections = 15 := rfl
    rw [ha] at h1
    simp only [token] at h1
    omega
  intro s' h'
  refine ⟨?_, none s' h'⟩
  induction h' with
  | here => rfl
  | next h0 _ hs ih =>
    cases hs with
    | opens addr hl => exact absurd hl (none _ h0 addr)
    | _ => exact ih

/-- The pool after `n` turns with nothing to dial. -/
def Pool.idle (n : Nat) : Pool := { Pool.new with slots := n, kept := n }

theorem idle_reachable (n : Nat) (hn : n ≤ 15) : Reachable Pool.new (Pool.idle n) := by
  induction n with
  | zero => exact .here
  | succ n ih =>
    have h0 := ih (by omega)
    have h1 := h0.next rfl (.take _ rfl (show n < 15 by omega))
    have h2 := h1.next rfl (.choose _ [] [] rfl (.refl _) (.refl _))
    have h3 := h2.next rfl (.nothing _ rfl)
    exact h3.next rfl (.wake _ rfl)

/-- **C58 is false of the code.** A pool with nothing to dial uses up one slot per turn. After 15 turns an
address is added; nothing is connected, nothing has failed, but the address is never dialled. -/
theorem C58_refuted (resolve : String → Option TCPAddr) (hr : ∀ a, resolve "" = some a → a.port = 0)
    (addr : String) (ha : Admissible resolve addr) :
    ∃ s, Reachable Pool.new s ∧ s.panicked = false ∧ s.quit = false ∧ s.opened = [] ∧ s.links = [] ∧
      (∃ i, s.table.find addr = some i ∧ Dialable i) ∧
      ∀ s', Reachable s s' → s'.opened = [] ∧ ∀ a, s'.loop ≠ .dialing a := by
  have h0 := (idle_reachable 15 (by omega)).next rfl (.add _ addr resolve hr)
  have e : P2P.add resolve (Pool.idle 15).table addr = [(addr, PeerInfo.fresh)] :=
    (C55_add resolve [] addr).1 ⟨ha, by simp, by simp⟩
  rw [e] at h0
  refine ⟨_, h0, rfl, rfl, rfl, rfl, ⟨_, find_one addr _, .inl rfl⟩, fun s' h' => ?_⟩
  obtain ⟨hn, hd⟩ := C58_dead _ h0 rfl s' h'
  refine ⟨?_, hd⟩
  have hi := inv_reachable (h0.trans h')
  cases ho : s'.opened with
  | nil => rfl
  | cons c l =>
    have := hi.conns.openedSmall c (by rw [ho]; simp)
    rw [hn] at this
    exact absurd this (Nat.not_lt_zero _)

theorem tallied_le {s : Pool} : s.links.countP tallied ≤ s.links.countP holding :=
  List.countP_mono_left fun x _ hx => by
    unfold tallied at hx; unfold holding
    cases h : x.phase <;> simp_all [tallies]

/-- **C58, the part that holds.** If the turns that have kept their slot and the connections whose goroutines
have not ended are together fewer than 15, and the table has an entry to dial, then the loop, when it comes
round, dials, if the others leave the entry alone: whatever the order of the map, its next three steps are
possible and lead to dialling an entry that can be dialled. What is missing: slots kept by turns without a
connection are not given back (`C58_refuted`); if updates of the counter were lost this is shown only for a pool
without connections (see `C58_refuted_race`); and which of several entries is chosen is up to the map. -/
theorem C58_partial (s : Pool) (h : Reachable Pool.new s) (hl : s.loop = .select)
    (hroom : (s.links.filter fun x => decide (x.phase ≠ .gone)).length + s.kept < 15)
    (hcount : s.raced = false ∨ ∀ x ∈ s.links, x.phase = .dropped ∨ x.phase = .gone)
    (hd : ∃ e ∈ s.table, Dialable e.2) (o1 o2 : Table) (h1 : OrderOf o1 s.table) (h2 : OrderOf o2 s.table) :
    let addr := notConnected o1 o2
    (∃ i, s.table.find addr = some i ∧ Dialable i) ∧
    Step s { s with loop := .choosing, slots := s.slots + 1 } ∧
    Step { s with loop := .choosing, slots := s.slots + 1 } { s with loop := .connecting addr, slots := s.slots + 1 } ∧
    Step { s with loop := .connecting addr, slots := s.slots + 1 } { s with loop := .dialing addr, slots := s.slots + 1 } := by
  intro addr
  have hi := inv_reachable h
  have e : (fun x : Link => decide (x.phase ≠ .gone)) = holding := by
    funext x; unfold holding; cases x.phase <;> rfl
  rw [e, countP_eq_length_filter'] at hroom
  have hslots := hi.counts.slots
  rw [hl] at hslots
  simp only [token] at hslots
  have hne : "" ∉ s.table.map (·.1) := by
    rw [← find_isSome_iff, hi.entries.noEmpty]; simp
  obtain ⟨c1, c2⟩ := C59_choice s.table o1 o2 h1 h2 hne
  have haddr : addr ≠ "" := by
    intro h0
    obtain ⟨x, hx, hdx⟩ := hd
    exact c1 h0 x hx hdx
  obtain ⟨i, hm, hdi, -⟩ := c2 haddr
  have hf := mem_find hi.entries.unique hm
  refine ⟨⟨i, hf, hdi⟩, .take s hl (by show s.slots < 15; omega), .choose _ o1 o2 rfl h1 h2, ?_⟩
  have hcn : s.connected ≤ 15 := by
    rcases hcount with hr | hg
    · have := tallied_le (s := s)
      rw [hi.counts.connected hr]
      omega
    · rcases hi.tally.some_ with h | h
      · exact h
      · obtain ⟨x, hx, ht⟩ := List.countP_pos_iff.1 h
        rcases hg x hx with h | h <;> simp [tallied, tallies, h] at ht
  have hcl : s.closers = [] := hi.single.stopped (by rw [hl]; nofun)
  refine .dial { s with loop := .connecting addr, slots := s.slots + 1 } addr i rfl haddr hcn hf (not_locked rfl hcl) ?_
  rcases hdi with h | h | h <;> simp [h]

/-- `C58_partial` applies to the pool with one address, from which everything begins. -/
example (resolve : String → Option TCPAddr) (hr : ∀ a, resolve "" = some a → a.port = 0)
    (addr : String) (ha : Admissible resolve addr) :
    Step { Pool.one addr PeerInfo.fresh with loop := .connecting addr, slots := 1 }
      { Pool.one addr PeerInfo.fresh with loop := .dialing addr, slots := 1 } := by
  have := (C58_partial _ (one_reachable hr ha) rfl (by simp [Pool.one, Pool.new]) (.inl rfl)
    ⟨_, List.mem_singleton.2 rfl, .inl rfl⟩ _ _ (.refl _) (.refl _)).2.2.2
  rw [show (Pool.one addr PeerInfo.fresh).table = [(addr, PeerInfo.fresh)] from rfl,
    choice_one addr PeerInfo.fresh (.inl rfl)] at this
  exact this

/-! ### C64 -/

/-- No message off the wire ends the process from a `logrus.Fatal`, if its sender is in the table. -/
theorem decoded_not_fatal {E : Env} (w : World) (node : Node E) (h : LikeMain node) (from_ : Sender)
    (known : Known node from_) (t : UInt8) (body : Bytes) (m : Message E) (hm : Carries E t body (some m)) (p : String) :
    (processMessage w node from_ m).ended ≠ .fatal p := by
  obtain ⟨hc, hst, hmp⟩ := h
  have hhead : HasHash node.chain.head (E.blake2b (Network.hashed .testnet1)) := by
    rw [hc]; exact genesis_hash E .testnet1
  have ban : ∀ (n : Node E) (r : Out Unit) (k : Node E → Handled E), r.Safe → (∀ n, (k n).ended = .done) →
      (orBan w n from_ r k).ended ≠ .fatal p := by
    intro n r k hr hk
    cases r with
    | ok _ => simp only [orBan, hk]; nofun
    | err e =>
      unfold orBan afterBan
      simp only
      split
      · rw [hk]; nofun
      · nofun
      · nofun
    | panic _ => simp [Out.Safe] at hr
    | fatal _ => simp [Out.Safe] at hr
  rw [process_known w node from_ known]
  cases hm with
  | ping body r m hr => nofun
  | pong body r m hr => nofun
  | getPeerAddrs body r m hr => nofun
  | peerAddrs body r m hr => nofun
  | getHeaders body r m hr =>
    have e : node.chain.getBlockHeaders node.storage m = .ok [] := by
      unfold Chain.getBlockHeaders
      generalize (if m.hashes.length > MaxLocators then m.hashes.take MaxLocators else m.hashes) = l
      induction l with
      | nil => rfl
      | cons x l ih =>
        unfold Chain.headersLoop
        have hh : node.chain.head.hash = .ok _ := hhead
        rw [hh, Out.bind_ok, hst]
        split
        · rfl
        · rw [hst] at ih; exact ih
    simp only [handle, e]
    nofun
  | header body r m hr =>
    have hsafe := C13_decoded_safe E _ _ _ hr
    obtain ⟨v, hv⟩ := hash_ok hr
    have hp := processHeaders_safe [m] (by intro x hx; rw [List.mem_singleton] at hx; subst hx; exact hsafe.2.2)
    simp only [handle, hv]
    cases hx : Chain.processHeaders E [m] with
    | ok _ => nofun
    | err _ => nofun
    | panic _ => rw [hx] at hp; simp [Out.Safe] at hp
    | fatal _ => rw [hx] at hp; simp [Out.Safe] at hp
  | headers body r m hr =>
    have hwf := ((C21_headers_limit E).1 _ _ _ hr).2
    exact ban _ _ _ (processHeaders_safe m.headers fun x hx => (wellFormed_safe E x (hwf x hx).1).2.2) fun _ => rfl
  | getBlock body r m hr => nofun
  | block body r b hr =>
    obtain ⟨⟨r1, h1⟩, -⟩ := block_read_ok hr
    have hsafe := C13_decoded_safe E _ _ _ h1
    obtain ⟨v, hv⟩ := hash_ok h1
    have hps : (node.chain.processBlock node.storage b).1.Safe := by
      unfold Chain.processBlock
      have hh : node.chain.head.hash = .ok _ := hhead
      have hb : b.hash = .ok v := hv
      simp only [hh, hb, Out.bind_ok]
      split
      · simp [Out.Safe]
      · have hval := block_validate_safe b hsafe.2.2
        cases hx : b.validate with
        | ok _ => rw [hst]; simp [Chain.checkParent, sqlStorage, Out.Safe]
        | err _ => simp [Out.Safe]
        | panic _ => rw [hx] at hval; simp [Out.Safe] at hval
        | fatal _ => rw [hx] at hval; simp [Out.Safe] at hval
    simp only [handle]
    exact ban _ _ _ hps fun _ => rfl
  | transaction body r t hr => simp only [handle, hmp]; nofun

/-- **C64.** Whatever happened before: the address of every connection the pool ever made is in the table. So
handling a message that came over that connection does not reach 'unexpected error', nor any other fatal exit,
on a node like the program's. -/
theorem C64_not_fatal {E : Env} (s : Pool) (h : Reachable Pool.new s) (x : Link) (hx : x ∈ s.links) :
    (s.table.find x.addr).isSome = true ∧
    ∀ (w : World) (node : Node E) (from_ : Sender), LikeMain node → node.table = s.table → from_.addr = x.addr →
      ∀ (t : UInt8) (body : Bytes) (m : Message E), Carries E t body (some m) → ∀ p,
        (processMessage w node from_ m).ended ≠ .fatal p := by
  have hk := (inv_reachable h).known.links x hx
  refine ⟨(find_isSome_iff _ _).2 hk, ?_⟩
  intro w node from_ hm ht ha t body m hc p
  refine decoded_not_fatal w node hm from_ ?_ t body m hc p
  unfold Known
  rw [ha, ht]
  exact hk

/-- Addresses stay in the table for ever. -/
theorem C64_kept (s s' : Pool) (h : Reachable s s') (a : String) (ha : a ∈ s.table.map (·.1)) :
    a ∈ s'.table.map (·.1) := by
  induction h with
  | here => exact ha
  | next _ _ hs ih => exact keys_grow hs ih

/-! ### C77 -/

/-- A handshake that succeeds. -/
def Told.good : Told := { version := ProtocolVersion, totalDifficulty := 1, capabilities := CapFullNode }

/-- The loop dials the only address, connects and goes back to `select`. -/
theorem connects (s : Pool) (addr : String) (i : PeerInfo) (ht : s.table = [(addr, i)]) (hd : Dialable i)
    (hne : addr ≠ "") (hl : s.loop = .select) (hs : s.slots < 15) (hcn : s.connected ≤ 15) (hc : s.closers = [])
    (hp : s.panicked = false) (hn : s.seen = none) :
    Reachable s { s with
      slots := s.slots + 1
      opened := s.next :: s.opened
      next := s.next + 1
      connected := s.connected + 1
      table := [(addr, registered s.next (Time.unix 0) Told.good i)]
      online := addr :: s.online.filter (· ≠ addr)
      links := s.links ++ [⟨s.next, addr, .up, false⟩] } := by
  have d := dials s addr i ht hd hne hl hs hcn hc hp
  have d1 := d.next hp (.opens _ addr rfl)
  have d1' := d1.next hp (.see _ addr s.next rfl hn)
  have d2 := d1'.next hp (.register _ addr s.next Told.good (Time.unix 0) s.connected rfl rfl rfl)
  have d3 := d2.next hp (.announced _ addr rfl)
  have d4 := d3.next hp (.wake _ rfl)
  simp only [ht, update_one, ne_eq, not_true_eq_false, decide_false, Bool.or_false] at d4
  rw [← hl, ← hn] at d4
  exact d4

/-- The pool with one live connection. -/
def Pool.live (addr : String) : Pool :=
  { Pool.new with
    slots := 1
    opened := [0]
    next := 1
    connected := 1
    table := [(addr, registered 0 (Time.unix 0) Told.good PeerInfo.fresh)]
    online := [addr]
    links := [⟨0, addr, .up, false⟩] }

theorem live_reachable {resolve : String → Option TCPAddr} (hr : ∀ a, resolve "" = some a → a.port = 0)
    {addr : String} (ha : Admissible resolve addr) : Reachable Pool.new (Pool.live addr) :=
  (one_reachable hr ha).trans (connects _ addr PeerInfo.fresh rfl (.inl rfl) (admissible_ne hr ha) rfl
    (show (0 : Nat) < 15 by omega) (show (0 : Int) ≤ 15 by omega) rfl rfl rfl)

/-- **C77 is false of the code.** The peer at an address goes away; its status is set, and before the old
connection is taken out of the connected peers the loop connects to the address again. Then taking out the old
one takes out the new one: it is open and its entry says connected, but no block is ever relayed to it. -/
theorem C77_refuted (resolve : String → Option TCPAddr) (hr : ∀ a, resolve "" = some a → a.port = 0)
    (addr : String) (ha : Admissible resolve addr) :
    ∃ s x, Reachable Pool.new s ∧ s.panicked = false ∧ x ∈ s.links ∧ x.phase = .up ∧ x.conn ∈ s.opened ∧
      (∃ i, s.table.find x.addr = some i ∧ i.status = .connected ∧ i.peer = some x.conn) ∧
      ∀ height td, (x.addr, x.conn) ∉ relayTargets s.table s.online height td := by
  have h0 := live_reachable hr ha
  have h1 := h0.next rfl (.fall _ [] [] ⟨0, addr, .up, false⟩ rfl rfl)
  have h2 := h1.next rfl (.mark _ [] [] ⟨0, addr, .down, false⟩ rfl rfl rfl (by
    unfold Pool.locked; simp [Pool.live, Pool.new]))
  have h3 := h2.trans (connects _ addr _ (update_one addr _ _) (.inr (.inl rfl)) (admissible_ne hr ha) rfl
    (show (1 : Nat) < 15 by omega) (show (1 : Int) ≤ 15 by omega) rfl rfl rfl)
  have h3a := h3.next rfl (.seeDown _ [] [⟨1, addr, .up, false⟩] ⟨0, addr, .marked, false⟩ rfl rfl)
  have h3b := h3a.next rfl (.count _ [] [⟨1, addr, .up, false⟩] ⟨0, addr, .reading 2, false⟩ 2 rfl rfl)
  have h4 := h3b.next rfl (.drop _ [] [⟨1, addr, .up, false⟩] ⟨0, addr, .uncounted, false⟩ rfl rfl)
  refine ⟨_, ⟨1, addr, .up, false⟩, h4, rfl, ?_, rfl, ?_, ⟨_, find_one addr _, rfl, rfl⟩, ?_⟩
  · simp
  · exact List.mem_cons_self
  · intro height td hm
    have : ([addr].filter (· ≠ addr)) = [] := by simp
    simp [relayTargets, Pool.live, Pool.new] at hm

/-- **C77, the part that holds.** A connection that is up is relayed to, unless an earlier connection to the
same address has ended: every block higher or heavier than what the peer is known to have goes to it. And
blocks go nowhere else but to connections registered for the address. -/
theorem C77_partial (s : Pool) (h : Reachable Pool.new s) :
    (∀ x ∈ s.links, x.phase = .up →
      (∀ y ∈ s.links, y.addr = x.addr → y.phase = .dropped ∨ y.phase = .gone → y.conn = x.conn) →
      ∃ i, s.table.find x.addr = some i ∧ ∀ height td, i.height < height ∨ i.totalDifficulty < td →
        (x.addr, x.conn) ∈ relayTargets s.table s.online height td) ∧
    ∀ height td a c, (a, c) ∈ relayTargets s.table s.online height td → ∃ x ∈ s.links, x.addr = a ∧ x.conn = c := by
  have hi := inv_reachable h
  constructor
  · intro x hx hu hfirst
    have hk := (find_isSome_iff _ _).2 (hi.known.links x hx)
    obtain ⟨i, hf⟩ := Option.isSome_iff_exists.1 hk
    have hp := hi.entries.owner x hx (by simp [occupies, hu]) i hf
    have hon : x.addr ∈ s.online := by
      rcases hi.online.listed x hx (by simp [counted, counts, hu]) with h | ⟨y, hy, y1, y2, y3⟩
      · exact h
      · refine absurd (hfirst y hy y1 ?_) y2
        unfold counted at y3
        cases e : y.phase <;> simp_all [counts]
    refine ⟨i, hf, fun height td hlt => ?_⟩
    refine (C62_targets s.table s.online height td x.addr x.conn).2 ⟨hon, i, hf, hp, hlt⟩
  · intro height td a c hm
    obtain ⟨-, i, hf, hp, -⟩ := (C62_targets s.table s.online height td a c).1 hm
    obtain ⟨x, hx, h1, h2⟩ := hi.entries.peer a i c hf hp
    exact ⟨x, hx, h2, h1⟩

/-- `C77_partial` and `C64_not_fatal` apply to the first connection to an address. -/
example (resolve : String → Option TCPAddr) (hr : ∀ a, resolve "" = some a → a.port = 0)
    (addr : String) (ha : Admissible resolve addr) :
    (addr, 0) ∈ relayTargets (Pool.live addr).table (Pool.live addr).online 1 0 := by
  obtain ⟨i, hi, h⟩ := (C77_partial _ (live_reachable hr ha)).1 ⟨0, addr, .up, false⟩ (by simp [Pool.live]) rfl
    (by intro y hy _ _; rw [show y = _ from List.mem_singleton.1 hy])
  have e : i = registered 0 (Time.unix 0) Told.good PeerInfo.fresh := by
    have := find_one addr (registered 0 (Time.unix 0) Told.good PeerInfo.fresh)
    exact (Option.some.inj (hi.symm.trans this))
  exact h 1 0 (.inl (by rw [e]; decide))

/-! ### C78 -/

theorem count_two {α : Type} {l : List α} {p : α → Bool} {f : α → Nat} {x y : α} (hn : (l.map f).Nodup)
    (hx : x ∈ l) (hy : y ∈ l) (px : p x = true) (py : p y = true) (h : l.countP p ≤ 1) : f x = f y := by
  induction l with
  | nil => cases hx
  | cons a l ih =>
    rw [List.map_cons, List.nodup_cons] at hn
    rw [List.countP_cons] at h
    have pos : ∀ z ∈ l, p z = true → 0 < l.countP p := fun z hz pz => List.countP_pos_iff.2 ⟨z, hz, pz⟩
    rcases List.mem_cons.1 hx with rfl | hx' <;> rcases List.mem_cons.1 hy with rfl | hy'
    · rfl
    · have := pos y hy' py; rw [if_pos px] at h; omega
    · have := pos x hx' px; rw [if_pos py] at h; omega
    · exact ih hn.2 hx' hy' (by omega)

/-- **C78 is false of the code.** The goroutine that closes a connection tells the pool that it has ended before it
closes the socket. So the loop can have connected to the address again while the old socket is still open. -/
theorem C78_refuted (resolve : String → Option TCPAddr) (hr : ∀ a, resolve "" = some a → a.port = 0)
    (addr : String) (ha : Admissible resolve addr) :
    ∃ s, Reachable Pool.new s ∧ s.panicked = false ∧ ∃ x ∈ s.links, ∃ y ∈ s.links, x.conn ≠ y.conn ∧
      x.addr = addr ∧ y.addr = addr ∧ x.conn ∈ s.opened ∧ y.conn ∈ s.opened ∧ y.phase = .up := by
  have h0 := live_reachable hr ha
  have h1 := h0.next rfl (.fall _ [] [] ⟨0, addr, .up, false⟩ rfl rfl)
  have h2 := h1.next rfl (.mark _ [] [] ⟨0, addr, .down, false⟩ rfl rfl rfl (by
    unfold Pool.locked; simp [Pool.live, Pool.new]))
  have h3 := h2.trans (connects _ addr _ (update_one addr _ _) (.inr (.inl rfl)) (admissible_ne hr ha) rfl
    (show (1 : Nat) < 15 by omega) (show (1 : Int) ≤ 15 by omega) rfl rfl rfl)
  exact ⟨_, h3, rfl, ⟨0, addr, .marked, false⟩, by simp, ⟨1, addr, .up, false⟩,
    by simp [Pool.live], by simp, rfl, rfl, by simp [Pool.live], by simp [Pool.live], rfl⟩

/-- **C78, the part that holds.** There is at most one connection to an address on which the handshake succeeded and
which nobody has begun to close. While there is one the loop does not dial the address, and its entry names this
connection. What is missing: connections that are being closed (`C78_refuted`), and those on which the handshake
failed, which are never closed (`C57_refuted`). -/
theorem C78_one_connection_partial (s : Pool) (h : Reachable Pool.new s) :
    (∀ x ∈ s.links, ∀ y ∈ s.links, x.phase = .up → y.phase = .up → x.addr = y.addr → x.conn = y.conn) ∧
    (∀ x ∈ s.links, x.phase = .up → s.loop ≠ .dialing x.addr ∧ (∀ c, s.loop ≠ .greeting x.addr c) ∧
      ∀ i, s.table.find x.addr = some i → i.peer = some x.conn) := by
  have hi := inv_reachable h
  constructor
  · intro x hx y hy hux huy ha
    have := hi.single.one x.addr
    unfold holders at this
    exact count_two hi.conns.nodup hx hy (by simp [occupies, hux]) (by simp [occupies, huy, ha]) this
  · intro x hx hu
    have ho : occupies x = true := by simp [occupies, hu]
    have hpos := holders_pos hx ho
    exact ⟨fun e => hpos (hi.single.dialing _ e), fun c e => hpos (hi.single.greeting _ c e),
      hi.entries.owner x hx ho⟩

/-! ### C79 -/

/-- **C79 is false of the code: a second `Stop` panics.** -/
theorem C79_refuted_twice (s : Pool) (hq : s.quit = true) : ∃ s', Step s s' ∧ s'.panicked = true :=
  ⟨_, .stop s, hq⟩

/-- **C79 is false of the code: `Stop` panics if some address was never connected.** Once the loop has ended,
the goroutine for that address panics whenever it runs, and can do nothing else. -/
theorem C79_refuted_panic (s : Pool) (h : Reachable Pool.new s) (hp : s.panicked = false) (hl : s.loop = .select)
    (hq : s.quit = true) (a : String) (i : PeerInfo) (ha : s.table.find a = some i) (hn : i.peer = none) :
    ∃ s1, Step s s1 ∧ s1.loop = .stopped ∧ s1.panicked = false ∧ (∃ s2, Step s1 s2 ∧ s2.panicked = true) ∧
      ∀ s2, Reachable s1 s2 → (a, Closer.pending) ∈ s2.closers := by
  have hi := inv_reachable h
  refine ⟨_, .quitting s hl hq, rfl, hp, ?_, ?_⟩
  · have hm : (a, Closer.pending) ∈ s.table.map fun e => (e.1, Closer.pending) :=
      List.mem_map.2 ⟨(a, i), find_some_mem ha, rfl⟩
    obtain ⟨l, r, e⟩ := List.append_of_mem hm
    refine ⟨_, .closeNil _ l r a i e ?_ ha hn, rfl⟩
    unfold Pool.locked
    simp
  · intro s2 h2
    have key : (a, Closer.pending) ∈ s2.closers ∧ s2.loop = .stopped ∧
        ∃ i, s2.table.find a = some i ∧ i.peer = none := by
      induction h2 with
      | here =>
        exact ⟨List.mem_map.2 ⟨(a, i), find_some_mem ha, rfl⟩, rfl, i, ha, hn⟩
      | @next t t' h0 _ hs ih =>
        obtain ⟨k1, k2, i, k3, k4⟩ := ih
        have k3' : ∃ i', t'.table.find a = some i' ∧ i'.peer = none := by
          have hsome := (find_isSome_iff _ _).2 (keys_grow hs ((find_isSome_iff _ _).1 (by rw [k3]; rfl)))
          obtain ⟨i', hi'⟩ := Option.isSome_iff_exists.1 hsome
          refine ⟨i', hi', ?_⟩
          rcases peer_cases hs hi' with ⟨i0, e0, e1⟩ | ⟨e0, -⟩ | ⟨c, e0, -⟩
          · rw [k3] at e0; cases e0; rw [← e1]; exact k4
          · rw [k3] at e0; cases e0
          · rw [k2] at e0; cases e0
        refine ⟨?_, ?_, k3'⟩
        · cases hs with
          | quitting hl' _ => rw [k2] at hl'; cases hl'
          | closeUp l r b ib l' r' x hx hlk ht hpx hx' hu =>
            by_cases e : b = a
            · subst e; rw [k3] at ht; cases ht; rw [k4] at hpx; cases hpx
            · rw [hx] at k1
              simp only [List.mem_append, List.mem_cons] at k1 ⊢
              rcases k1 with k | k | k
              · exact .inl k
              · cases k; exact absurd rfl e
              · exact .inr (.inr k)
          | closeDown l r b ib x hx hlk ht hpx hx' hu =>
            by_cases e : b = a
            · subst e; rw [k3] at ht; cases ht; rw [k4] at hpx; cases hpx
            · rw [hx] at k1
              simp only [List.mem_append, List.mem_cons] at k1 ⊢
              rcases k1 with k | k | k
              · exact .inl k
              · cases k; exact absurd rfl e
              · exact .inr (.inr k)
          | closed l r b x hx hx' hw =>
            rw [hx] at k1
            simp only [List.mem_append, List.mem_cons] at k1 ⊢
            rcases k1 with k | k | k
            · exact .inl k
            · cases k
            · exact .inr (.inr k)
          | _ => exact k1
        · cases hs <;> simp_all
    exact key.1

/-- `C79_refuted_panic` applies to a pool stopped before the first connection. -/
example (resolve : String → Option TCPAddr) (hr : ∀ a, resolve "" = some a → a.port = 0)
    (addr : String) (ha : Admissible resolve addr) :
    ∃ s, Reachable Pool.new s ∧ s.panicked = true := by
  have h0 := (one_reachable hr ha).next rfl (.stop _)
  obtain ⟨s1, h1, -, hp, ⟨s2, h2, h3⟩, -⟩ := C79_refuted_panic _ h0 rfl rfl rfl addr _ (find_one addr _) rfl
  exact ⟨s2, (h0.next rfl h1).next hp h2, h3⟩

/-- **C79 is false of the code: stopping can block for ever.** A handler is about to record what a peer told
it; the goroutine that closes the connection already holds the lock and waits for the handler. Neither ever
goes on, although every address was connected. -/
theorem C79_refuted_deadlock (resolve : String → Option TCPAddr) (hr : ∀ a, resolve "" = some a → a.port = 0)
    (addr : String) (ha : Admissible resolve addr) :
    ∃ s, Reachable Pool.new s ∧ s.panicked = false ∧ s.loop = .stopped ∧ (∀ e ∈ s.table, e.2.peer ≠ none) ∧
      ∀ s', Reachable s s' → s'.closers = [(addr, .closing 0)] ∧ s'.links = [⟨0, addr, .down, true⟩] := by
  have h0 := live_reachable hr ha
  have h1 := h0.next rfl (.want _ [] [] ⟨0, addr, .up, false⟩ rfl (.inl rfl))
  have h2 := h1.next rfl (.stop _)
  have h3 := h2.next rfl (.quitting _ rfl rfl)
  have h4 := h3.next rfl (.closeUp _ [] [] addr _ [] [] ⟨0, addr, .up, true⟩ rfl
    (by unfold Pool.locked; simp [Pool.live, Pool.new]) (find_one addr _) rfl rfl rfl)
  refine ⟨_, h4, rfl, rfl, ?_, ?_⟩
  · intro e he
    rw [show e = _ from List.mem_singleton.1 he]
    nofun
  · intro s' h'
    suffices key : s'.closers = [(addr, .closing 0)] ∧ s'.links = [⟨0, addr, .down, true⟩] ∧ s'.loop = .stopped from
      ⟨key.1, key.2.1⟩
    induction h' with
    | here => exact ⟨rfl, rfl, rfl⟩
    | @next s s' _ _ hs ih =>
      obtain ⟨k1, k2, k3⟩ := ih
      have hlk : s.locked addr := .inr (.inr (.inr ⟨0, by rw [k1]; simp⟩))
      have one : ∀ {α : Type} {l r : List α} {x y : α}, [y] = l ++ x :: r → l = [] ∧ r = [] ∧ x = y := by
        intro α l r x y e
        cases l with
        | nil => simp at e; exact ⟨rfl, e.2, e.1.symm⟩
        | cons a l => simp at e
      cases hs with
      | fall l r x hx h =>
        rw [k2] at hx
        obtain ⟨rfl, rfl, rfl⟩ := one hx
        cases h
      | want l r x hx h =>
        rw [k2] at hx
        obtain ⟨rfl, rfl, rfl⟩ := one hx
        exact ⟨k1, rfl, k3⟩
      | record l r x td hh hx h hl =>
        rw [k2] at hx
        obtain ⟨rfl, rfl, rfl⟩ := one hx
        exact absurd hlk hl
      | mark l r x hx h hw hl =>
        rw [k2] at hx
        obtain ⟨rfl, rfl, rfl⟩ := one hx
        cases hw
      | seeDown l r x hx h =>
        rw [k2] at hx
        obtain ⟨rfl, rfl, rfl⟩ := one hx
        cases h
      | count l r x n hx h =>
        rw [k2] at hx
        obtain ⟨rfl, rfl, rfl⟩ := one hx
        cases h
      | drop l r x hx h =>
        rw [k2] at hx
        obtain ⟨rfl, rfl, rfl⟩ := one hx
        cases h
      | free l r x hx h hp =>
        rw [k2] at hx
        obtain ⟨rfl, rfl, rfl⟩ := one hx
        cases h
      | banSelf b l r x hx h hw hb =>
        rw [k2] at hx
        obtain ⟨rfl, rfl, rfl⟩ := one hx
        cases h
      | closeNil l r b i hx => rw [k1] at hx; obtain ⟨-, -, e⟩ := one hx; cases e
      | closeUp l r b i l' r' x hx => rw [k1] at hx; obtain ⟨-, -, e⟩ := one hx; cases e
      | closeDown l r b i x hx => rw [k1] at hx; obtain ⟨-, -, e⟩ := one hx; cases e
      | closed l r b x hx hx' hw =>
        rw [k2] at hx'
        rw [List.mem_singleton.1 hx'] at hw
        cases hw
      | _ => first | exact ⟨k1, k2, k3⟩ | (clear h0 h1 h2 h3 h4 hlk one; simp_all)

/-- After the loop has ended, every connection that is still up has a goroutine that is going to close it. -/
theorem stopped_inv {s : Pool} (h : Reachable Pool.new s) (hl : s.loop = .stopped) :
    ∀ x ∈ s.links, x.phase = .up → (x.addr, Closer.pending) ∈ s.closers := by
  induction h with
  | here => cases hl
  | @next s s' h0 _ hs ih =>
    have hi := inv_reachable h0
    intro y hy hu
    by_cases hq : s.loop = .stopped
    · obtain ⟨x, hx, hxc, hxa, hxf⟩ : ∃ x ∈ s.links, y.conn = x.conn ∧ y.addr = x.addr ∧ x.phase = .up := by
        rcases link_from hs hy with ⟨x, hx, e1, e2, e3⟩ | ⟨e, -⟩
        · refine ⟨x, hx, e1, e2, ?_⟩
          rw [hu] at e3
          rcases e3 with h | ⟨-, h⟩ | ⟨-, h⟩ | ⟨-, h⟩ | ⟨-, _, h⟩ | ⟨-, h⟩ | ⟨-, h⟩ | ⟨-, h⟩
          · exact h
          all_goals cases h
        · rw [hq] at e; cases e
      have old := ih hq x hx hxf
      rw [hxa]
      -- the goroutine of this address has not moved: it would have closed the connection
      have own : ∀ (l r : List (String × Closer)) (b : String) (c : Closer) (i : PeerInfo) (z : Link),
          s.closers = l ++ (b, .pending) :: r → s.table.find b = some i → i.peer = some z.conn → z ∈ s.links →
          (z.conn ≠ x.conn) → (x.addr, Closer.pending) ∈ l ++ (b, c) :: r := by
        intro l r b c i z e1 e2 e3 _ e4
        rw [e1] at old
        rcases List.mem_append.1 old with h | h
        · exact List.mem_append.2 (.inl h)
        rcases List.mem_cons.1 h with h | h
        · exfalso
          injection h with h
          rw [← h] at e2
          have := hi.entries.owner x hx (by simp [occupies, hxf]) i e2
          rw [e3] at this
          exact e4 (Option.some.inj this)
        · exact List.mem_append.2 (.inr (List.mem_cons_of_mem _ h))
      cases hs with
      | quitting h _ => rw [hq] at h; cases h
      | closeUp l r b i l' r' z hx1 hlk ht hp hx2 hzu =>
        refine own l r b _ i z hx1 ht hp (by rw [hx2]; simp) fun e => ?_
        -- then `y` would be the connection that was closed
        have hn := hi.conns.nodup
        rw [hx2, List.map_append, List.map_cons, List.nodup_append, List.nodup_cons] at hn
        obtain ⟨-, ⟨n1, -⟩, n2⟩ := hn
        have hyc : y.conn = z.conn := hxc.trans e.symm
        rcases List.mem_append.1 hy with h | h
        · exact n2 _ (List.mem_map.2 ⟨y, h, rfl⟩) _ List.mem_cons_self hyc
        rcases List.mem_cons.1 h with h | h
        · rw [h] at hu; cases hu
        · exact n1 (by rw [← hyc]; exact List.mem_map.2 ⟨y, h, rfl⟩)
      | closeDown l r b i z hx1 hlk ht hp hz hzu =>
        refine own l r b _ i z hx1 ht hp hz fun e => hzu ?_
        have : z = x := List.inj_on_of_nodup_map hi.conns.nodup hz hx e
        rw [this]; exact hxf
      | closed l r b z hx1 hz hw =>
        rw [hx1] at old
        simp only [List.mem_append, List.mem_cons] at old ⊢
        rcases old with h | h | h
        · exact .inl h
        · cases h
        · exact .inr (.inr h)
      | _ => exact old
    · cases hs with
      | quitting _ _ =>
        obtain ⟨i, hf⟩ := Option.isSome_iff_exists.1 ((find_isSome_iff _ _).2 (hi.known.links y hy))
        exact List.mem_map.2 ⟨(y.addr, i), find_some_mem hf, rfl⟩
      | _ => simp_all

/-- **C79, the part that holds.** When all goroutines that close connections have ended, every connection made by
the pool has been closed or somebody is about to close its socket, and the pool connects to nothing any more. -/
theorem C79_closed_partial (s : Pool) (h : Reachable Pool.new s) (hl : s.loop = .stopped)
    (hc : ∀ e ∈ s.closers, e.2 = .over) : ∀ x ∈ s.links, x.phase ≠ .up ∧
      (x.conn ∈ s.opened → ∃ s', Step s s' ∧ s'.opened = s.opened.filter (· ≠ x.conn)) ∧
      ∀ s', Reachable s s' → s'.loop = .stopped ∧ (x.conn ∉ s.opened → x.conn ∉ s'.opened) := by
  intro x hx
  have hne : x.phase ≠ .up := fun hu => by cases hc _ (stopped_inv h hl x hx hu)
  refine ⟨hne, fun _ => ⟨_, .shut s x hx hne, rfl⟩, fun s' h' => ?_⟩
  induction h' with
  | here => exact ⟨hl, id⟩
  | next _ _ hs ih =>
    obtain ⟨i1, i2⟩ := ih
    refine ⟨by cases hs <;> simp_all, fun hn => ?_⟩
    rcases opened_cases hs with ⟨eo, -⟩ | ⟨a, e, -⟩ | ⟨z, -, -, -, eo, -⟩
    · rw [eo]; exact i2 hn
    · rw [i1] at e; cases e
    · rw [eo, List.mem_filter]; exact fun h => i2 hn h.1

/-- **C79, the part that holds.** A goroutine of `Stop` that is closing a connection does not end before the socket of
the connection is closed. -/
theorem C79_waits_partial (s s' : Pool) (hs : Step s s') (addr : String) (c : Nat)
    (hc : (addr, Closer.closing c) ∈ s.closers) (hd : (addr, Closer.closing c) ∉ s'.closers) (hl : s.loop = .stopped) :
    (addr, Closer.over) ∈ s'.closers ∧ c ∉ s'.opened := by
  have change : ∀ {l r : List (String × Closer)} {e e' : String × Closer}, s.closers = l ++ e :: r →
      (addr, Closer.closing c) ∉ l ++ e' :: r → e = (addr, Closer.closing c) := by
    intro l r e e' h1 h2
    rw [h1] at hc
    rcases List.mem_append.1 hc with h | h
    · exact absurd (List.mem_append_left _ h) h2
    rcases List.mem_cons.1 h with h | h
    · exact h.symm
    · exact absurd (List.mem_append_right _ (List.mem_cons_of_mem _ h)) h2
  cases hs with
  | quitting h => rw [hl] at h; cases h
  | closeUp l r b i l' r' x hx => cases change hx hd
  | closeDown l r b i x hx => cases change hx hd
  | closed l r b x hx hx' hw ho =>
    cases change hx hd
    exact ⟨List.mem_append_right _ List.mem_cons_self, ho⟩
  | _ => exact absurd hc hd

/-- `C79_closed_partial` applies: the pool with one connection, stopped. In the step before, `C79_waits_partial`
applies. -/
example (resolve : String → Option TCPAddr) (hr : ∀ a, resolve "" = some a → a.port = 0)
    (addr : String) (ha : Admissible resolve addr) :
    ∃ s, Reachable Pool.new s ∧ s.loop = .stopped ∧ s.closers = [(addr, .over)] ∧ s.opened = [] := by
  have h0 := live_reachable hr ha
  have h2 := h0.next rfl (.stop _)
  have h3 := h2.next rfl (.quitting _ rfl rfl)
  have h4 := h3.next rfl (.closeUp _ [] [] addr _ [] [] ⟨0, addr, .up, false⟩ rfl
    (by unfold Pool.locked; simp [Pool.live, Pool.new]) (find_one addr _) rfl rfl rfl)
  have h4 := h4.next rfl (.shut _ ⟨0, addr, .down, false⟩ (List.mem_singleton.2 rfl) nofun)
  have h5 := h4.next rfl (.closed _ [] [] addr ⟨0, addr, .down, false⟩ rfl (List.mem_singleton.2 rfl) rfl
    (by simp [Pool.live]))
  exact ⟨_, h5, rfl, rfl, rfl⟩

/-! ### C80 -/

/-- **C80, the part that holds.** A peer that was banned by the handler of its own connection is never dialled
again. -/
theorem C80_banned_partial (s s' : Pool) (h : Reachable Pool.new s) (h' : Reachable s s') (x : Link) (hx : x ∈ s.links)
    (hb : x.phase = .stuck) : s'.loop ≠ .dialing x.addr ∧ ∀ c, s'.loop ≠ .greeting x.addr c := by
  have keep : ∃ y ∈ s'.links, y.addr = x.addr ∧ y.phase = .stuck := by
    induction h' with
    | here => exact ⟨x, hx, rfl, hb⟩
    | next _ _ hs ih =>
      obtain ⟨y, hy, h1, h2⟩ := ih
      obtain ⟨z, hz, -, g2, g3⟩ := link_stays hs hy
      refine ⟨z, hz, g2.trans h1, ?_⟩
      rw [h2] at g3
      rcases g3 with h | ⟨h, -⟩ | ⟨h, -⟩ | ⟨h, -⟩ | ⟨h, -⟩ | ⟨⟨_, h⟩, -⟩ | ⟨h, -⟩ | ⟨h, -⟩
      · exact h.symm
      all_goals cases h
  obtain ⟨y, hy, h1, h2⟩ := keep
  have hi := inv_reachable (h.trans h')
  have hpos := holders_pos hy (by simp [occupies, h2])
  rw [h1] at hpos
  exact ⟨fun e => hpos (hi.single.dialing _ e), fun c e => hpos (hi.single.greeting _ c e)⟩

/-- `C80_banned_partial` applies: the handler of the only connection bans its peer. -/
example (resolve : String → Option TCPAddr) (hr : ∀ a, resolve "" = some a → a.port = 0)
    (addr : String) (ha : Admissible resolve addr) :
    ∃ s, Reachable Pool.new s ∧ s.links = [⟨0, addr, .stuck, false⟩] := by
  have h0 := live_reachable hr ha
  have h1 := h0.next rfl (.banSelf _ addr [] [] ⟨0, addr, .up, false⟩ rfl rfl rfl (by
    unfold P2P.ban
    simp only [Pool.live, find_one]
    rfl))
  exact ⟨_, h1, rfl⟩

/-- **C80 is false of the code.** If somebody else bans the peer, the goroutine of the connection that is closed
overwrites the mark, and the loop dials the banned address. -/
theorem C80_refuted (resolve : String → Option TCPAddr) (hr : ∀ a, resolve "" = some a → a.port = 0)
    (addr : String) (ha : Admissible resolve addr) :
    ∃ s s', Reachable Pool.new s ∧ (∃ i, s.table.find addr = some i ∧ i.status = .banned) ∧ Reachable s s' ∧
      s'.panicked = false ∧ s'.loop = .dialing addr := by
  have h0 := live_reachable hr ha
  have h1 := h0.next rfl (.banOther _ addr _ (find_one addr _))
  rw [show (Pool.live addr).table.update addr (setStatus .banned) = [(addr, _)] from update_one addr _ _] at h1
  refine ⟨_, _, h1, ⟨_, find_one addr _, rfl⟩,
    ((Reachable.next .here rfl (.fall _ [] [] ⟨0, addr, .up, false⟩ rfl rfl)).next rfl
      (.mark _ [] [] ⟨0, addr, .down, false⟩ rfl rfl rfl ?_)).trans
      (dials _ addr _ (update_one addr _ _) (.inr (.inl rfl)) (admissible_ne hr ha) rfl
        (show (1 : Nat) < 15 by omega) (show (1 : Int) ≤ 15 by omega) rfl rfl), rfl, rfl⟩
  unfold Pool.locked
  simp [Pool.live, Pool.new]

end Gringo.Props
