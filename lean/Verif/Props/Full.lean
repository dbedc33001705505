import Verif.Proofs.Full
import Verif.Props.Program
/-
C128: the whole conversation with a peer, from the first byte.
-/
namespace Gringo.Props
open Gringo.Spec Gringo.P2P

variable {E : Env}

/-- The frame of the hand with which a connection to an IPv4 address begins. -/
def handFrame (nonce : UInt64) (ip : Bytes) (port : UInt16) (genesis : Bytes) : Bytes :=
  frameBytes 1 (handBody nonce.toNat 1 [0, 0, 0, 0] 0 ip port.toNat "gringo v0.0.1" genesis)

theorem own_hand_frame (x : UInt64) {ip : Bytes} (hip : ip.length = 4) (port : UInt16) {genesis : Bytes}
    (hg : genesis.length = 32) {data : Bytes} (h : (ownHand x ⟨ip, port.toNat⟩ genesis).bytes = .ok data) :
    (writeMessage MsgTypeHand data).1 = handFrame x ip port genesis := by
  have hport : portBits (port.toNat : Int) = port := by
    have h0 := port_u16 (a := ⟨ip, port.toNat⟩) (by simp) (by simp only; exact_mod_cast port.toNat_lt)
    simp only at h0
    apply UInt16.toNat_inj.1
    exact_mod_cast h0
  have hb : (ownHand x ⟨ip, port.toNat⟩ genesis).bytes =
      .ok (handBody x.toNat 1 [0, 0, 0, 0] 0 ip port.toNat "gringo v0.0.1" genesis) := by
    have hs : serializeTCPAddr { ip := List.replicate 10 0 ++ [255, 255, 0, 0, 0, 0], port := 0 } =
        .ok ([0] ++ [0, 0, 0, 0] ++ be 2 0) := by decide +kernel
    have hr : serializeTCPAddr ⟨ip, port.toNat⟩ = .ok ([0] ++ ip ++ be 2 port.toNat) := by
      simp [serializeTCPAddr, to4, hip, hport, be16]
    have hu : userAgent = ascii "gringo v0.0.1" := by decide
    simp only [Hand.bytes, ownHand, hs, hr, Out.bind_ok, Out.pure_def, handBody, hu]
    rfl
  have hl : (handBody x.toNat 1 [0, 0, 0, 0] 0 ip port.toNat "gringo v0.0.1" genesis).length = 91 := by
    simp only [handBody, List.length_append, be_length, hip, hg]
    rfl
  rw [hb] at h
  cases h
  exact write_eq_frame _ _ (by omega)

/-- The bytes of the write handler of a connection. -/
theorem wire_of {s : Program.State E} {remote : Nat → String} {chain : Chain E} {storage : Storage E}
    {mempool : Option (Transaction E → Out Unit)} (hi : Program.Inv remote chain storage mempool s)
    {x : Whole.Conn (Message E)} (hx : x ∈ s.pool.conns) :
    (s.pool.conns.filter (·.id == x.id)).flatMap (·.peer.wire) = x.peer.wire := by
  have hn := Whole.ids_nodup hi.whole
  revert hn hx
  generalize s.pool.conns = cs
  intro hx hn
  induction cs with
  | nil => cases hx
  | cons y l ih =>
    rw [List.map_cons, List.nodup_cons] at hn
    have none : ∀ z : Nat, z ∉ l.map (·.id) → l.filter (·.id == z) = [] := by
      intro z hz
      rw [List.filter_eq_nil_iff]
      intro w hw e
      exact hz (List.mem_map.2 ⟨w, hw, by simpa using e⟩)
    rcases List.mem_cons.1 hx with rfl | hx
    · rw [List.filter_cons_of_pos (by simp), none _ hn.1]
      simp
    · rw [List.filter_cons_of_neg]
      · exact ih hx hn.2
      · intro e
        refine hn.1 (List.mem_map.2 ⟨x, hx, ?_⟩)
        simp only [beq_iff_eq] at e
        exact e.symm

section
variable (u : Full.Setup) (chain : Chain E) (storage : Storage E) (mempool : Option (Transaction E → Out Unit))
  (nonces : NonceList) (headHash : Bytes) (hh : HasHash chain.head headHash) (s : Full.State E)
  (h : Full.Reachable u chain storage mempool nonces s)
include hh h

/-- **C128, the parts.** Apart from the handshakes the program is the one of Model/Program.lean, so that C124 to C127 say
what it does; only, it may be dead because of a handshake. -/
theorem C128_parts :
    (s.prog.dead = false → Program.Reachable u.remote chain storage mempool s.prog) ∧
    ∃ d, Program.Reachable u.remote chain storage mempool { s.prog with dead := d } :=
  ⟨(Full.inv_reachable hh h).alive, (Full.inv_reachable hh h).prog⟩

/-- **C128, the first bytes.** Whatever the network and the other peers do, what a peer at an IPv4 address gets to see on
the connection with number `c` begins with the frame of a hand: protocol version 1, a full node, total difficulty 1,
sender 0.0.0.0:0, the address of the peer, "gringo v0.0.1" and the genesis hash; with the nonces of the list in turn.
Until the whole hand was written and a shake of version 1 was read, nothing else is written, nothing that came in is
handled, and the connection is in none of the tables. From then on the first bytes that came in are the frame of that
shake, and all others are left to the read handler. -/
theorem C128_first_bytes (c : Nat) (hc : c < s.prog.pool.next) (ip : Bytes) (hip : ip.length = 4) (port : UInt16)
    (hr : u.receiver c = ⟨ip, port.toNat⟩) (hg : u.genesis.length = 32) :
    ∃ nonce, nonces.list[(nonces.idx + c + 1) % 100]? = some nonce ∧
      (((s.sockets c).shake = none ∧ sentOn s c <+: handFrame nonce ip port u.genesis ∧ (s.prog.io c).arrived = [] ∧
        (∀ x ∈ s.prog.pool.conns, x.id ≠ c) ∧ c ∉ s.prog.pool.table.filterMap (·.2.peer)) ∨
      ∃ sh len, (s.sockets c).shake = some sh ∧ sh.version = 1 ∧ sh.genesis.length = 32 ∧ (shakeBody sh).length ≤ len ∧
        len ≤ 20000000 ∧ cameOn s c = [0x54, 0x34, 2] ++ be 8 len ++ shakeBody sh ++ (s.prog.io c).arrived ∧
        sentOn s c = handFrame nonce ip port u.genesis ++
          (s.prog.pool.conns.filter (·.id == c)).flatMap (·.peer.wire)) := by
  have hi := Full.inv_reachable hh h
  obtain ⟨nonce, data, h1, h2, h3⟩ := hi.hands c hc
  rw [hr] at h2
  have hf := own_hand_frame nonce hip port hg h2
  rw [← h3] at hf
  refine ⟨nonce, h1, ?_⟩
  cases hsh : (s.sockets c).shake with
  | none =>
    have hne : ∀ x ∈ s.prog.pool.conns, x.id ≠ c := by
      rintro x hx rfl
      exact hi.conns x hx hsh
    refine .inl ⟨rfl, ?_, hi.early c hsh, hne, ?_⟩
    · unfold sentOn
      rw [← hf, List.filter_eq_nil_iff.2 (by
        intro x hx
        simpa using hne x hx), List.flatMap_nil, List.append_nil]
      exact List.take_prefix _ _
    · intro hm
      obtain ⟨⟨a, i⟩, hai, e⟩ := List.mem_filterMap.1 hm
      obtain ⟨d, hp⟩ := hi.prog
      have hp := Program.inv_reachable hp
      obtain ⟨-, p, hr, hwr⟩ := Whole.refines hp.whole
      have hnd := (PoolRun.inv_reachable hr).entries.unique
      rw [hwr.table] at hnd
      have hfind : s.prog.pool.table.find a = some i := mem_find hnd hai
      obtain ⟨y, hy, e1, -⟩ := Full.peer_conn hp hfind e
      exact hne y hy e1
  | some sh =>
    obtain ⟨g1, g2, g3, g4, len, g0, g5, g6⟩ := hi.shaken c sh hsh
    refine .inr ⟨sh, len, rfl, g2, g3, g0, g5, g6, ?_⟩
    unfold sentOn
    rw [g4, List.take_length, hf]

/-- **C128, the whole conversation.** All bytes that a peer at an IPv4 address gets to see on a connection in the tables are
the hand and then frames of messages; all bytes that came in on it are a shake of version 1, then the frames that have
been read, and then what has not been read. The messages are those of C124: the two of the beginning, blocks that the
node has accepted, and the answers to the messages in the frames, in their order. -/
theorem C128_conversation (x : Whole.Conn (Message E)) (hx : x ∈ s.prog.pool.conns) (ip : Bytes) (hip : ip.length = 4)
    (port : UInt16) (hr : u.receiver x.id = ⟨ip, port.toNat⟩) (hg : u.genesis.length = 32) :
    ∃ nonce sh len, nonces.list[(nonces.idx + x.id + 1) % 100]? = some nonce ∧ sh.version = 1 ∧ sh.genesis.length = 32 ∧
    (shakeBody sh).length ≤ len ∧ len ≤ 20000000 ∧
    ∃ wire, sentOn s x.id = handFrame nonce ip port u.genesis ++ wire ∧ WrittenTo x.peer.accepted wire ∧
    (x.peer.accepted.filter isHello).Sublist [.ping ⟨1, 1⟩, .getPeerAddrs ⟨CapFullNode⟩] ∧
    ∃ (unasked replies : List (Message E)),
      (unasked ++ replies).Perm x.peer.accepted ∧ replies.Sublist x.peer.accepted ∧
      (∀ m ∈ unasked, isHello m = true ∨ ∃ b, m = .block b ∧ CameIn u.remote s.prog b) ∧
      ∃ (fs : List (GoodFrame E)) (rest : Bytes) (ms unhandled : List (Message E)) (es : List (Effect E))
        (late : List (Message E)),
        cameOn s x.id = [0x54, 0x34, 2] ++ be 8 len ++ shakeBody sh ++ streamOf fs ++ rest ∧
        messagesOf fs = ms ++ unhandled ∧ Answered chain storage headHash ms es ∧ answersOf es = replies ++ late ∧
        (unhandled = [] ∨ ∃ m, unhandled = [m] ∧ ((s.prog.io x.id).task = some m ∨ ∃ d, x.peer.reader = .closing d)) ∧
        (late = [] ∨ ∃ m, late = [m] ∧ (x.peer.reader = .replying m ∨ x.peer.flag = true)) := by
  have hi := Full.inv_reachable hh h
  obtain ⟨d, hp⟩ := hi.prog
  have hpi := Program.inv_reachable hp
  have hid : x.id < s.prog.pool.next := Program.id_small hpi hx
  obtain ⟨nonce, h1, h2 | h2⟩ := C128_first_bytes u chain storage mempool nonces headHash hh s h x.id hid ip hip port hr hg
  · exact absurd rfl (h2.2.2.2.1 x hx)
  · obtain ⟨sh, len, -, g1, g2, g3, g4, g5, g6⟩ := h2
    obtain ⟨c1, c2, un, re, c3, c4, c5, fs, ms, unh, es, late, c6, c7, c8, c9, c10, c11⟩ :=
      C124_what_a_peer_sees u.remote chain storage mempool headHash hh _ hp x hx
    rw [wire_of hpi hx] at g6
    refine ⟨nonce, sh, len, h1, g1, g2, g3, g4, _, g6, c1, c2, un, re, c3, c4, c5, fs, (s.prog.io x.id).inbox, ms, unh, es, late, ?_,
      c7, c8, c9, c10, c11⟩
    rw [g5]
    have c6 : (s.prog.io x.id).arrived = _ := c6
    rw [c6]
    simp only [List.append_assoc]

/-- **C128, what the node says about its peers.** An entry of the table of peers to which there never was a connection says
nothing. The protocol version and the capabilities of any other entry are those of the shake of its connection; its total
difficulty and its height were said, both at once, by somebody on a connection to the address: in the shake, which tells
no height, or in a ping, a pong or the header of a block. -/
theorem C128_record (a : String) (i : PeerInfo) (hf : s.prog.pool.table.find a = some i) :
    (i.peer = none ∧ i.protocolVersion = 0 ∧ i.capabilities = 0 ∧ i.totalDifficulty = 0 ∧ i.height = 0) ∨
    (∃ x ∈ s.prog.pool.conns, x.addr = a ∧ i.peer = some x.id ∧
      ∃ sh, ShookWith s x.id sh ∧ i.protocolVersion = sh.version ∧ i.capabilities = sh.capabilities) ∧
    Said s a i.totalDifficulty i.height := by
  have hi := Full.inv_reachable hh h
  have shook : ∀ {c : Nat} {sh : Shake}, (s.sockets c).shake = some sh → ShookWith s c sh := by
    intro c sh e
    obtain ⟨-, g2, -, -, len, -, g5, g6⟩ := hi.shaken c sh e
    exact ⟨g2, len, g5, ⟨_, g6.symm⟩⟩
  rcases hi.table a i hf with hu | ⟨⟨x, hx, h1, h2, sh, h3, h4, h5⟩, z, hz, h6, h7⟩
  · exact .inl hu
  · refine .inr ⟨⟨x, hx, h1, h2, sh, shook h3, h4, h5⟩, z, hz, h6, ?_⟩
    rcases h7 with ⟨sh', g1, g2, g3⟩ | ⟨fs, m, g1, g2, g3⟩
    · exact .inl ⟨sh', shook g1, g2, g3⟩
    · refine .inr ⟨m, ?_, g3⟩
      obtain ⟨sh', e⟩ := Option.ne_none_iff_exists'.1 (hi.conns z hz)
      obtain ⟨-, -, -, -, len, -, f5, f6⟩ := hi.shaken _ _ e
      obtain ⟨t, ht⟩ := g1
      refine ⟨sh', len, fs, f5, ⟨t, ?_⟩, g2⟩
      unfold cameOn
      rw [f6, ← ht]
      simp only [List.append_assoc]

end

end Gringo.Props
