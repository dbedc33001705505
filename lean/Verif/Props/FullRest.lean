import Verif.Proofs.FullRest
import Verif.Props.Handshake
/-
C128: the whole program with its handshakes comes to rest, and then every conversation is complete.
-/
namespace Gringo.Props
open Gringo.Spec Gringo.P2P

variable {E : Env}

/-- **C128, the work ends.** From any state the program can get into, what it does without anything coming from outside
ends, whatever the order: there is no infinite run of such steps, and there is a run to a state of rest. -/
theorem C128_ends (u : Full.Setup) (chain : Chain E) (storage : Storage E) (mempool : Option (Transaction E → Out Unit))
    (nonces : NonceList) (headHash : Bytes) (hh : HasHash chain.head headHash) (s : Full.State E)
    (h : Full.Reachable u chain storage mempool nonces s) :
    (¬ ∃ run : Nat → Full.State E, run 0 = s ∧ ∀ i, FullWorks u (run i) (run (i + 1))) ∧
    ∃ s', Relation.ReflTransGen (FullWorks u) s s' ∧ FullAtRest u s' := by
  have acc := Full.work_acc hh (Full.inv_reachable hh h)
  clear h
  refine ⟨?_, ?_⟩
  · induction acc with
    | intro s _ ih =>
      rintro ⟨run, e, hr⟩
      exact ih (run 1) (e ▸ hr 0) ⟨fun i => run (i + 1), rfl, fun i => hr (i + 1)⟩
  · induction acc with
    | intro s _ ih =>
      by_cases h : FullAtRest u s
      · exact ⟨s, .refl, h⟩
      · obtain ⟨s1, h1⟩ := not_forall.1 h
        have h1 := not_not.1 h1
        obtain ⟨s', h2, h3⟩ := ih s1 h1
        exact ⟨s', h2.head h1, h3⟩

section
variable (hmem : 20000000 ≤ E.maxAlloc) (u : Full.Setup) (chain : Chain E) (storage : Storage E)
  (mempool : Option (Transaction E → Out Unit)) (nonces : NonceList) (headHash : Bytes)
  (hh : HasHash chain.head headHash) (s : Full.State E) (h : Full.Reachable u chain storage mempool nonces s)
  (hd : s.prog.dead = false) (hp : s.prog.pool.panicked = false) (hrest : FullAtRest u s)
include hmem hh h hd hp hrest

/-- **C128, a handshake waits for nobody but the peer.** If the program is at rest in a handshake with a peer at an IPv4
address, then it has written its whole hand, and what has come in does not begin with the frame of a shake that it
accepts. -/
theorem C128_handshake_at_rest (a : String) (c : Nat) (hl : s.prog.pool.loop = .greeting a c) (ip : Bytes)
    (hip : ip.length = 4) (port : UInt16) (hr : u.receiver c = ⟨ip, port.toNat⟩) (hg : u.genesis.length = 32) :
    (∃ nonce ∈ nonces.list, sentOn s c = handFrame nonce ip port u.genesis) ∧
    ∀ sh : Shake, sh.version = 1 → sh.genesis.length = 32 → (shakeBody sh).length ≤ 20000000 →
      ¬ frameBytes 2 (shakeBody sh) <+: cameOn s c := by
  have hi := Full.inv_reachable hh h
  obtain ⟨g1, g2⟩ := hi.greeting _ _ hl
  have hw : (s.sockets c).written = (s.sockets c).hand.length := by
    by_contra hne
    have hlt := Nat.lt_of_le_of_ne (hi.written c) hne
    refine hrest _ ⟨hd, hp, (fun e => by rw [hl] at e; cases e), .inr ⟨.writes a c _ hl hlt (Nat.le_refl _), c, ?_⟩⟩
    unfold sentOn
    dsimp only
    rw [Function.update_self]
    dsimp only
    intro e
    have e := congrArg List.length (List.append_cancel_right e)
    simp only [List.length_take] at e
    omega
  constructor
  · obtain ⟨nonce, h1, ⟨-, -, -, h4, -⟩ | ⟨sh, len, h2, -⟩⟩ :=
      C128_first_bytes u chain storage mempool nonces headHash hh s h c g1 ip hip port hr hg
    · refine ⟨nonce, List.mem_of_getElem? h1, ?_⟩
      obtain ⟨nonce', data, f1, f2, f3⟩ := hi.hands c g1
      rw [h1] at f1
      cases f1
      rw [hr] at f2
      have hf := own_hand_frame nonce hip port hg f2
      unfold sentOn
      rw [hw, List.take_length, f3, hf, List.filter_eq_nil_iff.2 (by
        intro x hx
        simpa using h4 x hx), List.flatMap_nil, List.append_nil]
    · rw [g2] at h2; cases h2
  · intro sh hv hgen hlen ⟨t, ht⟩
    have hu : sh.userAgent.length < 2 ^ 64 := by
      simp only [shakeBody, List.length_append] at hlen
      omega
    have hu2 : sh.userAgent.length ≤ 20000000 := by
      simp only [shakeBody, List.length_append] at hlen
      omega
    obtain ⟨-, hrd⟩ := C23_shake_roundtrip E sh hv hgen (by omega) (by omega)
    rw [Full.shakeBody_eq hu] at hlen ht
    obtain ⟨-, -, n, -, hrm⟩ := C03_roundtrip MsgTypeShake (Shake.read E) sh.bytes _ hrd hlen
    have hrm := hrm t
    rw [write_eq_frame _ _ (by omega)] at hrm
    have hrm : Full.readShake E (frameBytes 2 sh.bytes ++ t) = (.ok (sh, n), t) := hrm
    rw [ht] at hrm
    exact hrest _ ⟨hd, hp, (fun e => by rw [hl] at e; cases e), .inl (.shake a c sh n t hl hw hrm hv)⟩

/-- **C128, every conversation is complete.** If the program is at rest, then on every
connection in the tables that was not closed, to a peer at an IPv4 address, all bytes of the hand and of all messages that
were accepted for sending have been written; and unless its read loop is in `Ban`, every whole frame after the shake has
been read, and the answers to all messages in them are among the messages written, in the order of the questions. A
connection that was closed has ended, or its read loop is in `Ban`, or the read loop and a goroutine of `Stop` wait for each
other. -/
theorem C128_at_rest (x : Whole.Conn (Message E)) (hx : x ∈ s.prog.pool.conns) (ip : Bytes)
    (hip : ip.length = 4) (port : UInt16) (hr : u.receiver x.id = ⟨ip, port.toNat⟩) (hg : u.genesis.length = 32) :
    (x.peer.flag = true → Over x ∨ InBan s.prog x ∨ HeldByStop s.prog x) ∧
    (x.peer.flag = false → ∃ nonce ∈ nonces.list, ∃ wire,
      sentOn s x.id = handFrame nonce ip port u.genesis ++ wire ∧ AllWritten x.peer.accepted wire ∧ ¬ SendWaits x.peer ∧
      (InBan s.prog x ∨ ∃ (sh : Shake) (len : Nat) (fs : List (GoodFrame E)) (rest : Bytes) (es : List (Effect E)),
        sh.version = 1 ∧ (shakeBody sh).length ≤ len ∧ len ≤ 20000000 ∧
        cameOn s x.id = [0x54, 0x34, 2] ++ be 8 len ++ shakeBody sh ++ streamOf fs ++ rest ∧
        (∀ g : GoodFrame E, ¬ frameBytes g.type g.body <+: rest) ∧
        Answered chain storage headHash (messagesOf fs) es ∧ (answersOf es).Sublist x.peer.accepted)) := by
  have hi := Full.inv_reachable hh h
  have hpr := hi.alive hd
  have hpi := Program.inv_reachable hpr
  have hprest : ProgramAtRest u.remote s.prog := fun q hq => hrest _ (Full.lift_work hpi hq)
  obtain ⟨h1, h2⟩ := (C127_at_rest hmem u.remote chain storage mempool headHash hh s.prog hpr hd hp hprest).1 x hx
  refine ⟨h1, fun hf => ?_⟩
  obtain ⟨w1, w2, w3⟩ := h2 hf
  obtain ⟨nonce, g1, g2 | ⟨sh, len, -, g3, -, g4, g5, g6, g7⟩⟩ :=
    C128_first_bytes u chain storage mempool nonces headHash hh s h x.id (Program.id_small hpi hx) ip hip port hr hg
  · exact absurd rfl (g2.2.2.2.1 x hx)
  rw [wire_of hpi hx] at g7
  refine ⟨nonce, List.mem_of_getElem? g1, _, g7, w1, w2, ?_⟩
  rcases w3 with w3 | ⟨fs, es, e1, e2, e3, e4, e5⟩
  · exact .inl w3
  · refine .inr ⟨sh, len, fs, _, es, g3, g4, g5, ?_, e2, e3, e4 ▸ e5⟩
    rw [g6, e1]
    simp only [List.append_assoc]

end

end Gringo.Props
