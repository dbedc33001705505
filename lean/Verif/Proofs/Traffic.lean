import Verif.Props.Full
import Verif.Proofs.ProgramCount
import Verif.Proofs.ProgramSent
import Verif.Proofs.Full
import Verif.Spec.Traffic
/-
Helper lemmas for Props/Traffic.lean.
-/
namespace Gringo.Traffic
open Gringo.P2P Gringo.Spec Gringo.Props

variable {E : Env}

theorem lengths_cons (m : Message E) (l : List (Message E)) : wireLengths (m :: l) = wireLength m + wireLengths l := by
  simp [wireLengths]

theorem lengths_append (l r : List (Message E)) : wireLengths (l ++ r) = wireLengths l + wireLengths r := by
  simp [wireLengths]

theorem lengths_perm {l r : List (Message E)} (h : l.Perm r) : wireLengths l = wireLengths r := by
  induction h with
  | nil => rfl
  | cons _ _ ih => rw [lengths_cons, lengths_cons, ih]
  | swap => simp only [lengths_cons]; omega
  | trans _ _ h1 h2 => exact h1.trans h2

theorem lengths_sublist {l r : List (Message E)} (h : l.Sublist r) : wireLengths l ≤ wireLengths r := by
  induction h with
  | slnil => exact Nat.le_refl _
  | cons _ _ ih => rw [lengths_cons]; omega
  | cons_cons _ _ ih => rw [lengths_cons, lengths_cons]; omega

theorem lengths_subperm {l r : List (Message E)} (h : l.Subperm r) : wireLengths l ≤ wireLengths r := by
  obtain ⟨k, h1, h2⟩ := h
  rw [← lengths_perm h1]
  exact lengths_sublist h2

theorem frames_length {done : List (Message E)} {frames : List Bytes}
    (hf : List.Forall₂ (fun m b => m.frame = .ok b) done frames) : frames.flatten.length = wireLengths done := by
  induction hf with
  | nil => rfl
  | cons h _ ih =>
    rw [List.flatten_cons, List.length_append, ih, lengths_cons]
    unfold wireLength
    rw [h]

/-- Not more was written than the frames of the messages. -/
theorem written_length {ms : List (Message E)} {wire : Bytes} (h : WrittenTo ms wire) : wire.length ≤ wireLengths ms := by
  obtain ⟨done, last, frames, p, rfl, hl, hf, rfl, hp⟩ := h
  rw [List.length_append, lengths_append, frames_length hf]
  rcases hp with rfl | ⟨m, b, rfl, hb, hp⟩
  · simp
  · have := hp.length_le
    simp only [lengths_cons, wireLength, hb]
    omega

theorem frame_length {m : Message E} {v : Bytes} (h : m.frame = .ok v) : ∃ data, m.bytes = .ok data ∧ v.length = 11 + data.length := by
  unfold Message.frame at h
  cases hb : m.bytes with
  | ok data =>
    rw [hb] at h
    have h : Out.ok (writeMessage m.type data).1 = .ok v := h
    cases h
    exact ⟨data, rfl, by simp [writeMessage, Header.bytes, MagicCode]; omega⟩
  | _ => rw [hb] at h; cases h

theorem wire_le {m : Message E} {n : Nat} (h : ∀ data, m.bytes = .ok data → data.length ≤ n) : wireLength m ≤ 11 + n := by
  unfold wireLength
  split
  · rename_i v hv
    obtain ⟨data, h1, h2⟩ := frame_length hv
    have := h data h1
    omega
  · exact Nat.zero_le _

theorem addr_length {a : TCPAddr} {b : Bytes} (h : serializeTCPAddr a = .ok b) : b.length ≤ 11 := by
  unfold serializeTCPAddr at h
  dsimp only at h
  split at h <;> split at h
  · cases h; simp; omega
  · split at h
    · cases h; simp
    · cases h
  · cases h; simp; omega
  · split at h
    · cases h; simp
    · cases h

theorem addrs_length : ∀ (l : List TCPAddr) (b : Bytes), serializeAll l = .ok b → b.length ≤ 11 * l.length
  | [], b, h => by cases h; simp
  | a :: l, b, h => by
    unfold serializeAll at h
    cases h1 : serializeTCPAddr a with
    | ok v =>
      rw [h1] at h
      cases h2 : serializeAll l with
      | ok w =>
        rw [h2] at h
        have h : Out.ok (v ++ w) = .ok b := h
        cases h
        have := addr_length h1
        have := addrs_length l w h2
        simp
        omega
      | _ => rw [h2] at h; cases h
    | _ => rw [h1] at h; cases h

theorem pong_length (m : Pong) : wireLength (.pong m : Message E) ≤ 27 :=
  wire_le (n := 16) fun data h => by cases h; simp [Ping.bytes]

theorem ping_length (m : Ping) : wireLength (.ping m : Message E) ≤ 27 :=
  wire_le (n := 16) fun data h => by cases h; simp [Ping.bytes]

theorem ask_length (m : GetPeerAddrs) : wireLength (.getPeerAddrs m : Message E) ≤ 15 :=
  wire_le (n := 4) fun data h => by cases h; simp [GetPeerAddrs.bytes]

theorem headers_length : wireLength (.headers ⟨[]⟩ : Message E) ≤ 13 :=
  wire_le (n := 2) fun data h => by cases h; simp

theorem peers_length {p : PeerAddrs} (hp : p.peers.length ≤ 256) : wireLength (.peerAddrs p : Message E) ≤ 2831 :=
  wire_le (n := 2820) fun data h => by
    have h : p.bytes = .ok data := h
    unfold PeerAddrs.bytes at h
    split at h
    · cases h
    · cases h1 : serializeAll p.peers with
      | ok v =>
        rw [h1] at h
        have h : Out.ok (be32 (UInt32.ofNat p.peers.length) ++ v) = .ok data := h
        cases h
        have := addrs_length _ _ h1
        simp
        omega
      | _ => rw [h1] at h; cases h

/-- The least number of bytes of a frame with the message. -/
def least : Message E → Nat
  | .getPeerAddrs _ => 15
  | _ => 11

theorem least_frame (f : GoodFrame E) : (f.msg.toList.map least).sum ≤ (frameBytes f.type f.body).length := by
  have h11 : (frameBytes f.type f.body).length = 11 + f.body.length := by
    simp [frameBytes, be_length]; omega
  rw [h11]
  obtain ⟨t, b, msg, size, carries⟩ := f
  cases carries with
  | getPeerAddrs _ r m h =>
    have : 4 ≤ b.length := by
      simp only [GetPeerAddrs.read, Rd.bind_run] at h
      obtain ⟨v, r1, h1, -⟩ := cont_eq_ok h
      rw [Rd.u32_ok h1]
      simp
    simp [least]; omega
  | _ => simp [least]

theorem least_stream (fs : List (GoodFrame E)) : ((messagesOf fs).map least).sum ≤ (streamOf fs).length := by
  induction fs with
  | nil => exact Nat.le_refl _
  | cons f fs ih =>
    have := least_frame f
    simp only [messagesOf, streamOf, List.flatMap_cons, List.map_append, List.sum_append, List.length_append] at *
    omega

/-- A node with the shipped storage answers in proportion. -/
theorem answers_length {chain : Chain E} {headHash : Bytes} {ms : List (Message E)} {es : List (Effect E)}
    (h : Answered chain (sqlStorage E) headHash ms es) :
    15 * wireLengths (answersOf es) ≤ 2831 * (ms.map least).sum := by
  induction h with
  | nil => exact Nat.zero_le _
  | ping m h ih =>
    have := pong_length (E := E) ⟨chain.totalDifficulty, chain.height⟩
    simp only [answersOf, lengths_cons, List.map_cons, List.sum_cons, least]
    omega
  | getPeerAddrs m p hp h ih =>
    have := peers_length (E := E) hp
    simp only [answersOf, lengths_cons, List.map_cons, List.sum_cons, least]
    omega
  | getHeaders m h ih =>
    have : headersFor (sqlStorage E) headHash m = [] := by
      unfold headersFor
      split
      · rfl
      · split <;> rfl
    rw [this]
    have := headers_length (E := E)
    simp only [answersOf, lengths_cons, List.map_cons, List.sum_cons, least]
    omega
  | getBlock m b hb => cases hb
  | block b relays hr h ih =>
    have : ∀ es : List (Effect E), answersOf (relays ++ es) = answersOf es := by
      intro es
      induction relays with
      | nil => rfl
      | cons x xs ihx =>
        obtain ⟨a, n, rfl⟩ := hr x (List.mem_cons_self ..)
        exact ihx fun y hy => hr y (List.mem_cons_of_mem _ hy)
    rw [this]
    simp only [List.map_cons, List.sum_cons, least]
    omega
  | _ =>
    simp only [List.map_cons, List.sum_cons, least]
    omega

/-- What is sent without being asked for: the two messages of the beginning, and blocks. -/
theorem unasked_length {unasked accepted : List (Message E)} (h1 : unasked.Subperm accepted)
    (h2 : (accepted.filter isHello).Sublist [.ping ⟨1, 1⟩, .getPeerAddrs ⟨CapFullNode⟩])
    (h3 : ∀ m ∈ unasked, isHello m = true ∨ ∃ b, m = .block b) {came : List (Block E)}
    (h4 : (blocksOf unasked).Subperm came) : wireLengths unasked ≤ 42 + wireLengths (came.map .block) := by
  have e1 : wireLengths (unasked.filter isHello) ≤ 42 := by
    have : wireLengths (unasked.filter isHello) ≤ _ := lengths_subperm ((h1.filter isHello).trans h2.subperm)
    have g1 := ping_length (E := E) ⟨1, 1⟩
    have g2 := ask_length (E := E) ⟨CapFullNode⟩
    simp only [lengths_cons] at this
    have g3 : wireLengths ([] : List (Message E)) = 0 := rfl
    omega
  have e2 : wireLengths unasked = wireLengths (unasked.filter isHello) + wireLengths ((blocksOf unasked).map .block) := by
    clear h1 h4 e1
    induction unasked with
    | nil => rfl
    | cons m l ih =>
      have ih := ih fun m hm => h3 m (List.mem_cons_of_mem _ hm)
      rcases h3 m (List.mem_cons_self ..) with hm | ⟨b, rfl⟩
      · have : blocksOf (m :: l) = blocksOf l := by cases m <;> first | rfl | cases hm
        rw [List.filter_cons_of_pos hm, this, lengths_cons, lengths_cons, ih]
        omega
      · have : blocksOf (.block b :: l) = b :: blocksOf l := rfl
        rw [List.filter_cons_of_neg (by simp [isHello]), this, List.map_cons, lengths_cons, lengths_cons, ih]
        omega
  obtain ⟨k, p, q⟩ := h4
  have e3 := lengths_subperm ⟨k.map (Message.block (E := E)), p.map _, q.map _⟩
  omega

/-- What is written on a connection after the hand. -/
theorem conn_length {remote : Nat → String} {chain : Chain E} {mempool : Option (Transaction E → Out Unit)} {headHash : Bytes}
    (hh : HasHash chain.head headHash) {s : Program.State E} (h : Program.Reachable remote chain (sqlStorage E) mempool s)
    {fs : Nat → List (GoodFrame E)} {done : Nat → List (Message E)} (hc : Program.Counted s fs done)
    {x : Whole.Conn (Message E)} (hx : x ∈ s.pool.conns) :
    15 * x.peer.wire.length ≤ 15 * (42 + wireLengths ((((List.range s.pool.next).flatMap fun c => blocksOf (messagesOf (fs c))).filter
      fun b => b.header.height = chain.height).map .block)) + 2831 * (s.io x.id).arrived.length := by
  have hi := Program.inv_reachable h
  obtain ⟨node, n1, n2, n3, n4⟩ := hi.talks x hx
  obtain ⟨c1, c2, -, gs, ms, unh, es, late, c6, c7, c8, c9, -⟩ := C122_what_is_written LeavesEntries (fun _ _ h => h)
    (Program.sender remote x) node headHash (n1 ▸ hh) n3 _ n4
  rw [n1, n2] at c8
  obtain ⟨-, d2, -⟩ := C124_what_a_peer_sees remote chain (sqlStorage E) mempool headHash hh s h x hx
  have g := (Program.sent_reachable hh h).conns x hx
  have e1 : ((x.peer.threads.flatMap takenFrom)).Sublist (Program.handed x) := by
    unfold Program.handed
    generalize x.peer.threads = ts
    induction ts with
    | nil => exact List.Sublist.refl _
    | cons t ts ih =>
      rw [List.flatMap_cons, List.flatMap_cons]
      refine List.Sublist.append ?_ ih
      cases t with
      | sent m b => cases b <;> simp [takenFrom]
      | _ => exact List.nil_sublist _
  have e2 := (e1.filterMap _).subperm.trans (Program.blocks_handed h hc hx)
  have e3 : wireLengths (x.peer.threads.flatMap takenFrom) ≤ _ := unasked_length ((List.sublist_append_left _ x.peer.replies).subperm.trans c2.subperm) d2 (fun m hm => by
    obtain ⟨t, ht, hm⟩ := List.mem_flatMap.1 hm
    refine (g.source t ht m (.inr ?_)).imp id fun ⟨b, e, _⟩ => ⟨b, e⟩
    cases t with
    | sent m' b =>
      cases b with
      | true => exact ⟨true, by rw [List.mem_singleton.1 hm]⟩
      | false => cases hm
    | _ => cases hm) e2
  have e4 : x.peer.wire.length ≤ wireLengths x.peer.accepted := written_length c1
  have e5 : wireLengths (x.peer.threads.flatMap takenFrom ++ x.peer.replies) = wireLengths x.peer.accepted := lengths_perm c2
  have e6 := answers_length c8
  have e7 := least_stream gs
  have c9 : answersOf es = x.peer.replies ++ late := c9
  have c6 : (s.io x.id).arrived = streamOf gs ++ (s.io x.id).inbox := c6
  rw [c9, lengths_append] at e6
  rw [lengths_append] at e5
  rw [c7, List.map_append, List.sum_append] at e7
  rw [c6, List.length_append]
  omega

theorem hand_length {nonce : UInt64} {receiver : TCPAddr} {genesis data : Bytes} (hg : genesis.length = 32)
    (h : (ownHand nonce receiver genesis).bytes = .ok data) : (writeMessage MsgTypeHand data).1.length ≤ 106 := by
  have h1 : ((writeMessage MsgTypeHand data).1).length = 11 + data.length := by
    simp [writeMessage, Header.bytes, MagicCode]; omega
  have hs : serializeTCPAddr { ip := List.replicate 10 0 ++ [255, 255, 0, 0, 0, 0], port := 0 } =
      .ok ([0] ++ [0, 0, 0, 0] ++ be 2 0) := by decide +kernel
  simp only [Hand.bytes, ownHand, hs, Out.bind_ok] at h
  cases h2 : serializeTCPAddr receiver with
  | ok v =>
    rw [h2] at h
    have := addr_length h2
    simp only [Out.bind_ok, Out.pure_def] at h
    cases h
    have hu : userAgent.length = 13 := by decide
    rw [h1]
    simp [be_length, hg, hu]
    omega
  | _ => rw [h2] at h; cases h

end Gringo.Traffic
