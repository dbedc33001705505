import Verif.Props.Unspoken
import Verif.Props.Delivery
/-
C150: whether a peer is told what it did wrong.
-/
namespace Gringo.Props
open Gringo.Spec Gringo.P2P

variable {E : Env}

/-- The bytes of a frame of type `t`: magic, type, the length of the body as 8 bytes, the body. -/
def IsFrame (t : UInt8) (b : Bytes) : Prop :=
  ∃ body : Bytes, b = [0x54, 0x34, t] ++ be 8 (body.length % 2 ^ 64) ++ body

theorem frame_of_type {m : Message E} {b : Bytes} (h : m.frame = .ok b) : IsFrame m.type b := by
  obtain ⟨v, -, h⟩ : ∃ v, m.bytes = .ok v ∧ (writeMessage m.type v).1 = b := by
    unfold Message.frame at h
    cases hb : m.bytes with
    | ok v => rw [hb] at h; exact ⟨v, rfl, Out.ok.inj h⟩
    | _ => rw [hb] at h; cases h
  refine ⟨v, ?_⟩
  rw [← h]
  show (Header.mk [0x54, 0x34] m.type (UInt64.ofNat v.length)).bytes ++ v = _
  rw [(C01_header_roundtrip _ _).1, UInt64.toNat_ofNat']

/-- **C150 is false of the code.** Whatever comes in: what is written on a connection is the beginning of a sequence of
frames of type 3 to 6, 9 or 11, so never a frame of type 0 (error) or 18 (reason of a ban). -/
theorem C150_refuted (remote : Nat → String) (chain : Chain E) (storage : Storage E)
    (mempool : Option (Transaction E → Out Unit)) (headHash : Bytes) (hh : HasHash chain.head headHash)
    (s : Program.State E) (h : Program.Reachable remote chain storage mempool s) (x : Whole.Conn (Message E))
    (hx : x ∈ s.pool.conns) :
    ∃ frames : List Bytes, x.peer.wire <+: frames.flatten ∧
      ∀ b ∈ frames, ∃ t ∈ ([3, 4, 5, 6, 9, 11] : List UInt8), IsFrame t b := by
  obtain ⟨⟨done, last, frames, p, h1, -, h2, h3, h4⟩, said⟩ :=
    C149_refuted remote chain storage mempool headHash hh s h x hx
  have ty : ∀ m : Message E, Said m → m.type ∈ ([3, 4, 5, 6, 9, 11] : List UInt8) := by
    intro m hm; cases m <;> first | exact False.elim hm | (simp only [Message.type]; decide)
  have key : ∀ b ∈ frames, ∃ t ∈ ([3, 4, 5, 6, 9, 11] : List UInt8), IsFrame t b := by
    intro b hb
    obtain ⟨m, hm, he⟩ : ∃ m ∈ done, m.frame = .ok b := by
      clear h1 h3
      induction h2 with
      | nil => cases hb
      | cons a _ ih =>
        rcases List.mem_cons.1 hb with rfl | hb
        · exact ⟨_, List.mem_cons_self .., a⟩
        · obtain ⟨m, hm, he⟩ := ih hb
          exact ⟨m, List.mem_cons_of_mem _ hm, he⟩
    exact ⟨m.type, ty m (said m (by rw [h1]; exact List.mem_append_left _ hm)), frame_of_type he⟩
  rcases h4 with rfl | ⟨m, b, rfl, hb, hp⟩
  · exact ⟨frames, by rw [h3, List.append_nil], key⟩
  · refine ⟨frames ++ [b], by rw [h3, List.flatten_append]; simpa using hp, fun c hc => ?_⟩
    rcases List.mem_append.1 hc with hc | hc
    · exact key c hc
    · rw [List.mem_singleton.1 hc]
      exact ⟨m.type, ty m (said m (by rw [h1]; simp)), frame_of_type hb⟩

/-- **C150, the part that holds.** If a peer reports an error or the reason of a ban, or sends any other frame of a type
that is not supported, then what it sent before is handed on, that frame and what follows is not, and the connection is
ended. -/
theorem C150_heard_partial (E : Env) (hmem : 20000000 ≤ E.maxAlloc) (fs : List (GoodFrame E)) (t : UInt8)
    (ht : t ∉ ([3, 4, 5, 6, 7, 8, 9, 10, 11, 12, 13, 15] : List UInt8)) (body rest : Bytes)
    (h64 : body.length < 2 ^ 64) :
    (readHandler E (streamOf fs ++ (frameBytes t body ++ rest))).dispatched = messagesOf fs ∧
    (readHandler E (streamOf fs ++ (frameBytes t body ++ rest))).ending ≠ .flagged := by
  obtain ⟨h1, -, h2⟩ := C08_stops_at_fault E hmem fs (frameBytes t body ++ rest)
    (.undecodable t body rest h64 fun m hm => by cases hm <;> exact ht (by decide))
  exact ⟨h1.trans (C07_exact_split E hmem fs).1, h2⟩

/-- A run in which a connection was written to. -/
example (w : World) (hw : Program.Real w) :
    ∃ (b : Block Toy.env) (chain : Chain Toy.env) (s : Program.State Toy.env) (x y : Whole.Conn (Message Toy.env))
      (frames : List Bytes), Program.Reachable hostOf chain (sqlStorage _) none s ∧ s.pool.conns = [x, y] ∧
      y.peer.accepted = [.block b] ∧ y.peer.wire <+: frames.flatten ∧ ∀ f ∈ frames, ¬ IsFrame 0 f := by
  obtain ⟨f, b, chain, hf, hc, hb, hh, h0, -⟩ := sample_relay
  obtain ⟨s, x, y, h1, h2, -, -, h3, -⟩ := relayed_run chain (sqlStorage _) none w hw (by decide) f b hf hb hh h0
  obtain ⟨fr, h4, h5⟩ := C150_refuted hostOf chain _ none toyHash hc s h1 y (by rw [h2]; simp)
  refine ⟨b, chain, s, x, y, fr, h1, h2, h3, h4, fun f hf ⟨body, e⟩ => ?_⟩
  obtain ⟨t, ht, body', e'⟩ := h5 f hf
  rw [e] at e'
  injection e' with _ e'; injection e' with _ e'; injection e' with e' _
  subst e'
  exact absurd ht (by decide)

/-- An error message, of type 0, ends the connection. -/
example (m : PeerError) (rest : Bytes) (h : m.bytes.length < 2 ^ 64) :
    (readHandler Toy.env (frameBytes 0 m.bytes ++ rest)).dispatched = [] ∧
    (readHandler Toy.env (frameBytes 0 m.bytes ++ rest)).ending ≠ .flagged :=
  C150_heard_partial Toy.env (by decide) [] 0 (by decide) m.bytes rest h

end Gringo.Props
