import Verif.Model.Messages
import Verif.Props.Headers
/-
C01-C06, C21, C22: frame headers, control messages, message framing, header lists and addresses.
-/
namespace Gringo.Props
open Gringo.P2P Gringo.Spec

/-! ### C01 -/

/-- **C01, serialisation.** Eleven bytes: magic, type, big-endian length; reading them back gives the same
header and leaves the rest. -/
theorem C01_header_roundtrip (t : UInt8) (l : UInt64) :
    (Header.mk [0x54, 0x34] t l).bytes = [0x54, 0x34, t] ++ be 8 l.toNat ∧
    (Header.mk [0x54, 0x34] t l).bytes.length = 11 ∧
    Reads Header.read (Header.mk [0x54, 0x34] t l).bytes ⟨[0x54, 0x34], t, l⟩ := by
  refine ⟨rfl, by simp [Header.bytes], ?_⟩
  intro r
  have : Rd.readFull 2 ([0x54, 0x34] ++ (t :: (be64 l ++ r))) = (.ok [0x54, 0x34], t :: (be64 l ++ r)) :=
    Rd.readFull_append (n := 2) (b := [0x54, 0x34]) rfl _
  simp [Header.bytes, Header.read, MagicCode] at this ⊢
  simp [this]

theorem header_spelled (s : Bytes) (hl : 11 ≤ s.length) (hm : s.take 2 = [0x54, 0x34]) :
    ∃ (t : UInt8) (l : UInt64) (rest : Bytes), s = (Header.mk [0x54, 0x34] t l).bytes ++ rest := by
  have e : s = [0x54, 0x34] ++ s.drop 2 := by rw [← hm, List.take_append_drop]
  have hd : (s.drop 2).length = s.length - 2 := List.length_drop
  obtain ⟨t, u, hu⟩ : ∃ t u, s.drop 2 = t :: u := by
    cases h : s.drop 2 with
    | nil => rw [h] at hd; simp at hd; omega
    | cons a b => exact ⟨a, b, rfl⟩
  have hul : u.length = s.length - 3 := by rw [hu] at hd; simp at hd; omega
  have e8 : be 8 (ofBE (u.take 8)) = u.take 8 := by
    have := be_ofBE (u.take 8)
    rwa [List.length_take, Nat.min_eq_left (by omega)] at this
  have hlt : ofBE (u.take 8) < 2 ^ 64 := by
    have := ofBE_lt (u.take 8)
    rw [List.length_take, Nat.min_eq_left (by omega)] at this
    exact this
  have h64 : (UInt64.ofNat (ofBE (u.take 8))).toNat = ofBE (u.take 8) := by
    rw [UInt64.toNat_ofNat']; exact Nat.mod_eq_of_lt hlt
  refine ⟨t, UInt64.ofNat (ofBE (u.take 8)), u.drop 8, ?_⟩
  conv => lhs; rw [e, hu, ← List.take_append_drop 8 u, ← e8]
  simp only [Header.bytes, be64, h64, List.cons_append, List.nil_append]

/-- **C01, acceptance.** A header is read from exactly the streams of at least 11 bytes that start with
the magic code. -/
theorem C01_accepts_iff (s : Bytes) :
    (Header.read s).1.isOk = true ↔ 11 ≤ s.length ∧ s.take 2 = [0x54, 0x34] := by
  constructor
  · intro h
    cases hr : Header.read s with
    | mk o r =>
      rw [hr] at h
      cases o with
      | ok hd =>
        simp only [Header.read, Rd.bind_run] at hr
        obtain ⟨m, r1, h1, hr2⟩ := cont_eq_ok hr
        obtain ⟨e1, hl⟩ := Rd.readFull_ok h1
        split at hr2
        · simp at hr2
        · rename_i hm
          simp only [Rd.u8, Rd.u64, Rd.bind_run] at hr2
          obtain ⟨t, r2, h2, hr3⟩ := cont_eq_ok hr2
          obtain ⟨t', r2', h2', -⟩ := cont_eq_ok h2
          obtain ⟨e2, l2⟩ := Rd.readFull_ok h2'
          rw [h2'] at h2
          simp only [Rd.cont_ok, Rd.pure_run, Prod.mk.injEq, Out.ok.injEq] at h2
          simp only [Rd.bind_run] at hr3
          obtain ⟨l, r3, h3, -⟩ := cont_eq_ok hr3
          obtain ⟨l', r3', h3', -⟩ := cont_eq_ok h3
          obtain ⟨e3, l3⟩ := Rd.readFull_ok h3'
          have hm' : m = [0x54, 0x34] := by simpa [MagicCode] using hm
          refine ⟨?_, by rw [e1, List.take_left' hl, hm']⟩
          have i1 := congrArg List.length e1
          have i2 := congrArg List.length e2
          have i3 := congrArg List.length e3
          rw [← h2.2] at i3
          simp only [List.length_append] at i1 i2 i3
          omega
      | err e => cases h
      | panic e => cases h
      | fatal e => cases h
  · rintro ⟨hl, hm⟩
    obtain ⟨t, l, rest, e⟩ := header_spelled s hl hm
    rw [e, (C01_header_roundtrip _ _).2.2]
    rfl

/-- **C01, converse of the round trip.** A decoded header is the one the consumed bytes spell. -/
theorem C01_decoded (s r : Bytes) (h : Header) (hr : Header.read s = (.ok h, r)) :
    h.magic = [0x54, 0x34] ∧ s = [0x54, 0x34, h.type] ++ be 8 h.len.toNat ++ r := by
  obtain ⟨hl, hm⟩ := (C01_accepts_iff s).1 (by rw [hr]; rfl)
  obtain ⟨t, l, rest, e⟩ := header_spelled s hl hm
  rw [e, (C01_header_roundtrip _ _).2.2] at hr
  obtain ⟨h1, h2⟩ := Prod.mk.inj hr
  cases h1
  exact ⟨rfl, by rw [← h2]; conv => lhs; rw [e, (C01_header_roundtrip _ _).1]⟩

example : (Header.read [0x54, 0x34, 3, 0, 0, 0, 0, 0, 0, 0, 16, 1, 2]).1.isOk = true := by decide
example : (Header.read [0x54, 0x35, 3, 0, 0, 0, 0, 0, 0, 0, 16, 1, 2]).1.isOk = false := by decide

/-! ### C02 -/

/-- **C02, Ping and Pong**: difficulty then height, eight bytes each. -/
theorem C02_ping (p : Ping) :
    p.bytes = be 8 p.totalDifficulty.toNat ++ be 8 p.height.toNat ∧ Reads Ping.read p.bytes p :=
  ⟨rfl, fun r => by simp [Ping.bytes, Ping.read]⟩

theorem C02_pong (p : Pong) : Reads Ping.read (Ping.bytes p) p := (C02_ping p).2

/-- **C02, GetPeerAddrs**: four bytes. -/
theorem C02_get_peer_addrs (p : GetPeerAddrs) :
    p.bytes = be 4 p.capabilities.toNat ∧ Reads GetPeerAddrs.read p.bytes p :=
  ⟨rfl, fun r => by simp [GetPeerAddrs.bytes, GetPeerAddrs.read]⟩

/-- **C02, GetBlock**: the 32-byte hash itself; a hash of another length is not serialised. -/
theorem C02_get_block (g : GetBlock) :
    (g.hash.length = 32 → g.bytes = .ok g.hash ∧ Reads GetBlock.read g.hash g) ∧
    (g.hash.length ≠ 32 → ∃ m, g.bytes = .fatal m) := by
  constructor
  · intro h
    refine ⟨by simp [GetBlock.bytes, BlockHashSize, h], fun r => ?_⟩
    simp [GetBlock.read, Rd.readFull_append (n := BlockHashSize) h]
  · intro h
    exact ⟨_, by rw [GetBlock.bytes, if_pos (show g.hash.length ≠ BlockHashSize from h)]⟩

/-- **C02, PeerError**: code, length, text; for every text whose length can be allocated. -/
theorem C02_peer_error (E : Env) (p : PeerError) (h64 : p.message.length < 2 ^ 64)
    (hmem : p.message.length ≤ E.maxAlloc) :
    p.bytes = be 4 p.code.toNat ++ be 8 p.message.length ++ p.message ∧
      Reads (PeerError.read E) p.bytes p := by
  have h : (UInt64.ofNat p.message.length).toNat = p.message.length := by
    rw [UInt64.toNat_ofNat']; exact Nat.mod_eq_of_lt h64
  refine ⟨by simp only [PeerError.bytes, be32, be64, h], fun r => ?_⟩
  simp only [PeerError.bytes, PeerError.read, List.append_assoc, Rd.bind_run, Rd.u32_be32, Rd.cont_ok,
    Rd.u64_be64, h, Rd.make_ok (size := 1) (by omega : p.message.length * 1 ≤ E.maxAlloc),
    Rd.readFull_append rfl, Rd.pure_run]

example : ∃ p : PeerError, p.message ≠ [] ∧ Reads (PeerError.read Toy.env) p.bytes p :=
  ⟨⟨7, [104, 105]⟩, by decide, (C02_peer_error Toy.env ⟨7, [104, 105]⟩ (by decide) (by decide)).2⟩

/-! ### C03-C06 -/

/-- A limited header read takes the header and nothing else. -/
theorem limited_header (t : UInt8) (l : UInt64) (rest : Bytes) :
    Rd.limit HeaderLen.toNat Header.read ([0x54, 0x34, t] ++ be64 l ++ rest) =
      (.ok ⟨[0x54, 0x34], t, l⟩, rest) := by
  obtain ⟨h1, h2, h3⟩ := C01_header_roundtrip t l
  have h := (Reads.limit h3) rest
  rw [h2, h1] at h
  exact h

/-- **C03.** For every message kind (type, decoder) and value with body `b`: what `WriteMessage` writes is
read back by `ReadMessage`, both report `11 + |b|`, what follows is untouched. -/
theorem C03_roundtrip {α : Type} (t : UInt8) (rd : Rd α) (b : Bytes) (a : α) (hrd : Reads rd b a)
    (hlen : b.length ≤ 20000000) :
    (writeMessage t b).2.toNat = 11 + b.length ∧ (writeMessage t b).1.length = 11 + b.length ∧
    ∃ n : UInt64, n.toNat = 11 + b.length ∧ Reads (readMessage t rd) (writeMessage t b).1 (a, n) := by
  have h64 : (UInt64.ofNat b.length).toNat = b.length := by
    rw [UInt64.toNat_ofNat']; exact Nat.mod_eq_of_lt (by omega)
  have hn : (UInt64.ofNat b.length + HeaderLen).toNat = 11 + b.length := by
    rw [UInt64.toNat_add, h64]
    have : HeaderLen.toNat = 11 := rfl
    rw [this]; omega
  have hn2 : (HeaderLen + UInt64.ofNat b.length).toNat = 11 + b.length := by
    rw [UInt64.add_comm]; exact hn
  refine ⟨hn, by simp [writeMessage, Header.bytes, MagicCode]; omega, _, hn2, ?_⟩
  intro r
  have e : (writeMessage t b).1 ++ r = [0x54, 0x34, t] ++ be64 (UInt64.ofNat b.length) ++ (b ++ r) := by
    simp [writeMessage, Header.bytes, MagicCode]
  have hbig : ¬ UInt64.ofNat b.length > MaxMsgLen := by
    intro h
    have := UInt64.lt_iff_toNat_lt.1 h
    rw [h64] at this
    have h2 : MaxMsgLen.toNat = 20000000 := rfl
    omega
  rw [e, readMessage, Rd.bind_run, limited_header, Rd.cont_ok]
  simp only [ne_eq, not_true, if_false]
  rw [if_neg hbig, Rd.bind_run, h64, Reads.limit hrd r]
  rfl

/-- **C04.** Wrong magic, another type, a length above 20000000 or a stream shorter than a header give an
error whose text and stream position do not depend on the body decoder: it is not run. -/
theorem C04_refuses (t : UInt8) (s : Bytes)
    (hbad : s.length < 11 ∨ s.take 2 ≠ [0x54, 0x34] ∨
      (∃ (t' : UInt8) (l : UInt64) (rest : Bytes), s = [0x54, 0x34, t'] ++ be 8 l.toNat ++ rest ∧
        (t' ≠ t ∨ 20000000 < l.toNat))) :
    ∃ e left, ∀ (α : Type) (rd : Rd α), readMessage t rd s = (.err e, left) := by
  have hHL : HeaderLen.toNat = 11 := rfl
  have short : (s.length < 11 ∨ s.take 2 ≠ [0x54, 0x34]) →
      ∃ e left, ∀ (α : Type) (rd : Rd α), readMessage t rd s = (.err e, left) := by
    intro h
    have hno : ¬ (Header.read (s.take 11)).1.isOk = true := by
      rw [C01_accepts_iff]
      rintro ⟨a, b⟩
      rw [List.length_take] at a
      rw [List.take_take] at b
      rcases h with h | h
      · omega
      · exact h b
    have hsafe : NeverCrashes Header.read := by
      unfold Header.read
      exact (NeverCrashes.readFull 2).bind fun m => NeverCrashes.ite (fun _ => .fail _) fun _ =>
        NeverCrashes.u8.bind fun _ => NeverCrashes.u64.bind fun _ => .pure _
    have hs := hsafe (s.take 11)
    cases hr : Header.read (s.take 11) with
    | mk o r =>
      rw [hr] at hno hs
      cases o with
      | ok a => exact absurd rfl hno
      | err e =>
        refine ⟨e, r ++ s.drop 11, fun α rd => ?_⟩
        rw [readMessage, Rd.bind_run, Rd.limit, hHL, hr]
        rfl
      | panic e => exact hs.elim
      | fatal e => exact hs.elim
  rcases hbad with h | h | ⟨t', l, rest, rfl, h⟩
  · exact short (.inl h)
  · exact short (.inr h)
  · have key : ∀ (α : Type) (rd : Rd α), readMessage t rd ([0x54, 0x34, t'] ++ be 8 l.toNat ++ rest) =
        (if t' ≠ t then Rd.fail "receive unexpected message type"
          else if l > MaxMsgLen then Rd.fail "too big message size"
          else do
            let a ← Rd.limit l.toNat rd
            pure (a, HeaderLen + l)) rest := by
      intro α rd
      have := limited_header t' l rest
      rw [readMessage, Rd.bind_run]
      rw [show be 8 l.toNat = be64 l from rfl, this, Rd.cont_ok]
    by_cases ht : t' ≠ t
    · refine ⟨"receive unexpected message type", rest, fun α rd => ?_⟩
      rw [key, if_pos ht]
      rfl
    · have hl : l > MaxMsgLen := by
        apply UInt64.lt_iff_toNat_lt.2
        have h2 : MaxMsgLen.toNat = 20000000 := rfl
        rw [h2]
        exact h.resolve_left ht
      refine ⟨"too big message size", rest, fun α rd => ?_⟩
      rw [key, if_neg ht, if_pos hl]
      rfl

/-- **C05.** Whatever the decoder does on the bytes it is given, everything beyond the announced body is
still in the stream afterwards, and the decoder was given no other bytes: its result depends only on the
first `Len` bytes of the body. -/
theorem C05_within_frame {α : Type} (t : UInt8) (rd : Rd α) (t' : UInt8) (l : UInt64) (rest : Bytes) :
    (∃ q, (readMessage t rd ([0x54, 0x34, t'] ++ be 8 l.toNat ++ rest)).2 = q ++ rest.drop l.toNat) ∧
    (∀ rest', rest'.take l.toNat = rest.take l.toNat →
      (readMessage t rd ([0x54, 0x34, t'] ++ be 8 l.toNat ++ rest')).1 =
        (readMessage t rd ([0x54, 0x34, t'] ++ be 8 l.toNat ++ rest)).1) ∧
    (TakesPrefix rd → (readMessage t rd ([0x54, 0x34, t'] ++ be 8 l.toNat ++ rest)).2 <:+ rest) := by
  have key : ∀ rest : Bytes, readMessage t rd ([0x54, 0x34, t'] ++ be 8 l.toNat ++ rest) =
      (if t' ≠ t then Rd.fail "receive unexpected message type"
        else if l > MaxMsgLen then Rd.fail "too big message size"
        else do
          let a ← Rd.limit l.toNat rd
          pure (a, HeaderLen + l)) rest := by
    intro rest
    have := limited_header t' l rest
    rw [readMessage, Rd.bind_run]
    rw [show be 8 l.toNat = be64 l from rfl, this, Rd.cont_ok]
  simp only [key]
  by_cases ht : t' ≠ t
  · simp only [if_pos ht, Rd.fail_run]
    exact ⟨⟨_, (List.take_append_drop _ _).symm⟩, by simp, fun _ => List.suffix_refl _⟩
  · simp only [if_neg ht]
    by_cases hl : l > MaxMsgLen
    · simp only [if_pos hl, Rd.fail_run]
      exact ⟨⟨_, (List.take_append_drop _ _).symm⟩, by simp, fun _ => List.suffix_refl _⟩
    · simp only [if_neg hl, Rd.bind_run]
      have e2 : ∀ rest, (Rd.cont (Rd.limit l.toNat rd rest) fun a => (pure (a, HeaderLen + l) : Rd _)).2 =
          (rd (rest.take l.toNat)).2 ++ rest.drop l.toNat := by
        intro rest
        unfold Rd.limit
        cases (rd (rest.take l.toNat)).1 <;> rfl
      have e1 : ∀ rest rest', (rd (rest.take l.toNat)).1 = (rd (rest'.take l.toNat)).1 →
          (Rd.cont (Rd.limit l.toNat rd rest) fun a => (pure (a, HeaderLen + l) : Rd _)).1 =
          (Rd.cont (Rd.limit l.toNat rd rest') fun a => (pure (a, HeaderLen + l) : Rd _)).1 := by
        intro rest rest' h
        unfold Rd.limit
        rw [h]
        cases (rd (rest'.take l.toNat)).1 <;> rfl
      refine ⟨⟨_, e2 rest⟩, fun rest' h => e1 rest' rest (by rw [h]), fun hp => ?_⟩
      rw [e2]
      exact TakesPrefix.limit hp l.toNat rest

/-- **C06, exact position.** If the decoder needs only the front part `b` of a body `b ++ junk`, the rest of
the body is left in the stream in front of the next frame. -/
theorem C06_position_partial {α : Type} (t : UInt8) (rd : Rd α) (b junk rest : Bytes) (a : α)
    (hrd : Reads rd b a) (hlen : (b ++ junk).length ≤ 20000000) :
    ∃ n, readMessage t rd ((writeMessage t (b ++ junk)).1 ++ rest) = (.ok (a, n), junk ++ rest) := by
  have h64 : (UInt64.ofNat (b ++ junk).length).toNat = (b ++ junk).length := by
    rw [UInt64.toNat_ofNat']; exact Nat.mod_eq_of_lt (by omega)
  have e : (writeMessage t (b ++ junk)).1 ++ rest =
      [0x54, 0x34, t] ++ be64 (UInt64.ofNat (b ++ junk).length) ++ (b ++ junk ++ rest) := by
    simp [writeMessage, Header.bytes, MagicCode]
  have hbig : ¬ UInt64.ofNat (b ++ junk).length > MaxMsgLen := by
    intro h
    have := UInt64.lt_iff_toNat_lt.1 h
    rw [h64] at this
    have h2 : MaxMsgLen.toNat = 20000000 := rfl
    omega
  refine ⟨HeaderLen + UInt64.ofNat (b ++ junk).length, ?_⟩
  rw [e, readMessage, Rd.bind_run, limited_header, Rd.cont_ok]
  simp only [ne_eq, not_true, if_false]
  rw [if_neg hbig, Rd.bind_run, h64, Rd.limit]
  rw [List.take_left' rfl, List.drop_left' rfl, hrd junk]
  rfl

/-- **C06 is false of the code.** A Ping whose body is followed, inside its frame, by a forged frame: the
next `ReadMessage` on the connection returns the forged message, not the one the sender framed next. -/
theorem C06_refuted (p forged next : Ping) (rest : Bytes) :
    ∃ n s, readMessage MsgTypePing Ping.read
        ((writeMessage MsgTypePing (p.bytes ++ (writeMessage MsgTypePing forged.bytes).1)).1 ++
          (writeMessage MsgTypePing next.bytes).1 ++ rest) = (.ok (p, n), s) ∧
      ∃ n' s', readMessage MsgTypePing Ping.read s = (.ok (forged, n'), s') := by
  obtain ⟨n, h⟩ := C06_position_partial MsgTypePing Ping.read p.bytes
    (writeMessage MsgTypePing forged.bytes).1 ((writeMessage MsgTypePing next.bytes).1 ++ rest) p
    (C02_ping p).2 (by simp [Ping.bytes, writeMessage, Header.bytes, MagicCode])
  obtain ⟨-, -, n', -, h'⟩ := C03_roundtrip MsgTypePing Ping.read forged.bytes forged (C02_ping forged).2
    (by simp [Ping.bytes])
  refine ⟨n, _, by rw [List.append_assoc]; exact h, n', _, h' _⟩

/-! ### C21 -/

theorem headersBytes_reads (E : Env) (hmem : 336 ≤ E.maxAlloc) : ∀ (l : List BlockHeader),
    (∀ h ∈ l, WellFormedHeader h) →
    ∃ v, headersBytes l = .ok v ∧ Reads (Rd.readMany l.length (BlockHeader.read E)) v (l.map onWire)
  | [], _ => ⟨[], rfl, Reads.pure _⟩
  | h :: t, wf => by
    obtain ⟨v, hv, -, hr⟩ := C12_header_roundtrip E hmem h (wf h (List.mem_cons_self ..))
    obtain ⟨w, hw, hr'⟩ := headersBytes_reads E hmem t (fun x hx => wf x (List.mem_cons_of_mem _ hx))
    refine ⟨v ++ w, by simp [headersBytes, hv, hw], ?_⟩
    rw [List.length_cons, Rd.readMany, List.map_cons]
    apply Reads.bind hr
    have := Reads.bind (f := fun l => pure (onWire h :: l)) hr' (Reads.pure _)
    rwa [List.append_nil] at this

/-- **C21.** Up to 512 well-formed headers: the message is read back (each header as far as the wire
carries it). -/
theorem C21_headers_roundtrip (E : Env) (hmem : 524288 ≤ E.maxAlloc) (m : BlockHeaders)
    (hn : m.headers.length ≤ 512) (wf : ∀ h ∈ m.headers, WellFormedHeader h) :
    ∃ v, m.bytes = .ok v ∧ Reads (BlockHeaders.read E) v ⟨m.headers.map onWire⟩ := by
  obtain ⟨w, hw, hr⟩ := headersBytes_reads E (by omega) m.headers wf
  refine ⟨be16 (UInt16.ofNat m.headers.length) ++ w, ?_, ?_⟩
  · rw [BlockHeaders.bytes, if_neg (by unfold MaxBlockHeaders; omega), hw]; rfl
  · intro r
    have h16 : (UInt16.ofNat m.headers.length).toNat = m.headers.length := by
      rw [UInt16.toNat_ofNat']; exact Nat.mod_eq_of_lt (by omega)
    rw [List.append_assoc, BlockHeaders.read, Rd.bind_run, Rd.u16_be16, Rd.cont_ok,
      if_neg (by rw [h16]; unfold MaxBlockHeaders; omega), Rd.bind_run, h16,
      Rd.make_ok (by omega), Rd.cont_ok, Rd.bind_run, hr r]
    rfl

/-- **C21, limit.** A decoded message has at most 512 headers, all well-formed; more are not serialised. -/
theorem C21_headers_limit (E : Env) :
    (∀ s r m, BlockHeaders.read E s = (.ok m, r) →
      m.headers.length ≤ 512 ∧ ∀ h ∈ m.headers, WellFormedHeader h ∧ onWire h = h) ∧
    (∀ m : BlockHeaders, 512 < m.headers.length → ∃ e, m.bytes = .fatal e) := by
  constructor
  · intro s r m h
    simp only [BlockHeaders.read, Rd.bind_run] at h
    obtain ⟨c, r1, h1, h⟩ := cont_eq_ok h
    split at h
    · simp at h
    · rename_i hc
      simp only [Rd.bind_run] at h
      obtain ⟨_, r2, h2, h⟩ := cont_eq_ok h
      simp only [Rd.bind_run] at h
      obtain ⟨l, r3, h3, h⟩ := cont_eq_ok h
      simp only [Rd.pure_run, Prod.mk.injEq, Out.ok.injEq] at h
      obtain ⟨rfl, rfl⟩ := h
      refine ⟨by rw [readMany_length h3]; unfold MaxBlockHeaders at hc; omega, ?_⟩
      exact readMany_forall (p := fun h => WellFormedHeader h ∧ onWire h = h)
        (fun ha => C13_decoded_shape E _ _ _ ha) h3
  · intro m h
    exact ⟨_, by rw [BlockHeaders.bytes, if_pos (by unfold MaxBlockHeaders; omega)]⟩

example : ∃ v, (BlockHeaders.mk [sampleHeader, sampleHeader]).bytes = .ok v ∧
    Reads (BlockHeaders.read Toy.env) v ⟨[sampleHeader, sampleHeader].map onWire⟩ :=
  C21_headers_roundtrip Toy.env (by decide) _ (by decide) (by
    intro h hh
    simp at hh
    rw [hh]; exact sampleHeader_wf)

/-! ### C22 -/

/-- A four-byte (IPv4) address with a 16-bit port. -/
def IPv4 (a : TCPAddr) : Prop := a.ip.length = 4 ∧ 0 ≤ a.port ∧ a.port < 65536

theorem port_u16 {a : TCPAddr} (h0 : 0 ≤ a.port) (h1 : a.port < 65536) :
    ((portBits a.port).toNat : Int) = a.port := by
  rw [portBits, UInt16.toNat_ofNat']
  omega

/-- **C22, IPv4.** -/
theorem C22_ipv4_partial (a : TCPAddr) (h : IPv4 a) :
    ∃ v, serializeTCPAddr a = .ok v ∧ v.length = 7 ∧ Reads deserializeTCPAddr v a := by
  obtain ⟨h4, h0, h1⟩ := h
  refine ⟨[0] ++ a.ip ++ be16 (portBits a.port), by simp [serializeTCPAddr, to4, h4], by simp [h4], ?_⟩
  intro r
  obtain ⟨ip, port⟩ := a
  have hp := port_u16 (a := ⟨ip, port⟩) h0 h1
  simp only at hp h4
  simp [deserializeTCPAddr, Rd.readFull_append h4, hp]

/-- **C22, IPv4 in 16-byte form** (`::ffff:a.b.c.d`): the same address comes back in 4-byte form. -/
theorem C22_mapped_partial (ip4 : Bytes) (port : Int) (h4 : ip4.length = 4) (h0 : 0 ≤ port) (h1 : port < 65536) :
    ∃ v, serializeTCPAddr ⟨List.replicate 10 0 ++ [255, 255] ++ ip4, port⟩ = .ok v ∧
      Reads deserializeTCPAddr v ⟨ip4, port⟩ := by
  obtain ⟨v, hv, -, hr⟩ := C22_ipv4_partial ⟨ip4, port⟩ ⟨h4, h0, h1⟩
  refine ⟨v, ?_, hr⟩
  rw [← hv]
  have hto : to4 (List.replicate 10 0 ++ [255, 255] ++ ip4) = some ip4 := by
    unfold to4
    rw [if_neg (by simp [h4]), if_pos]
    · simp
    · refine ⟨by simp [h4], ?_, ?_⟩ <;> simp
  simp [serializeTCPAddr, to4, h4]

/-- **C22 is false of the code for IPv6.** No IPv6 address survives: eight of its sixteen bytes are not
written, and reading what was written is always an error. -/
theorem C22_refuted (a : TCPAddr) (h16 : a.ip.length = 16)
    (hv6 : ¬ (a.ip.take 10 = List.replicate 10 0 ∧ (a.ip.drop 10).take 2 = [255, 255])) :
    ∃ v, serializeTCPAddr a = .ok v ∧ v.length = 11 ∧
      ∀ rest, ∃ e, (deserializeTCPAddr (v ++ rest)).1 = .err e := by
  have hto : to4 a.ip = none := by
    unfold to4
    rw [if_neg (by omega), if_neg (fun h => hv6 h.2)]
  refine ⟨[1] ++ a.ip.take 8 ++ be16 (portBits a.port), by simp [serializeTCPAddr, hto, h16],
    by simp [h16], fun rest => ?_⟩
  obtain ⟨x, y, t, ht⟩ : ∃ x y t, a.ip = x :: y :: t := by
    match hip : a.ip with
    | [] => simp [hip] at h16
    | [_] => simp [hip] at h16
    | x :: y :: t => exact ⟨x, y, t, rfl⟩
  have : [1] ++ a.ip.take 8 ++ be16 (portBits a.port) ++ rest =
      1 :: ([x, y] ++ (t.take 6 ++ be16 (portBits a.port) ++ rest)) := by simp [ht]
  rw [this]
  refine ⟨"binary.Read: invalid type uint16", ?_⟩
  have h2 := Rd.readFull_append (n := 2) (b := [x, y]) rfl (t.take 6 ++ be16 (portBits a.port) ++ rest)
  simp only [deserializeTCPAddr, Rd.bind_run, Rd.u8_cons, Rd.cont_ok,
    if_neg (by decide : ¬ (1 : UInt8) = 0), if_pos, h2]
  rfl

theorem serializeAll_reads : ∀ (l : List TCPAddr), (∀ a ∈ l, IPv4 a) →
    ∃ v, serializeAll l = .ok v ∧ v.length = 7 * l.length ∧ Reads (Rd.readMany l.length deserializeTCPAddr) v l
  | [], _ => ⟨[], rfl, rfl, Reads.pure _⟩
  | a :: t, h => by
    obtain ⟨v, hv, hl, hr⟩ := C22_ipv4_partial a (h a (List.mem_cons_self ..))
    obtain ⟨w, hw, hl', hr'⟩ := serializeAll_reads t (fun x hx => h x (List.mem_cons_of_mem _ hx))
    refine ⟨v ++ w, by simp [serializeAll, hv, hw], by simp [hl, hl']; omega, ?_⟩
    rw [List.length_cons, Rd.readMany]
    apply Reads.bind hr
    have := Reads.bind (f := fun l => pure (a :: l)) hr' (Reads.pure _)
    rwa [List.append_nil] at this

/-- **C22, lists of up to 256 IPv4 addresses.** -/
theorem C22_list_partial (p : PeerAddrs) (hn : p.peers.length ≤ 256) (h : ∀ a ∈ p.peers, IPv4 a) :
    ∃ v, p.bytes = .ok v ∧ v.length = 4 + 7 * p.peers.length ∧ Reads PeerAddrs.read v p := by
  obtain ⟨w, hw, hl, hr⟩ := serializeAll_reads p.peers h
  refine ⟨be32 (UInt32.ofNat p.peers.length) ++ w, ?_, by simp [hl], ?_⟩
  · rw [PeerAddrs.bytes, if_neg (by unfold MaxPeerAddrs; omega), hw]; rfl
  · intro r
    have h32 : (UInt32.ofNat p.peers.length).toNat = p.peers.length := by
      rw [UInt32.toNat_ofNat']; exact Nat.mod_eq_of_lt (by omega)
    rw [List.append_assoc, PeerAddrs.read, Rd.bind_run, Rd.u32_be32, Rd.cont_ok,
      if_neg (by rw [h32]; unfold MaxPeerAddrs; omega), Rd.bind_run, h32, hr r]
    rfl

/-- **C22**: a list with an IPv6 address in it is lost as a whole, whatever else it contains. -/
theorem C22_refuted_list (pre post : List TCPAddr) (a : TCPAddr) (hpre : ∀ x ∈ pre, IPv4 x)
    (hn : (pre ++ a :: post).length ≤ 256) (h16 : a.ip.length = 16)
    (hv6 : ¬ (a.ip.take 10 = List.replicate 10 0 ∧ (a.ip.drop 10).take 2 = [255, 255])) (v : Bytes)
    (hv : (PeerAddrs.mk (pre ++ a :: post)).bytes = .ok v) (rest : Bytes) :
    ∃ e, (PeerAddrs.read (v ++ rest)).1 = .err e := by
  obtain ⟨va, hva, -, hbad⟩ := C22_refuted a h16 hv6
  rw [PeerAddrs.bytes, if_neg (by simp only; unfold MaxPeerAddrs; omega)] at hv
  have h32 : (UInt32.ofNat (pre ++ a :: post).length).toNat = (pre ++ a :: post).length := by
    rw [UInt32.toNat_ofNat']; exact Nat.mod_eq_of_lt (by omega)
  have key : ∀ (pre : List TCPAddr), (∀ x ∈ pre, IPv4 x) → ∀ w, serializeAll (pre ++ a :: post) = .ok w →
      ∀ r, ∃ e, (Rd.readMany (pre ++ a :: post).length deserializeTCPAddr (w ++ r)).1 = .err e := by
    intro pre
    induction pre with
    | nil =>
      intro _ w hw r
      rw [List.nil_append, serializeAll, hva, Out.bind_ok] at hw
      cases hp : serializeAll post with
      | ok w2 =>
        rw [hp] at hw; simp at hw; subst hw
        rw [List.nil_append, List.length_cons, Rd.readMany, Rd.bind_run, List.append_assoc]
        obtain ⟨e, he⟩ := hbad (w2 ++ r)
        cases hq : deserializeTCPAddr (va ++ (w2 ++ r)) with
        | mk o s => rw [hq] at he; simp only at he; subst he; exact ⟨e, rfl⟩
      | err e => rw [hp] at hw; simp at hw
      | panic e => rw [hp] at hw; simp at hw
      | fatal e => rw [hp] at hw; simp at hw
    | cons b t ih =>
      intro hb w hw r
      obtain ⟨vb, hvb, -, hrb⟩ := C22_ipv4_partial b (hb b (List.mem_cons_self ..))
      rw [List.cons_append, serializeAll, hvb, Out.bind_ok] at hw
      cases hp : serializeAll (t ++ a :: post) with
      | ok w2 =>
        rw [hp] at hw; simp at hw; subst hw
        rw [List.cons_append, List.length_cons, Rd.readMany, Rd.bind_run, List.append_assoc, hrb, Rd.cont_ok,
          Rd.bind_run]
        obtain ⟨e, he⟩ := ih (fun x hx => hb x (List.mem_cons_of_mem _ hx)) w2 hp r
        cases hq : Rd.readMany (t ++ a :: post).length deserializeTCPAddr (w2 ++ r) with
        | mk o s => rw [hq] at he; simp only at he; subst he; exact ⟨e, rfl⟩
      | err e => rw [hp] at hw; simp at hw
      | panic e => rw [hp] at hw; simp at hw
      | fatal e => rw [hp] at hw; simp at hw
  simp only at hv
  cases hs : serializeAll (pre ++ a :: post) with
  | ok w =>
    rw [hs] at hv
    simp only [Out.bind_ok, Out.pure_def, Out.ok.injEq] at hv
    subst hv
    obtain ⟨e, he⟩ := key pre hpre w hs rest
    rw [List.append_assoc, PeerAddrs.read, Rd.bind_run, Rd.u32_be32, Rd.cont_ok,
      if_neg (by rw [h32]; unfold MaxPeerAddrs; omega), Rd.bind_run, h32]
    cases hq : Rd.readMany (pre ++ a :: post).length deserializeTCPAddr (w ++ rest) with
    | mk o s => rw [hq] at he; simp only at he; subst he; exact ⟨e, rfl⟩
  | err e => rw [hs] at hv; simp at hv
  | panic e => rw [hs] at hv; simp at hv
  | fatal e => rw [hs] at hv; simp at hv

/-- **C22, decoding.** A decoded list has at most 256 addresses, all IPv4. -/
theorem C22_decoded (s r : Bytes) (p : PeerAddrs) (h : PeerAddrs.read s = (.ok p, r)) :
    p.peers.length ≤ 256 ∧ ∀ a ∈ p.peers, IPv4 a := by
  simp only [PeerAddrs.read, Rd.bind_run] at h
  obtain ⟨c, r1, h1, h⟩ := cont_eq_ok h
  split at h
  · simp at h
  · rename_i hc
    simp only [Rd.bind_run] at h
    obtain ⟨l, r3, h3, h⟩ := cont_eq_ok h
    simp only [Rd.pure_run, Prod.mk.injEq, Out.ok.injEq] at h
    obtain ⟨rfl, rfl⟩ := h
    refine ⟨by rw [readMany_length h3]; unfold MaxPeerAddrs at hc; omega, ?_⟩
    refine readMany_forall (p := IPv4) (fun {s a r} ha => ?_) h3
    simp only [deserializeTCPAddr, Rd.bind_run] at ha
    obtain ⟨f, r4, h4, ha⟩ := cont_eq_ok ha
    split at ha
    · simp only [Rd.bind_run] at ha
      obtain ⟨ip, r5, h5, ha⟩ := cont_eq_ok ha
      simp only [Rd.bind_run] at ha
      obtain ⟨port, r6, h6, ha⟩ := cont_eq_ok ha
      simp only [Rd.pure_run, Prod.mk.injEq, Out.ok.injEq] at ha
      obtain ⟨rfl, rfl⟩ := ha
      have := port.toNat_lt
      refine ⟨(Rd.readFull_ok h5).2, ?_, ?_⟩
      · exact Int.natCast_nonneg _
      · simp only; omega
    · split at ha
      · simp only [Rd.bind_run] at ha
        obtain ⟨_, _, _, ha⟩ := cont_eq_ok ha
        simp at ha
      · simp at ha

example : IPv4 ⟨[127, 0, 0, 1], 13414⟩ := ⟨rfl, by decide, by decide⟩
example : ∃ a : TCPAddr, a.ip.length = 16 ∧
    ¬ (a.ip.take 10 = List.replicate 10 0 ∧ (a.ip.drop 10).take 2 = [255, 255]) :=
  ⟨⟨[0x20, 0x01, 0x0d, 0xb8, 0, 0, 0, 0, 0, 0, 0, 0, 0, 0, 0, 1], 13414⟩, by decide⟩

end Gringo.Props
