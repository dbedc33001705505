import Verif.Spec.Frames
import Verif.Props.Handshake
import Verif.Props.Compact
import Mathlib.Tactic.NormNum
/-
C07-C09: the read loop of a connection.
-/
namespace Gringo.Props
open Gringo.P2P Gringo.Spec

theorem compact_read_header {E : Env} {s r : Bytes} {b : CompactBlock E}
    (h : CompactBlock.read E s = (.ok b, r)) : ∃ r1, BlockHeader.read E s = (.ok b.header, r1) := by
  simp only [CompactBlock.read, Rd.bind_run] at h
  obtain ⟨hd, r1, h1, h2⟩ := cont_eq_ok h
  simp only [Rd.bind_run] at h2
  obtain ⟨_, _, -, h3⟩ := cont_eq_ok h2
  simp only [Rd.bind_run] at h3
  obtain ⟨_, _, -, h4⟩ := cont_eq_ok h3
  simp only [Rd.bind_run] at h4
  obtain ⟨_, _, -, h5⟩ := cont_eq_ok h4
  simp only [Rd.bind_run] at h5
  obtain ⟨_, _, -, h6⟩ := cont_eq_ok h5
  simp only [Rd.bind_run] at h6
  obtain ⟨_, _, -, h7⟩ := cont_eq_ok h6
  simp only [Rd.bind_run] at h7
  obtain ⟨_, _, -, h8⟩ := cont_eq_ok h7
  simp only [Rd.bind_run] at h8
  obtain ⟨_, _, -, h9⟩ := cont_eq_ok h8
  simp only [Rd.bind_run] at h9
  obtain ⟨_, _, -, h10⟩ := cont_eq_ok h9
  simp only [Rd.bind_run] at h10
  obtain ⟨_, _, -, h11⟩ := cont_eq_ok h10
  simp only [Rd.pure_run, Prod.mk.injEq, Out.ok.injEq] at h11
  obtain ⟨rfl, -⟩ := h11
  exact ⟨r1, h1⟩

theorem hash_ok {E : Env} {s r : Bytes} {h : BlockHeader} (hr : BlockHeader.read E s = (.ok h, r)) :
    ∃ v, h.hash E = .ok v := by
  have := (C13_decoded_safe E s r h hr).2.1
  cases hh : h.hash E with
  | ok v => exact ⟨v, rfl⟩
  | _ => rw [hh] at this; cases this

/-- The decoding switch accepts exactly the frames of the specification. -/
theorem decodeBody_iff (E : Env) (t : UInt8) (body : Bytes) (m : Option (Message E)) :
    decodeBody E t body = .ok m ↔ Carries E t body m := by
  have run : ∀ {α : Type} (rd : Rd α) (f : α → Message E),
      runBody rd body (fun x => .ok (some (f x))) = .ok m ↔ ∃ x r, rd body = (.ok x, r) ∧ m = some (f x) := by
    intro α rd f
    unfold runBody
    rcases hx : rd body with ⟨o, r⟩
    cases o with
    | ok x =>
      simp only [Out.bind_ok, Out.ok.injEq, Prod.mk.injEq]
      constructor
      · intro h; exact ⟨x, r, ⟨rfl, rfl⟩, h.symm⟩
      · rintro ⟨y, _, ⟨rfl, -⟩, rfl⟩; rfl
    | err _ => simp
    | panic _ => simp
    | fatal _ => simp
  constructor
  · intro h
    unfold decodeBody at h
    by_cases ht : t = MsgTypePing
    · subst ht
      obtain ⟨x, r, h1, rfl⟩ := (run _ _).1 h; exact .ping _ _ _ h1
    rw [if_neg ht] at h; clear ht
    by_cases ht : t = MsgTypePong
    · subst ht
      obtain ⟨x, r, h1, rfl⟩ := (run _ _).1 h; exact .pong _ _ _ h1
    rw [if_neg ht] at h; clear ht
    by_cases ht : t = MsgTypeGetPeerAddrs
    · subst ht
      obtain ⟨x, r, h1, rfl⟩ := (run _ _).1 h; exact .getPeerAddrs _ _ _ h1
    rw [if_neg ht] at h; clear ht
    by_cases ht : t = MsgTypePeerAddrs
    · subst ht
      obtain ⟨x, r, h1, rfl⟩ := (run _ _).1 h; exact .peerAddrs _ _ _ h1
    rw [if_neg ht] at h; clear ht
    by_cases ht : t = MsgTypeGetHeaders
    · subst ht
      obtain ⟨x, r, h1, rfl⟩ := (run _ _).1 h; exact .getHeaders _ _ _ h1
    rw [if_neg ht] at h; clear ht
    by_cases ht : t = MsgTypeHeader
    · subst ht
      obtain ⟨x, r, h1, rfl⟩ := (run _ _).1 h; exact .header _ _ _ h1
    rw [if_neg ht] at h; clear ht
    by_cases ht : t = MsgTypeHeaders
    · subst ht
      obtain ⟨x, r, h1, rfl⟩ := (run _ _).1 h; exact .headers _ _ _ h1
    rw [if_neg ht] at h; clear ht
    by_cases ht : t = MsgTypeGetBlock
    · subst ht
      obtain ⟨x, r, h1, rfl⟩ := (run _ _).1 h; exact .getBlock _ _ _ h1
    rw [if_neg ht] at h; clear ht
    by_cases ht : t = MsgTypeBlock
    · subst ht
      replace h : runBody (Block.read E) body _ = .ok m := h
      unfold runBody at h
      rcases hx : Block.read E body with ⟨o, r⟩
      rw [hx] at h
      cases o with
      | ok b =>
        simp only [Out.bind_ok] at h
        rcases hh : b.header.hash E with v | _ | _ | _ <;> rw [hh] at h <;> simp at h
        subst h; exact .block _ _ _ hx
      | err _ => simp at h
      | panic _ => simp at h
      | fatal _ => simp at h
    rw [if_neg ht] at h; clear ht
    by_cases ht : t = MsgTypeGetCompactBlock
    · subst ht
      cases h; exact .getCompactBlock _
    rw [if_neg ht] at h; clear ht
    by_cases ht : t = MsgTypeCompactBlock
    · subst ht
      replace h : runBody (CompactBlock.read E) body _ = .ok m := h
      unfold runBody at h
      rcases hx : CompactBlock.read E body with ⟨o, r⟩
      rw [hx] at h
      cases o with
      | ok b =>
        simp only [Out.bind_ok] at h
        rcases hh : b.header.hash E with v | _ | _ | _ <;> rw [hh] at h <;> simp at h
        subst h; exact .compactBlock _ _ _ hx
      | err _ => simp at h
      | panic _ => simp at h
      | fatal _ => simp at h
    rw [if_neg ht] at h; clear ht
    by_cases ht : t = MsgTypeTransaction
    · subst ht
      obtain ⟨x, r, h1, rfl⟩ := (run _ _).1 h; exact .transaction _ _ _ h1
    rw [if_neg ht] at h; clear ht
    cases h
  · intro h
    cases h with
    | ping _ _ _ h => exact (run _ _).2 ⟨_, _, h, rfl⟩
    | pong _ _ _ h => exact (run _ _).2 ⟨_, _, h, rfl⟩
    | getPeerAddrs _ _ _ h => exact (run _ _).2 ⟨_, _, h, rfl⟩
    | peerAddrs _ _ _ h => exact (run _ _).2 ⟨_, _, h, rfl⟩
    | getHeaders _ _ _ h => exact (run _ _).2 ⟨_, _, h, rfl⟩
    | header _ _ _ h => exact (run _ _).2 ⟨_, _, h, rfl⟩
    | headers _ _ _ h => exact (run _ _).2 ⟨_, _, h, rfl⟩
    | getBlock _ _ _ h => exact (run _ _).2 ⟨_, _, h, rfl⟩
    | block _ r m h =>
      obtain ⟨⟨r1, h1⟩, -⟩ := block_read_ok h
      obtain ⟨v, hv⟩ := hash_ok h1
      show runBody (Block.read E) body _ = _
      simp [runBody, h, hv]
    | getCompactBlock => rfl
    | compactBlock _ r m h =>
      obtain ⟨r1, h1⟩ := compact_read_header h
      obtain ⟨v, hv⟩ := hash_ok h1
      show runBody (CompactBlock.read E) body _ = _
      simp [runBody, h, hv]
    | transaction _ _ _ h => exact (run _ _).2 ⟨_, _, h, rfl⟩

/-! ### One iteration -/

theorem be64_eq {n : Nat} (h : n < 2 ^ 64) : be 8 n = be64 (UInt64.ofNat n) := by
  rw [be64, UInt64.toNat_ofNat', Nat.mod_eq_of_lt h]

/-- A header is read off the front of the stream. -/
theorem header_read_frame (t : UInt8) (n : Nat) (h : n < 2 ^ 64) (s : Bytes) :
    Header.read ([0x54, 0x34, t] ++ be 8 n ++ s) =
      (.ok { magic := MagicCode, type := t, len := UInt64.ofNat n }, s) := by
  rw [be64_eq h]
  have e : [0x54, 0x34, t] ++ be64 (UInt64.ofNat n) ++ s = [0x54, 0x34] ++ (t :: (be64 (UInt64.ofNat n) ++ s)) := by
    simp
  rw [e, Header.read, Rd.bind_run, Rd.readFull_append (n := 2) (b := [0x54, 0x34]) rfl, Rd.cont_ok]
  rw [if_neg (by decide)]
  simp only [Rd.bind_run, Rd.u8_cons, Rd.cont_ok, Rd.u64_be64, Rd.pure_run]
  rfl

theorem readStep_good (E : Env) (hmem : 20000000 ≤ E.maxAlloc) (t : UInt8) (body : Bytes)
    (m : Option (Message E)) (hl : body.length ≤ 20000000) (hc : Carries E t body m) (rest : Bytes) :
    readStep E (frameBytes t body ++ rest) =
      .next m (UInt64.ofNat (frameBytes t body).length) rest := by
  have h64 : (UInt64.ofNat body.length).toNat = body.length := by
    rw [UInt64.toNat_ofNat']; exact Nat.mod_eq_of_lt (by omega)
  have hbig : ¬ UInt64.ofNat body.length > MaxMsgLen := by
    intro h
    have := UInt64.lt_iff_toNat_lt.1 h
    rw [h64] at this
    have h2 : MaxMsgLen.toNat = 20000000 := rfl
    omega
  have hcount : UInt64.ofNat body.length + HeaderLen = UInt64.ofNat (frameBytes t body).length := by
    have : (frameBytes t body).length = body.length + 11 := by
      simp only [frameBytes, List.length_append, be_length, List.length_cons, List.length_nil]; omega
    rw [this, UInt64.ofNat_add]; rfl
  rw [frameBytes, List.append_assoc ([0x54, 0x34, t] ++ be 8 body.length)]
  simp only [readStep, header_read_frame t body.length (by omega)]
  rw [if_neg hbig, h64]
  simp only [Rd.make_ok (size := 1) (by omega : body.length * 1 ≤ E.maxAlloc), Rd.readFull_append rfl,
    (decodeBody_iff E t body m).2 hc, hcount]
  rfl

/-- An iteration that goes on has consumed a good frame. -/
theorem readStep_next (E : Env) {s rest : Bytes} {m : Option (Message E)} {c : UInt64}
    (h : readStep E s = .next m c rest) :
    ∃ t body, body.length ≤ 20000000 ∧ Carries E t body m ∧ s = frameBytes t body ++ rest := by
  unfold readStep at h
  split at h
  case h_2 | h_3 | h_4 => cases h
  rename_i hd s1 hhd
  split at h
  · cases h
  rename_i hbig
  split at h
  case h_2 | h_3 | h_4 => cases h
  rename_i s2 hmk
  have hs : s2 = s1 := by
    unfold Rd.make at hmk
    split at hmk
    · exact (Prod.mk.inj hmk).2.symm
    · cases hmk
  subst hs
  split at h
  case h_2 => cases h
  rename_i body s3 hb
  split at h
  case h_2 | h_3 | h_4 => cases h
  rename_i m' hdec
  cases h
  obtain ⟨e1, hl⟩ := Rd.readFull_ok hb
  obtain ⟨-, e⟩ := C01_decoded _ _ _ hhd
  refine ⟨hd.type, body, ?_, (decodeBody_iff _ _ _ _).1 hdec, ?_⟩
  · rw [hl]
    have : ¬ (MaxMsgLen.toNat < hd.len.toNat) := fun h => hbig (UInt64.lt_iff_toNat_lt.2 h)
    have h2 : MaxMsgLen.toNat = 20000000 := rfl
    omega
  · rw [e, e1, frameBytes, hl]; simp

theorem frame_length (t : UInt8) (body : Bytes) : (frameBytes t body).length = 11 + body.length := by
  simp only [frameBytes, List.length_append, be_length, List.length_cons, List.length_nil]

/-- At a fault the loop stops. -/
theorem readStep_fault (E : Env) {s : Bytes} (h : Fault E s) : ∃ e, readStep E s = .stop e := by
  cases hs : readStep E s with
  | stop e => exact ⟨e, rfl⟩
  | next m c rest =>
    exfalso
    obtain ⟨t, body, hl, hc, e⟩ := readStep_next E hs
    have f8 : ∀ {a b : Nat} {x y : Bytes}, a < 2 ^ 64 → b < 2 ^ 64 → be 8 a ++ x = be 8 b ++ y → a = b ∧ x = y := by
      intro a b x y ha hb hab
      obtain ⟨h1, h2⟩ := List.append_inj hab (by simp [be_length])
      exact ⟨be_inj (by norm_num; omega) (by norm_num; omega) h1, h2⟩
    cases h with
    | ends _ h => rw [e, List.length_append, frame_length] at h; omega
    | magic a b s h =>
      simp only [frameBytes, List.cons_append, List.cons.injEq] at e
      exact h ⟨e.1, e.2.1⟩
    | oversized t' len s h h64 =>
      simp only [frameBytes, List.cons_append, List.append_assoc, List.nil_append, List.cons.injEq, true_and] at e
      obtain ⟨h1, -⟩ := f8 h64 (by omega) e.2
      omega
    | truncated t' len s h h64 =>
      simp only [frameBytes, List.cons_append, List.append_assoc, List.nil_append, List.cons.injEq, true_and] at e
      obtain ⟨h1, h2⟩ := f8 h64 (by omega) e.2
      rw [h2, List.length_append] at h
      omega
    | undecodable t' body' s h64 h =>
      simp only [frameBytes, List.cons_append, List.append_assoc, List.nil_append, List.cons.injEq, true_and] at e
      obtain ⟨h1, h2⟩ := f8 h64 (by omega) e.2
      obtain ⟨h3, -⟩ := List.append_inj h2 h1
      obtain ⟨rfl, -⟩ := e
      subst h3
      exact h m hc

/-! ### The loop -/

theorem readLoop_good (E : Env) (hmem : 20000000 ≤ E.maxAlloc) (fs : List (GoodFrame E)) (n : Nat) (s : Bytes) :
    readLoop E (fs.length + n) (streamOf fs ++ s) =
      { dispatched := messagesOf fs ++ (readLoop E n s).dispatched,
        received := UInt64.ofNat (streamOf fs).length + (readLoop E n s).received,
        ending := (readLoop E n s).ending } := by
  induction fs with
  | nil => simp [streamOf, messagesOf]
  | cons f fs ih =>
    have e1 : (f :: fs).length + n = (fs.length + n) + 1 := by simp only [List.length_cons]; omega
    have e2 : streamOf (f :: fs) ++ s = frameBytes f.type f.body ++ (streamOf fs ++ s) := by
      simp [streamOf]
    rw [e1, e2, readLoop, readStep_good E hmem f.type f.body f.msg f.size f.carries]
    simp only [ih]
    have e3 : (streamOf (f :: fs)).length = (frameBytes f.type f.body).length + (streamOf fs).length := by
      simp [streamOf]
    rw [e3, UInt64.ofNat_add, UInt64.add_assoc]
    simp [messagesOf]

theorem streamOf_length {E : Env} (fs : List (GoodFrame E)) : 11 * fs.length ≤ (streamOf fs).length := by
  induction fs with
  | nil => simp
  | cons f fs ih =>
    have : (streamOf (f :: fs)).length = (frameBytes f.type f.body).length + (streamOf fs).length := by
      simp [streamOf]
    rw [this, frame_length, List.length_cons]; omega

/-- A number of iterations larger than the length of the stream is as good as any larger one. -/
theorem C09_enough (E : Env) (n : Nat) (s : Bytes) (h : s.length < n) : readLoop E n s = readHandler E s := by
  suffices ∀ (n k : Nat) (s : Bytes), s.length < n → s.length < k → readLoop E n s = readLoop E k s from
    this _ _ _ h (by omega)
  intro n
  induction n with
  | zero => intro k s h; omega
  | succ n ih =>
    intro k s h hk
    cases k with
    | zero => omega
    | succ k =>
      rw [readLoop, readLoop]
      cases hs : readStep E s with
      | stop e => rfl
      | next m c rest =>
        obtain ⟨t, body, -, -, e⟩ := readStep_next E hs
        have hl : s.length = 11 + body.length + rest.length := by
          rw [e, List.length_append, frame_length]
        simp only [ih k rest (by omega) (by omega)]

/-- **C07.** Any finite sequence of well-formed frames, followed by the end of the stream: exactly their
messages are dispatched, in order, and the counter has advanced by the number of bytes (mod 2^64) when the
loop ends with a read error at the end of the stream. -/
theorem C07_exact_split (E : Env) (hmem : 20000000 ≤ E.maxAlloc) (fs : List (GoodFrame E)) :
    (readHandler E (streamOf fs)).dispatched = messagesOf fs ∧
    (readHandler E (streamOf fs)).received = UInt64.ofNat (streamOf fs).length ∧
    (readHandler E (streamOf fs)).ending = .exit (some "EOF") := by
  have h := readLoop_good E hmem fs ((streamOf fs).length + 1) []
  rw [List.append_nil] at h
  rw [C09_enough E _ _ (by omega)] at h
  rw [h]
  have e : readLoop E ((streamOf fs).length + 1) [] = { dispatched := [], received := 0, ending := .exit (some "EOF") } := by
    rw [readLoop]; rfl
  rw [e]
  simp

/-- **C07, still running.** While the stream goes on (with anything) the frames so far have been dispatched
first. -/
theorem C07_frames_first (E : Env) (hmem : 20000000 ≤ E.maxAlloc) (fs : List (GoodFrame E)) (s : Bytes) :
    (readHandler E (streamOf fs ++ s)).dispatched = messagesOf fs ++ (readHandler E s).dispatched ∧
    (readHandler E (streamOf fs ++ s)).received =
      UInt64.ofNat (streamOf fs).length + (readHandler E s).received ∧
    (readHandler E (streamOf fs ++ s)).ending = (readHandler E s).ending := by
  have h := readLoop_good E hmem fs ((streamOf fs ++ s).length + 1) s
  rw [C09_enough E _ _ (by omega), C09_enough E _ s (by rw [List.length_append]; omega)] at h
  rw [h]
  exact ⟨rfl, rfl, rfl⟩

/-- **C08.** A fault after any number of good frames, with anything following: exactly the messages before
the fault are dispatched and counted, as if the stream ended there, and the loop has stopped by itself. -/
theorem C08_stops_at_fault (E : Env) (hmem : 20000000 ≤ E.maxAlloc) (fs : List (GoodFrame E)) (s : Bytes)
    (hs : Fault E s) :
    (readHandler E (streamOf fs ++ s)).dispatched = (readHandler E (streamOf fs)).dispatched ∧
    (readHandler E (streamOf fs ++ s)).received = (readHandler E (streamOf fs)).received ∧
    (readHandler E (streamOf fs ++ s)).ending ≠ .flagged := by
  obtain ⟨h1, h2, h3⟩ := C07_frames_first E hmem fs s
  obtain ⟨g1, g2, -⟩ := C07_exact_split E hmem fs
  obtain ⟨e, he⟩ := readStep_fault E hs
  have hh : readHandler E s = { dispatched := [], received := 0, ending := e } := by
    rw [readHandler, readLoop, he]
  rw [h1, h2, h3, g1, g2, hh]
  refine ⟨by simp, by simp, ?_⟩
  have nf : ∀ (s : Bytes) e, readStep E s = .stop e → e ≠ .flagged := by
    intro s e h
    unfold readStep at h
    repeat' (split at h)
    all_goals cases h
    all_goals simp
  exact nf s e he

/-- **C08, nothing else stops it.** If the loop stops by itself at the front of a stream, there is a fault
there. So every stream is a sequence of good frames followed by a fault. -/
theorem C08_only_faults (E : Env) (s : Bytes) :
    ∃ (fs : List (GoodFrame E)) (rest : Bytes), s = streamOf fs ++ rest ∧ Fault E rest := by
  induction hn : s.length using Nat.strong_induction_on generalizing s with
  | _ n ih =>
    by_cases hlen : s.length < 11
    · exact ⟨[], s, rfl, .ends s hlen⟩
    by_cases hm : s.take 2 = [0x54, 0x34]
    · obtain ⟨t, l, rest, e⟩ := header_spelled s (by omega) hm
      rw [(C01_header_roundtrip _ _).1] at e
      by_cases hbig : 20000000 < l.toNat
      · exact ⟨[], s, rfl, e ▸ .oversized t _ _ hbig l.toNat_lt⟩
      · by_cases htr : rest.length < l.toNat
        · exact ⟨[], s, rfl, e ▸ .truncated t _ _ htr l.toNat_lt⟩
        · have hbl : (rest.take l.toNat).length = l.toNat := by rw [List.length_take]; omega
          have e' : s = frameBytes t (rest.take l.toNat) ++ rest.drop l.toNat := by
            rw [frameBytes, hbl, List.append_assoc, List.take_append_drop]; exact e
          by_cases hc : ∃ m, Carries E t (rest.take l.toNat) m
          · obtain ⟨m, hc⟩ := hc
            have hl2 : s.length = 11 + l.toNat + (rest.drop l.toNat).length := by
              rw [e', List.length_append, frame_length, hbl]
            obtain ⟨fs, r, h1, h2⟩ := ih _ (by omega) (rest.drop l.toNat) rfl
            refine ⟨⟨t, rest.take l.toNat, m, by omega, hc⟩ :: fs, r, ?_, h2⟩
            rw [e', h1]; simp [streamOf]
          · have l64 := l.toNat_lt
            refine ⟨[], s, rfl, ?_⟩
            rw [e']
            exact .undecodable t _ _ (by omega) (fun m h => hc ⟨m, h⟩)
    · match s, hlen, hm with
      | a :: b :: s', _, hm =>
        refine ⟨[], _, rfl, .magic a b s' ?_⟩
        rintro ⟨rfl, rfl⟩; exact hm rfl
      | [], h, _ => simp at h
      | [_], h, _ => simp at h

/-- **C09, causality.** The messages dispatched for a stream are the first ones dispatched for any
extension of it. -/
theorem C09_causal (E : Env) (hmem : 20000000 ≤ E.maxAlloc) (s t : Bytes) :
    (readHandler E s).dispatched <+: (readHandler E (s ++ t)).dispatched := by
  obtain ⟨fs, rest, rfl, hf⟩ := C08_only_faults E s
  rw [(C08_stops_at_fault E hmem fs rest hf).1, (C07_exact_split E hmem fs).1, List.append_assoc,
    (C07_frames_first E hmem fs _).1]
  exact List.prefix_append _ _

/-- **C09, bound.** At most one message per 11 bytes. -/
theorem C09_bound (E : Env) (hmem : 20000000 ≤ E.maxAlloc) (s : Bytes) :
    (readHandler E s).dispatched.length ≤ s.length / 11 := by
  obtain ⟨fs, rest, rfl, hf⟩ := C08_only_faults E s
  rw [(C08_stops_at_fault E hmem fs rest hf).1, (C07_exact_split E hmem fs).1]
  have h1 : (messagesOf fs).length ≤ fs.length := by
    induction fs with
    | nil => simp [messagesOf]
    | cons f fs ih =>
      have e : messagesOf (f :: fs) = f.msg.toList ++ messagesOf fs := by simp [messagesOf]
      have hlt : f.msg.toList.length ≤ 1 := by cases f.msg <;> simp
      rw [e, List.length_append, List.length_cons]; omega
  have h2 := streamOf_length fs
  rw [Nat.le_div_iff_mul_le (by omega), List.length_append]; omega

/-- The loop with the flag seen set after `n` iterations: a prefix of what it would do otherwise. -/
theorem C09_disconnected (E : Env) (n : Nat) (s : Bytes) :
    (readLoop E n s).dispatched <+: (readLoop E (n + 1) s).dispatched := by
  induction n generalizing s with
  | zero => exact List.nil_prefix
  | succ n ih =>
    rw [readLoop, readLoop]
    cases hs : readStep E s with
    | stop e => exact List.prefix_refl _
    | next m c rest => exact (List.prefix_append_right_inj _).2 (ih rest)

/-- Two frames, a ping with two superfluous bytes and a request for a compact block. -/
def sampleFrames : List (GoodFrame Toy.env) :=
  [⟨3, be64 5 ++ be64 7 ++ [1, 2], some (.ping ⟨5, 7⟩), by decide, .ping _ [1, 2] _ (by decide)⟩,
   ⟨12, [], none, by decide, .getCompactBlock _⟩]

example : (readHandler Toy.env (streamOf sampleFrames)).dispatched = [.ping ⟨5, 7⟩] ∧
    (readHandler Toy.env (streamOf sampleFrames)).received = 40 := by
  obtain ⟨h1, h2, -⟩ := C07_exact_split Toy.env (by decide) sampleFrames
  exact ⟨h1, h2.trans (by decide)⟩

example : Fault Toy.env [0x54, 0x35, 3] := .ends _ (by decide)
example : Fault Toy.env (frameBytes 14 [] ++ [0x54]) :=
  .undecodable _ _ _ (by decide) (by intro m h; cases h)

end Gringo.Props
