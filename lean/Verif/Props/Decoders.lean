import Verif.Props.ReadLoop
/-
C27: decoders and crashes. `NeverCrashes rd` for every memory limit from K on says that no stream makes the
decoder panic or exit, and that no single allocation it asks for exceeds K bytes.
-/
namespace Gringo.Props
open Gringo.P2P Gringo.Spec

/-- The biggest allocation: a million outputs, or kernels, or inputs. -/
def biggestAllocation (E : Env) : Nat := 1000000 * (E.outputSize + 104)

theorem safe_proof (E : Env) (hmem : 336 ≤ E.maxAlloc) : NeverCrashes (Proof.read E) := by
  refine NeverCrashes.u8.bind fun eb => .ite (fun _ => .fail _) fun h => ?_
  refine (NeverCrashes.make ?_).bind fun _ => (NeverCrashes.readFull _).bind fun _ => .pure _
  have : eb.toNat ≤ 64 := by
    rcases Nat.lt_or_ge 64 eb.toNat with h1 | h1
    · exact absurd (Or.inr (show (64 : UInt8) < eb from UInt8.lt_iff_toNat_lt.2 h1)) h
    · exact h1
  unfold Proof.packedLen ProofSize; omega

theorem safe_i64 : NeverCrashes Rd.i64 := (NeverCrashes.readFull 8).bind fun _ => .pure _

theorem safe_header (E : Env) (hmem : 336 ≤ E.maxAlloc) : NeverCrashes (BlockHeader.read E) :=
  NeverCrashes.u16.bind fun _ => NeverCrashes.u64.bind fun _ => safe_i64.bind fun _ =>
    (NeverCrashes.readFull _).bind fun _ => (NeverCrashes.readFull _).bind fun _ =>
    (NeverCrashes.readFull _).bind fun _ => (NeverCrashes.readFull _).bind fun _ =>
    (NeverCrashes.readFull _).bind fun _ => (NeverCrashes.readFull _).bind fun _ =>
    NeverCrashes.u64.bind fun _ => NeverCrashes.u64.bind fun _ => NeverCrashes.u64.bind fun _ =>
    NeverCrashes.u32.bind fun _ => NeverCrashes.u64.bind fun _ => (safe_proof E hmem).bind fun _ => .pure _

theorem safe_input : NeverCrashes Input.read :=
  NeverCrashes.u8.bind fun _ => (NeverCrashes.readFull _).bind fun _ => .pure _

theorem safe_output (E : Env) (hP : NeverCrashes E.pointRead) (hQ : NeverCrashes E.prfRead) :
    NeverCrashes (Output.read E) := by
  refine NeverCrashes.u8.bind fun _ => hP.bind fun _ => NeverCrashes.u64.bind fun n =>
    .ite (fun _ => .fail _) fun _ => NeverCrashes.bind ?_ fun _ => .pure _
  intro s
  have := hQ.limit n.toNat s
  unfold Output.readProof
  split
  · trivial
  · exact this

theorem safe_kernel (E : Env) (hP : NeverCrashes E.pointRead) : NeverCrashes (TxKernel.read E) :=
  NeverCrashes.u8.bind fun _ => NeverCrashes.u64.bind fun _ => NeverCrashes.u64.bind fun _ =>
    hP.bind fun _ => (NeverCrashes.readFull _).bind fun _ => .pure _

theorem le_of_not_gt_ofNat {n : UInt64} (h : ¬ n > UInt64.ofNat MaxListLen) : n.toNat ≤ 1000000 := by
  rcases Nat.lt_or_ge 1000000 n.toNat with h1 | h1
  · exact absurd (show UInt64.ofNat MaxListLen < n from UInt64.lt_iff_toNat_lt.2 h1) h
  · exact h1

/-- **C27, the part that holds.** If the point and range proof decoders of the external library never
panic, none of these decoders panics or exits on any stream, with any memory limit from about 1 000 000
struct sizes on. -/
theorem C27_decoders_partial (E : Env) (hP : NeverCrashes E.pointRead) (hQ : NeverCrashes E.prfRead)
    (hmem : biggestAllocation E ≤ E.maxAlloc) :
    NeverCrashes Header.read ∧ NeverCrashes Ping.read ∧ NeverCrashes GetPeerAddrs.read ∧
    NeverCrashes PeerAddrs.read ∧ NeverCrashes GetBlock.read ∧ NeverCrashes Locator.read ∧
    NeverCrashes (BlockHeader.read E) ∧ NeverCrashes (BlockHeaders.read E) ∧
    NeverCrashes (Block.read E) ∧ NeverCrashes (Transaction.read E) := by
  unfold biggestAllocation at hmem
  have h336 : 336 ≤ E.maxAlloc := by omega
  have mk : ∀ {n k : Nat}, n ≤ 1000000 → k ≤ E.outputSize + 104 → NeverCrashes (Rd.make E.maxAlloc n k) := by
    intro n k hn hk
    exact NeverCrashes.make (Nat.le_trans (Nat.mul_le_mul hn hk) hmem)
  have addr : NeverCrashes deserializeTCPAddr := by
    refine NeverCrashes.u8.bind fun _ => .ite (fun _ => ?_) fun _ => .ite (fun _ => ?_) fun _ => .fail _
    · exact (NeverCrashes.readFull _).bind fun _ => NeverCrashes.u16.bind fun _ => .pure _
    · exact (NeverCrashes.readFull _).bind fun _ => .fail _
  refine ⟨?_, ?_, ?_, ?_, ?_, ?_, safe_header E h336, ?_, ?_, ?_⟩
  · exact (NeverCrashes.readFull 2).bind fun m => NeverCrashes.ite (fun _ => .fail _) fun _ =>
      NeverCrashes.u8.bind fun _ => NeverCrashes.u64.bind fun _ => .pure _
  · exact NeverCrashes.u64.bind fun _ => NeverCrashes.u64.bind fun _ => .pure _
  · exact NeverCrashes.u32.bind fun _ => .pure _
  · exact NeverCrashes.u32.bind fun _ => .ite (fun _ => .fail _) fun _ =>
      (addr.readMany _).bind fun _ => .pure _
  · exact (NeverCrashes.readFull _).bind fun _ => .pure _
  · exact NeverCrashes.u8.bind fun _ => .ite (fun _ => .fail _) fun _ =>
      ((NeverCrashes.readFull _).readMany _).bind fun _ => .pure _
  · refine NeverCrashes.u16.bind fun n => .ite (fun _ => .fail _) fun h =>
      (NeverCrashes.make ?_).bind fun _ => ((safe_header E h336).readMany _).bind fun _ => .pure _
    unfold MaxBlockHeaders at h; omega
  · exact (safe_header E h336).bind fun _ => NeverCrashes.u64.bind fun a => NeverCrashes.u64.bind fun b =>
      NeverCrashes.u64.bind fun c => .ite (fun _ => .fail _) fun ha => .ite (fun _ => .fail _) fun hb =>
      .ite (fun _ => .fail _) fun hc =>
      (mk (le_of_not_gt_ofNat ha) (by omega)).bind fun _ => (safe_input.readMany _).bind fun _ =>
      (mk (le_of_not_gt_ofNat hb) (by omega)).bind fun _ => ((safe_output E hP hQ).readMany _).bind fun _ =>
      (mk (le_of_not_gt_ofNat hc) (by omega)).bind fun _ => ((safe_kernel E hP).readMany _).bind fun _ => .pure _
  · exact (NeverCrashes.readFull _).bind fun _ => NeverCrashes.u64.bind fun a => NeverCrashes.u64.bind fun b =>
      NeverCrashes.u64.bind fun c => .ite (fun _ => .fail _) fun ha => .ite (fun _ => .fail _) fun hb =>
      .ite (fun _ => .fail _) fun hc =>
      (mk (le_of_not_gt_ofNat ha) (by omega)).bind fun _ => (safe_input.readMany _).bind fun _ =>
      (mk (le_of_not_gt_ofNat hb) (by omega)).bind fun _ => ((safe_output E hP hQ).readMany _).bind fun _ =>
      (mk (le_of_not_gt_ofNat hc) (by omega)).bind fun _ => ((safe_kernel E hP).readMany _).bind fun _ =>
      .ite (fun _ => .fail _) fun _ => .ite (fun _ => .fail _) fun _ => .ite (fun _ => .fail _) fun _ => .pure _

example : NeverCrashes Toy.env.pointRead ∧ NeverCrashes Toy.env.prfRead ∧
    biggestAllocation Toy.env ≤ Toy.env.maxAlloc :=
  ⟨Toy.pointCodec.safe, Toy.prfCodec.safe, by decide⟩

theorem make_panics {lim n k : Nat} (h : lim < n * k) (s : Bytes) :
    Rd.make lim n k s = (.panic "makeslice: len out of range", s) := by
  unfold Rd.make; rw [if_neg (by omega)]; rfl

/-- **C27 is false of the code (shake).** A 24-byte body that announces a user agent longer than the
allocation limit makes the reader panic, whatever follows. -/
theorem C27_refuted_shake (E : Env) (caps : UInt32) (td len : UInt64) (h : E.maxAlloc < len.toNat) (rest : Bytes) :
    (Shake.read E (be32 1 ++ be32 caps ++ be64 td ++ be64 len ++ rest)).1 =
      .panic "makeslice: len out of range" := by
  have hver : ¬ ((1 : UInt32) ≠ ProtocolVersion) := by decide
  simp only [Shake.read, List.append_assoc, Rd.bind_run, Rd.u32_be32, Rd.cont_ok]
  rw [if_neg hver]
  simp only [Rd.bind_run, Rd.u32_be32, Rd.u64_be64, Rd.cont_ok, make_panics (k := 1) (by omega : E.maxAlloc < len.toNat * 1),
    Rd.cont_panic]

/-- **C27 is false of the code (hand).** -/
theorem C27_refuted_hand (E : Env) (caps : UInt32) (nonce td len : UInt64) (h : E.maxAlloc < len.toNat)
    (a b : TCPAddr) (ha : IPv4 a) (hb : IPv4 b) (rest : Bytes) :
    ∃ sa sb, serializeTCPAddr a = .ok sa ∧ serializeTCPAddr b = .ok sb ∧
      (Hand.read E (be32 1 ++ be32 caps ++ be64 nonce ++ be64 td ++ sa ++ sb ++ be64 len ++ rest)).1 =
        .panic "makeslice: len out of range" := by
  obtain ⟨sa, hsa, lsa, rsa⟩ := C22_ipv4_partial a ha
  obtain ⟨sb, hsb, lsb, rsb⟩ := C22_ipv4_partial b hb
  refine ⟨sa, sb, hsa, hsb, ?_⟩
  have hver : ¬ ((1 : UInt32) ≠ ProtocolVersion) := by decide
  simp only [Hand.read, List.append_assoc, Rd.bind_run, Rd.u32_be32, Rd.cont_ok]
  rw [if_neg hver]
  simp only [Rd.bind_run, Rd.u32_be32, Rd.u64_be64, Rd.cont_ok, rsa _, rsb _,
    make_panics (k := 1) (by omega : E.maxAlloc < len.toNat * 1), Rd.cont_panic]

/-- **C27 is false of the code (error message).** -/
theorem C27_refuted_peer_error (E : Env) (code : UInt32) (len : UInt64) (h : E.maxAlloc < len.toNat) (rest : Bytes) :
    (PeerError.read E (be32 code ++ be64 len ++ rest)).1 = .panic "makeslice: len out of range" := by
  simp only [PeerError.read, List.append_assoc, Rd.bind_run, Rd.u32_be32, Rd.u64_be64, Rd.cont_ok,
    make_panics (k := 1) (by omega : E.maxAlloc < len.toNat * 1), Rd.cont_panic]

/-- **C27 is false of the code (compact block).** A compact block body with any well-formed header, no
outputs, no kernels and a number of short ids beyond the limit. -/
theorem C27_refuted_compact (E : Env) (hmem : 336 ≤ E.maxAlloc) (hd : BlockHeader) (wf : WellFormedHeader hd)
    (ids : UInt64) (h : E.maxAlloc < ids.toNat * 24) (rest : Bytes) :
    ∃ v, hd.bytes = .ok v ∧ (CompactBlock.read E (v ++ [0, 0] ++ be64 ids ++ rest)).1 =
      .panic "makeslice: len out of range" := by
  obtain ⟨v, hv, -, hr⟩ := C12_header_roundtrip E hmem hd wf
  refine ⟨v, hv, ?_⟩
  have z : (0 : UInt8).toNat = 0 := rfl
  simp only [CompactBlock.read, List.append_assoc, List.cons_append, List.nil_append, Rd.bind_run, hr _, Rd.cont_ok,
    Rd.u8_cons, Rd.u64_be64, z, Rd.make_ok (by omega : 0 * E.outputSize ≤ E.maxAlloc),
    Rd.make_ok (by omega : 0 * 104 ≤ E.maxAlloc), Rd.readMany, Rd.pure_run, make_panics h, Rd.cont_panic]

theorem pointwise_limit {α : Type} {rd : Rd α} {b rest : Bytes} {p : String} (h : (rd b).1 = .panic p) :
    (Rd.limit b.length rd (b ++ rest)).1 = .panic p := by
  simp [Rd.limit, h]

/-- **C27, from the network.** Anyone who can open a connection crashes the node with one 57-byte frame:
accepting it panics, with any memory limit below 2^63. -/
theorem C27_refuted_remote_hand (E : Env) (hmem : E.maxAlloc < 2 ^ 63) (nonces : NonceList) :
    ∃ frame : Bytes, frame.length = 57 ∧ ∀ rest, ∃ p,
      (handByShake E nonces (frame ++ rest)).result = .panic p := by
  have hl : E.maxAlloc < (0xFFFFFFFFFFFFFFFF : UInt64).toNat := by
    have : (0xFFFFFFFFFFFFFFFF : UInt64).toNat = 2 ^ 64 - 1 := by decide
    omega
  obtain ⟨sa, sb, hsa, hsb, hp⟩ := C27_refuted_hand E 0 0 0 0xFFFFFFFFFFFFFFFF hl ⟨[1, 2, 3, 4], 5⟩ ⟨[1, 2, 3, 4], 5⟩
    ⟨rfl, by decide, by decide⟩ ⟨rfl, by decide, by decide⟩ []
  rw [List.append_nil] at hp
  have la : sa.length = 7 := by
    obtain ⟨x, hx, lx, -⟩ := C22_ipv4_partial ⟨[1, 2, 3, 4], 5⟩ ⟨rfl, by decide, by decide⟩
    rw [hsa] at hx; cases hx; exact lx
  have lb : sb.length = 7 := by
    obtain ⟨x, hx, lx, -⟩ := C22_ipv4_partial ⟨[1, 2, 3, 4], 5⟩ ⟨rfl, by decide, by decide⟩
    rw [hsb] at hx; cases hx; exact lx
  have lbody : (be32 1 ++ be32 0 ++ be64 0 ++ be64 0 ++ sa ++ sb ++ be64 0xFFFFFFFFFFFFFFFF).length = 46 := by
    simp only [List.length_append, be32_length, be64_length, la, lb]
  generalize hb : be32 1 ++ be32 0 ++ be64 0 ++ be64 0 ++ sa ++ sb ++ be64 0xFFFFFFFFFFFFFFFF = body at hp lbody
  refine ⟨(writeMessage MsgTypeHand body).1, ?_, fun rest => ⟨"makeslice: len out of range", ?_⟩⟩
  · simp [writeMessage, Header.bytes, MagicCode, lbody]
  · have h1 := readMessage_framed (t := MsgTypeHand) (rd := Hand.read E) (b := body) (by omega) rest
    have h2 := pointwise_limit (rd := Hand.read E) (rest := rest) hp
    rcases hx : Rd.limit body.length (Hand.read E) (body ++ rest) with ⟨o, r⟩
    rw [hx] at h1 h2
    simp only at h2
    subst h2
    rw [handByShake, h1]
    rfl

/-- **C27, from a connected peer.** A compact block frame crashes the read loop; what was dispatched before
stays dispatched. -/
theorem C27_refuted_remote_compact (E : Env) (hmem : 20000000 ≤ E.maxAlloc) (hmax : E.maxAlloc < 2 ^ 63) :
    ∃ frame : Bytes, ∀ (fs : List (GoodFrame E)) (rest : Bytes), ∃ p, (readHandler E (streamOf fs ++ frame ++ rest)).ending = .crash p := by
  have hl : E.maxAlloc < (0xFFFFFFFFFFFFFFFF : UInt64).toNat * 24 := by
    have : (0xFFFFFFFFFFFFFFFF : UInt64).toNat = 2 ^ 64 - 1 := by decide
    omega
  obtain ⟨v, hv, hp⟩ := C27_refuted_compact E (by omega) sampleHeader sampleHeader_wf 0xFFFFFFFFFFFFFFFF hl []
  rw [List.append_nil] at hp
  obtain ⟨v', hv', lv, -⟩ := C12_header_roundtrip E (by omega) sampleHeader sampleHeader_wf
  rw [hv] at hv'; cases hv'
  have lbody : (v ++ [0, 0] ++ be64 0xFFFFFFFFFFFFFFFF).length ≤ 20000000 := by
    have := sampleHeader.pow.edgeBits.toNat_lt
    simp only [List.length_append, be64_length, lv, List.length_cons, List.length_nil]
    omega
  generalize v ++ [0, 0] ++ be64 0xFFFFFFFFFFFFFFFF = body at hp lbody
  refine ⟨frameBytes 13 body, fun fs rest => ⟨"makeslice: len out of range", ?_⟩⟩
  rw [List.append_assoc, (C07_frames_first E hmem fs _).2.2, readHandler, readLoop]
  have h64 : (UInt64.ofNat body.length).toNat = body.length := by
    rw [UInt64.toNat_ofNat']; exact Nat.mod_eq_of_lt (by omega)
  have hbig : ¬ UInt64.ofNat body.length > MaxMsgLen := by
    intro h
    have := UInt64.lt_iff_toNat_lt.1 h
    rw [h64] at this
    have h2 : MaxMsgLen.toNat = 20000000 := rfl
    omega
  have hdec : decodeBody E 13 body = .panic "makeslice: len out of range" := by
    show runBody (CompactBlock.read E) body _ = _
    simp [runBody, hp]
  have : readStep E (frameBytes 13 body ++ rest) = .stop (.crash "makeslice: len out of range") := by
    rw [frameBytes, List.append_assoc ([0x54, 0x34, 13] ++ be 8 body.length)]
    simp only [readStep, header_read_frame 13 body.length (by omega)]
    rw [if_neg hbig, h64]
    simp only [Rd.make_ok (size := 1) (by omega : body.length * 1 ≤ E.maxAlloc), Rd.readFull_append rfl, hdec]
  rw [this]

/-- The limits of the last theorems are those of linux/amd64 (2^48), among others. -/
example : 20000000 ≤ Toy.env.maxAlloc ∧ Toy.env.maxAlloc < 2 ^ 63 := by decide

end Gringo.Props
