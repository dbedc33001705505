import Verif.Props.Messages
import Mathlib.Tactic.ByContra
/-
C23-C26: handshake.
-/
namespace Gringo.Props
open Gringo.P2P Gringo.Spec

/-- A hand that can be expected to survive the wire: version 1, a 32-byte genesis hash, IPv4 addresses, a
user agent that fits. -/
structure WellFormedHand (E : Env) (h : Hand) : Prop where
  version : h.version = 1
  genesis : h.genesis.length = 32
  sender : ∃ a, h.senderAddr = some a ∧ IPv4 a
  receiver : ∃ a, h.receiverAddr = some a ∧ IPv4 a
  agent64 : h.userAgent.length < 2 ^ 64
  agentMem : h.userAgent.length ≤ E.maxAlloc

/-- **C23, hand.** -/
theorem C23_hand_roundtrip (E : Env) (h : Hand) (wf : WellFormedHand E h) :
    ∃ v, h.bytes = .ok v ∧ v.length = 78 + h.userAgent.length ∧ Reads (Hand.read E) v h := by
  obtain ⟨hv, hg, ⟨a, ha, hia⟩, ⟨b, hb, hib⟩, h64, hmem⟩ := wf
  obtain ⟨sb, hsb, lsb, rsb⟩ := C22_ipv4_partial a hia
  obtain ⟨rb, hrb, lrb, rrb⟩ := C22_ipv4_partial b hib
  have hn : (UInt64.ofNat h.userAgent.length).toNat = h.userAgent.length := by
    rw [UInt64.toNat_ofNat']; exact Nat.mod_eq_of_lt h64
  obtain ⟨version, capabilities, nonce, genesis, td, sa, ra, ua⟩ := h
  simp only at hv hg ha hb hn h64 hmem
  subst ha hb hv
  refine ⟨_, by simp only [Hand.bytes, hsb, hrb, Out.bind_ok, Out.pure_def]; rfl, ?_, ?_⟩
  · simp only [List.length_append, be32_length, be64_length, lsb, lrb, hg]; omega
  · intro r
    have hver : ¬ ((1 : UInt32) ≠ ProtocolVersion) := by decide
    simp only [Hand.read, List.append_assoc, Rd.bind_run, Rd.u32_be32, Rd.cont_ok]
    rw [if_neg hver]
    simp only [Rd.bind_run, Rd.u32_be32, Rd.u64_be64, Rd.cont_ok, rsb _, rrb _, hn,
      Rd.make_ok (size := 1) (by omega : ua.length * 1 ≤ E.maxAlloc), Rd.readFull_append rfl,
      Rd.readFull_append hg, Rd.pure_run]

/-- **C23, shake.** -/
theorem C23_shake_roundtrip (E : Env) (h : Shake) (hv : h.version = 1) (hg : h.genesis.length = 32)
    (h64 : h.userAgent.length < 2 ^ 64) (hmem : h.userAgent.length ≤ E.maxAlloc) :
    h.bytes.length = 56 + h.userAgent.length ∧ Reads (Shake.read E) h.bytes h := by
  have hn : (UInt64.ofNat h.userAgent.length).toNat = h.userAgent.length := by
    rw [UInt64.toNat_ofNat']; exact Nat.mod_eq_of_lt h64
  obtain ⟨version, capabilities, td, ua, genesis⟩ := h
  simp only at hv hg hn h64 hmem
  subst hv
  refine ⟨by simp only [Shake.bytes, List.length_append, be32_length, be64_length, hg]; omega, ?_⟩
  intro r
  have hver : ¬ ((1 : UInt32) ≠ ProtocolVersion) := by decide
  simp only [Shake.bytes, Shake.read, List.append_assoc, Rd.bind_run, Rd.u32_be32, Rd.cont_ok]
  rw [if_neg hver]
  simp only [Rd.bind_run, Rd.u32_be32, Rd.u64_be64, Rd.cont_ok, hn,
    Rd.make_ok (size := 1) (by omega : ua.length * 1 ≤ E.maxAlloc), Rd.readFull_append rfl,
    Rd.readFull_append hg, Rd.pure_run]

theorem decoded_addr {s r : Bytes} {a : TCPAddr} (ha : deserializeTCPAddr s = (.ok a, r)) : IPv4 a := by
  simp only [deserializeTCPAddr, Rd.bind_run] at ha
  obtain ⟨f, r4, h4, ha⟩ := cont_eq_ok ha
  split at ha
  · simp only [Rd.bind_run] at ha
    obtain ⟨ip, r5, h5, ha⟩ := cont_eq_ok ha
    simp only [Rd.bind_run] at ha
    obtain ⟨port, r6, h6, ha⟩ := cont_eq_ok ha
    simp only [Rd.pure_run, Prod.mk.injEq, Out.ok.injEq] at ha
    obtain ⟨rfl, rfl⟩ := ha
    have := port.toNat_lt
    refine ⟨(Rd.readFull_ok h5).2, ?_, ?_⟩
    · exact Int.natCast_nonneg _
    · simp only; omega
  · split at ha
    · simp only [Rd.bind_run] at ha
      obtain ⟨_, _, _, ha⟩ := cont_eq_ok ha
      simp at ha
    · simp at ha

/-- **C23, gate.** Every hand that decodes has version 1, a 32-byte genesis hash and IPv4 addresses. -/
theorem C23_hand_gate (E : Env) (s r : Bytes) (h : Hand) (hr : Hand.read E s = (.ok h, r)) :
    h.version = 1 ∧ h.genesis.length = 32 ∧ (∃ a, h.senderAddr = some a ∧ IPv4 a) ∧
      (∃ a, h.receiverAddr = some a ∧ IPv4 a) := by
  simp only [Hand.read, Rd.bind_run] at hr
  obtain ⟨v, r1, h1, hr⟩ := cont_eq_ok hr
  split at hr
  · simp at hr
  · rename_i hv
    simp only [Rd.bind_run] at hr
    obtain ⟨_, _, -, hr⟩ := cont_eq_ok hr
    simp only [Rd.bind_run] at hr
    obtain ⟨_, _, -, hr⟩ := cont_eq_ok hr
    simp only [Rd.bind_run] at hr
    obtain ⟨_, _, -, hr⟩ := cont_eq_ok hr
    simp only [Rd.bind_run] at hr
    obtain ⟨a, _, ha, hr⟩ := cont_eq_ok hr
    simp only [Rd.bind_run] at hr
    obtain ⟨b, _, hb, hr⟩ := cont_eq_ok hr
    simp only [Rd.bind_run] at hr
    obtain ⟨_, _, -, hr⟩ := cont_eq_ok hr
    simp only [Rd.bind_run] at hr
    obtain ⟨_, _, -, hr⟩ := cont_eq_ok hr
    simp only [Rd.bind_run] at hr
    obtain ⟨_, _, -, hr⟩ := cont_eq_ok hr
    simp only [Rd.bind_run] at hr
    obtain ⟨g, _, hg, hr⟩ := cont_eq_ok hr
    simp only [Rd.pure_run, Prod.mk.injEq, Out.ok.injEq] at hr
    obtain ⟨rfl, -⟩ := hr
    refine ⟨?_, (Rd.readFull_ok hg).2, ⟨a, rfl, decoded_addr ha⟩, ⟨b, rfl, decoded_addr hb⟩⟩
    simpa [ProtocolVersion] using hv

/-- **C23, gate.** Every shake that decodes has version 1 and a 32-byte genesis hash. -/
theorem C23_shake_gate (E : Env) (s r : Bytes) (h : Shake) (hr : Shake.read E s = (.ok h, r)) :
    h.version = 1 ∧ h.genesis.length = 32 := by
  simp only [Shake.read, Rd.bind_run] at hr
  obtain ⟨v, r1, h1, hr⟩ := cont_eq_ok hr
  split at hr
  · simp at hr
  · rename_i hv
    simp only [Rd.bind_run] at hr
    obtain ⟨_, _, -, hr⟩ := cont_eq_ok hr
    simp only [Rd.bind_run] at hr
    obtain ⟨_, _, -, hr⟩ := cont_eq_ok hr
    simp only [Rd.bind_run] at hr
    obtain ⟨_, _, -, hr⟩ := cont_eq_ok hr
    simp only [Rd.bind_run] at hr
    obtain ⟨_, _, -, hr⟩ := cont_eq_ok hr
    simp only [Rd.bind_run] at hr
    obtain ⟨_, _, -, hr⟩ := cont_eq_ok hr
    simp only [Rd.bind_run] at hr
    obtain ⟨g, _, hg, hr⟩ := cont_eq_ok hr
    simp only [Rd.pure_run, Prod.mk.injEq, Out.ok.injEq] at hr
    obtain ⟨rfl, -⟩ := hr
    refine ⟨?_, (Rd.readFull_ok hg).2⟩
    simpa [ProtocolVersion] using hv

/-- A hand as C23 asks for. -/
def sampleHand : Hand :=
  { version := 1, capabilities := 7, nonce := 42, genesis := List.replicate 32 5, totalDifficulty := 1000,
    senderAddr := some ⟨[10, 0, 0, 1], 3414⟩, receiverAddr := some ⟨[10, 0, 0, 2], 13414⟩,
    userAgent := [103, 114, 105, 110] }

theorem sampleHand_wf : WellFormedHand Toy.env sampleHand where
  version := rfl
  genesis := rfl
  sender := ⟨_, rfl, rfl, by decide, by decide⟩
  receiver := ⟨_, rfl, rfl, by decide, by decide⟩
  agent64 := by decide
  agentMem := by decide

example : ∃ v, sampleHand.bytes = .ok v ∧ v.length = 78 + 4 ∧ Reads (Hand.read Toy.env) v sampleHand :=
  C23_hand_roundtrip Toy.env sampleHand sampleHand_wf

/-! ### C24 -/

theorem readMessage_framed {α : Type} {t : UInt8} {rd : Rd α} {b : Bytes} (hlen : b.length ≤ 20000000)
    (rest : Bytes) : readMessage t rd ((writeMessage t b).1 ++ rest) =
      Rd.cont (Rd.limit b.length rd (b ++ rest)) fun a => pure (a, HeaderLen + UInt64.ofNat b.length) := by
  have h64 : (UInt64.ofNat b.length).toNat = b.length := by
    rw [UInt64.toNat_ofNat']; exact Nat.mod_eq_of_lt (by omega)
  have e : (writeMessage t b).1 ++ rest = [0x54, 0x34, t] ++ be64 (UInt64.ofNat b.length) ++ (b ++ rest) := by
    simp [writeMessage, Header.bytes, MagicCode]
  have hbig : ¬ UInt64.ofNat b.length > MaxMsgLen := by
    intro h
    have := UInt64.lt_iff_toNat_lt.1 h
    rw [h64] at this
    have h2 : MaxMsgLen.toNat = 20000000 := rfl
    omega
  rw [e, readMessage, Rd.bind_run, limited_header, Rd.cont_ok]
  simp only [ne_eq, not_true, if_false]
  rw [if_neg hbig, Rd.bind_run, h64]

/-- **C24 is false of the code.** Whenever a node answers a hand, the connecting node's handshake fails on
that answer, whatever is sent afterwards: the shake has no genesis hash, the reader wants 32 bytes. -/
theorem C24_refuted (E E' : Env) (hmem : 13 ≤ E'.maxAlloc) (nonces nonces' : NonceList) (input : Bytes)
    (h : Hand) (hok : (handByShake E nonces input).result = .ok h) (receiver : TCPAddr)
    (genesis rest : Bytes) (sh : Shake) :
    (shakeByHand E' nonces' receiver genesis ((handByShake E nonces input).sent ++ rest)).result ≠ .ok sh := by
  have hsent : (handByShake E nonces input).sent = (writeMessage MsgTypeShake ownShake.bytes).1 := by
    unfold handByShake at hok ⊢
    split at hok <;> try (exact absurd hok (by simp))
    split at hok
    · exact absurd hok (by simp)
    · rename_i hc
      simp only [hc]
      rfl
  have hread : ∃ e r, readMessage MsgTypeShake (Shake.read E') ((writeMessage MsgTypeShake ownShake.bytes).1 ++ rest)
      = (.err e, r) := by
    rw [readMessage_framed (by decide)]
    have hver : ¬ ((1 : UInt32) ≠ ProtocolVersion) := by decide
    have hb : ownShake.bytes = be32 1 ++ be32 7 ++ be64 1 ++ be64 (UInt64.ofNat 13) ++ userAgent := by decide
    have : Shake.read E' ownShake.bytes = (.err "EOF", []) := by
      rw [hb]
      simp only [Shake.read, List.append_assoc, Rd.bind_run, Rd.u32_be32, Rd.cont_ok]
      rw [if_neg hver]
      have h13 : (UInt64.ofNat 13).toNat = 13 := by decide
      have hu : Rd.readFull 13 userAgent = (.ok userAgent, []) := by decide
      have hg : Rd.readFull 32 [] = (.err "EOF", []) := by decide
      simp only [Rd.bind_run, Rd.u32_be32, Rd.u64_be64, Rd.cont_ok, h13,
        Rd.make_ok (size := 1) (by omega : 13 * 1 ≤ E'.maxAlloc), hu, hg, Rd.cont_err]
    refine ⟨"EOF", rest, ?_⟩
    rw [Rd.limit, List.take_left' rfl, List.drop_left' rfl, this]
    rfl
  rw [hsent]
  obtain ⟨e, r, he⟩ := hread
  intro hcon
  unfold shakeByHand at hcon
  split at hcon
  case h_2 | h_3 | h_4 => cases hcon
  split at hcon
  case h_2 | h_3 | h_4 => cases hcon
  rw [he] at hcon
  cases hcon

/-- The nonce list as the program initialises it: 100 numbers, any of them being next. -/
def NoncesOK (n : NonceList) : Prop := n.list.length = 100 ∧ n.idx < 100

theorem next_ok {n : NonceList} (h : NoncesOK n) :
    ∃ x n', n.next = .ok (x, n') ∧ x ∈ n.list ∧ n'.list = n.list ∧ NoncesOK n' := by
  obtain ⟨h1, h2⟩ := h
  have hlt : (n.idx + 1) % noncesCap < n.list.length := by
    rw [h1]; unfold noncesCap; omega
  refine ⟨n.list[(n.idx + 1) % noncesCap], { n with idx := (n.idx + 1) % noncesCap }, ?_, ?_, rfl, h1, ?_⟩
  · simp [NonceList.next, hlt]
  · exact List.getElem_mem hlt
  · simp only; unfold noncesCap; omega

theorem ownHand_wf (E : Env) (hmem : 13 ≤ E.maxAlloc) (nonce : UInt64) (receiver : TCPAddr) (genesis : Bytes)
    (hr : IPv4 receiver) (hg : genesis.length = 32) :
    ∃ v, (ownHand nonce receiver genesis).bytes = .ok v ∧ v.length = 91 ∧
      Reads (Hand.read E) v { ownHand nonce receiver genesis with senderAddr := some ⟨[0, 0, 0, 0], 0⟩ } := by
  have wf : WellFormedHand E { ownHand nonce receiver genesis with senderAddr := some ⟨[0, 0, 0, 0], 0⟩ } :=
    { version := rfl, genesis := hg, sender := ⟨_, rfl, rfl, by decide, by decide⟩,
      receiver := ⟨_, rfl, hr⟩, agent64 := (by decide : userAgent.length < 2 ^ 64), agentMem := hmem }
  obtain ⟨v, hv, hl, hrd⟩ := C23_hand_roundtrip E _ wf
  exact ⟨v, hv, hl, hrd⟩

/-- **C24, the part that holds**: the first half. What a node sends when it connects (to an IPv4 address) is
accepted by the node it connects to, with all fields as announced, unless the nonce is one of the latter's
own; and a shake is sent back. -/
theorem C24_hand_accepted_partial (E : Env) (hmem : 13 ≤ E.maxAlloc) (mine theirs : NonceList)
    (hn : NoncesOK mine) (receiver : TCPAddr) (hr : IPv4 receiver) (genesis : Bytes)
    (hg : genesis.length = 32) (input rest : Bytes) :
    ∃ nonce mine', mine.next = .ok (nonce, mine') ∧ nonce ∈ mine.list ∧ (theirs.consist nonce = false →
      ∃ h, (handByShake E theirs ((shakeByHand E mine receiver genesis input).sent ++ rest)).result = .ok h ∧
        h.nonce = nonce ∧ h.genesis = genesis ∧ h.receiverAddr = some receiver ∧
        h.userAgent = userAgent ∧
        (handByShake E theirs ((shakeByHand E mine receiver genesis input).sent ++ rest)).rest = rest ∧
        (handByShake E theirs ((shakeByHand E mine receiver genesis input).sent ++ rest)).sent ≠ []) := by
  obtain ⟨x, n', hx, hmemx, -, -⟩ := next_ok hn
  obtain ⟨v, hv, hl, hrd⟩ := ownHand_wf E hmem x receiver genesis hr hg
  refine ⟨x, n', hx, hmemx, fun hc => ?_⟩
  have hs : (shakeByHand E mine receiver genesis input).sent = (writeMessage MsgTypeHand v).1 := by
    simp only [shakeByHand, hx, hv]
    split <;> rfl
  obtain ⟨-, -, n, -, hrm⟩ := C03_roundtrip MsgTypeHand (Hand.read E) v _ hrd (by omega)
  refine ⟨{ ownHand x receiver genesis with senderAddr := some ⟨[0, 0, 0, 0], 0⟩ }, ?_, rfl, rfl, rfl, rfl,
    ?_, ?_⟩ <;> rw [hs] <;> simp only [handByShake, hrm rest, ownHand] <;> rw [if_neg (by simp [hc])]
  simp [writeMessage, Header.bytes, MagicCode]

/-- **C24 is false for every pair of nodes**: the connecting node `mine` sends its hand, the other one
(with its own nonces, not colliding) accepts it and answers, and the connecting node fails on the answer. -/
theorem C24_refuted_pair (E : Env) (hmem : 13 ≤ E.maxAlloc) (mine theirs : NonceList) (hn : NoncesOK mine)
    (hdisj : ∀ x ∈ mine.list, theirs.consist x = false) (receiver : TCPAddr) (hr : IPv4 receiver)
    (genesis : Bytes) (hg : genesis.length = 32) (input rest : Bytes) :
    (∃ h, (handByShake E theirs (shakeByHand E mine receiver genesis input).sent).result = .ok h) ∧
    ∀ sh, (shakeByHand E mine receiver genesis
      ((handByShake E theirs (shakeByHand E mine receiver genesis input).sent).sent ++ rest)).result ≠ .ok sh := by
  obtain ⟨x, n', hx, hmx, hacc⟩ := C24_hand_accepted_partial E hmem mine theirs hn receiver hr genesis hg input []
  obtain ⟨h, hok, -⟩ := hacc (hdisj x hmx)
  rw [List.append_nil] at hok
  exact ⟨⟨h, hok⟩, C24_refuted E E hmem theirs mine _ h hok receiver genesis rest⟩

/-- The hypotheses are met, e.g. by nonces 0..99 and 100..199. -/
example : NoncesOK (NonceList.init ((List.range 100).map UInt64.ofNat)) ∧
    (∀ x ∈ (NonceList.init ((List.range 100).map UInt64.ofNat)).list,
      (NonceList.init ((List.range 100).map fun i => UInt64.ofNat (i + 100))).consist x = false) ∧
    IPv4 ⟨[127, 0, 0, 1], 13414⟩ ∧ 13 ≤ Toy.env.maxAlloc := by
  refine ⟨⟨by decide +kernel, by decide +kernel⟩, by decide +kernel, ⟨rfl, by decide, by decide⟩, by decide⟩

/-! ### C25 -/

/-- **C25 is false of the code (accepting side).** The genesis hash of a hand has no influence: a
well-formed hand whose nonce is not ours is accepted with any 32-byte genesis hash. -/
theorem C25_refuted_accept (E : Env) (nonces : NonceList) (h : Hand) (wf : WellFormedHand E h)
    (hlen : h.userAgent.length ≤ 1000000) (hn : nonces.consist h.nonce = false) (rest : Bytes) :
    ∃ v, h.bytes = .ok v ∧
      (handByShake E nonces ((writeMessage MsgTypeHand v).1 ++ rest)).result = .ok h := by
  obtain ⟨v, hv, hl, hrd⟩ := C23_hand_roundtrip E h wf
  obtain ⟨-, -, n, -, hrm⟩ := C03_roundtrip MsgTypeHand (Hand.read E) v _ hrd (by omega)
  refine ⟨v, hv, ?_⟩
  simp only [handByShake, hrm rest]
  rw [if_neg (by simp [hn])]

/-- **C25 is false of the code (connecting side).** Any shake with version 1 and some 32-byte genesis hash
is accepted, whatever genesis we announced. -/
theorem C25_refuted_connect (E : Env) (hmem : 13 ≤ E.maxAlloc) (nonces : NonceList) (hn : NoncesOK nonces)
    (receiver : TCPAddr) (hr : IPv4 receiver) (genesis : Bytes) (hg : genesis.length = 32) (sh : Shake)
    (hv : sh.version = 1) (hsg : sh.genesis.length = 32) (hlen : sh.userAgent.length ≤ 1000000)
    (hm2 : sh.userAgent.length ≤ E.maxAlloc) (rest : Bytes) :
    (shakeByHand E nonces receiver genesis ((writeMessage MsgTypeShake sh.bytes).1 ++ rest)).result = .ok sh := by
  obtain ⟨x, n', hx, -, -, -⟩ := next_ok hn
  obtain ⟨v, hvb, -, -⟩ := ownHand_wf E hmem x receiver genesis hr hg
  obtain ⟨hl, hrd⟩ := C23_shake_roundtrip E sh hv hsg (by omega) hm2
  obtain ⟨-, -, n, -, hrm⟩ := C03_roundtrip MsgTypeShake (Shake.read E) sh.bytes _ hrd (by omega)
  simp only [shakeByHand, hx, hvb, hrm rest]

/-- **C25, the part that holds**: a peer that announces no complete genesis hash is refused on both sides. -/
theorem C25_no_genesis_partial (E : Env) (nonces : NonceList) (input : Bytes) :
    (∀ h, (handByShake E nonces input).result = .ok h → h.genesis.length = 32 ∧ h.version = 1) ∧
    (∀ receiver genesis sh, (shakeByHand E nonces receiver genesis input).result = .ok sh →
      sh.genesis.length = 32 ∧ sh.version = 1) := by
  have inner : ∀ {α : Type} {t : UInt8} {rd : Rd α} {s r : Bytes} {a : α} {n : UInt64},
      readMessage t rd s = (.ok (a, n), r) → ∃ s' r', rd s' = (.ok a, r') := by
    intro α t rd s r a n h
    simp only [readMessage, Rd.bind_run] at h
    obtain ⟨hd, r1, -, h⟩ := cont_eq_ok h
    split at h
    · simp at h
    · split at h
      · simp at h
      · simp only [Rd.bind_run] at h
        obtain ⟨a', r2, h2, h⟩ := cont_eq_ok h
        simp only [Rd.pure_run, Prod.mk.injEq, Out.ok.injEq] at h
        obtain ⟨⟨rfl, -⟩, -⟩ := h
        unfold Rd.limit at h2
        refine ⟨r1.take hd.len.toNat, (rd (r1.take hd.len.toNat)).2, ?_⟩
        rw [← (Prod.mk.inj h2).1]
  constructor
  · intro h hok
    unfold handByShake at hok
    split at hok <;> try (exact absurd hok (by simp))
    rename_i hrm
    split at hok
    · exact absurd hok (by simp)
    · simp only [Out.ok.injEq] at hok
      subst hok
      obtain ⟨s', r', hh⟩ := inner hrm
      have := C23_hand_gate E _ _ _ hh
      exact ⟨this.2.1, this.1⟩
  · intro receiver genesis sh hok
    unfold shakeByHand at hok
    split at hok
    case h_2 | h_3 | h_4 => cases hok
    split at hok
    case h_2 | h_3 | h_4 => cases hok
    simp only at hok
    split at hok
    case h_2 | h_3 | h_4 => cases hok
    rename_i hrm
    simp only [Out.ok.injEq] at hok
    subst hok
    obtain ⟨s', r', hh⟩ := inner hrm
    have := C23_shake_gate E _ _ _ hh
    exact ⟨this.2, this.1⟩

/-! ### C26 -/

/-- The nonce list after some calls of `NextNonce`, and the nonces drawn so far (a call that panics ends the
program, so it is not followed by others). -/
def draw : Nat → NonceList → Option (List UInt64 × NonceList)
  | 0, n => some ([], n)
  | k + 1, n =>
    match n.next with
    | .ok (x, n') => (draw k n').map fun (xs, m) => (x :: xs, m)
    | _ => none

theorem draw_ok {n : NonceList} (h : NoncesOK n) (k : Nat) :
    ∃ xs m, draw k n = some (xs, m) ∧ xs.length = k ∧ m.list = n.list ∧ NoncesOK m ∧ ∀ x ∈ xs, x ∈ n.list := by
  induction k generalizing n with
  | zero => exact ⟨[], n, rfl, rfl, rfl, h, by simp⟩
  | succ k ih =>
    obtain ⟨x, n', hx, hm, hl, hok⟩ := next_ok h
    obtain ⟨xs, m, h1, h2, h3, h4, h5⟩ := ih hok
    refine ⟨x :: xs, m, by simp [draw, hx, h1], by simp [h2], by rw [h3, hl], h4, ?_⟩
    intro y hy
    rcases List.mem_cons.1 hy with rfl | hy
    · exact hm
    · rw [← hl]; exact h5 y hy

/-- **C26.** From 100 random numbers, draw any number `k` of nonces; let `later` be any further number of
draws. A hand carrying any of the drawn nonces is refused, whatever its other fields and whatever follows,
and nothing is sent. No draw ever fails. -/
theorem C26_self_connection (E : Env) (random : List UInt64) (hlen : 100 ≤ random.length) (k later : Nat) :
    ∃ drawn m, draw k (NonceList.init random) = some (drawn, m) ∧ drawn.length = k ∧
      ∃ drawn' m', draw later m = some (drawn', m') ∧
        ∀ nonce ∈ drawn, ∀ (h : Hand) (v rest : Bytes), WellFormedHand E h → h.nonce = nonce →
          h.userAgent.length ≤ 1000000 → h.bytes = .ok v →
          (∃ e, (handByShake E m' ((writeMessage MsgTypeHand v).1 ++ rest)).result = .err e) ∧
          (handByShake E m' ((writeMessage MsgTypeHand v).1 ++ rest)).sent = [] := by
  have h0 : NoncesOK (NonceList.init random) := by
    refine ⟨?_, (by decide : 0 < 100)⟩
    simp only [NonceList.init, noncesCap, List.length_take]
    omega
  obtain ⟨xs, m, h1, h2, h3, h4, h5⟩ := draw_ok h0 k
  obtain ⟨ys, m', g1, g2, g3, g4, g5⟩ := draw_ok h4 later
  refine ⟨xs, m, h1, h2, ys, m', g1, ?_⟩
  intro nonce hnonce h v rest wf hn hua hv
  have hc : m'.consist h.nonce = true := by
    unfold NonceList.consist
    rw [List.any_eq_true]
    refine ⟨nonce, ?_, by simp [hn]⟩
    rw [g3, h3]; exact h5 _ hnonce
  obtain ⟨w, hw, hl, hrd⟩ := C23_hand_roundtrip E h wf
  rw [hv] at hw
  cases hw
  obtain ⟨-, -, n, -, hrm⟩ := C03_roundtrip MsgTypeHand (Hand.read E) v _ hrd (by omega)
  have : handByShake E m' ((writeMessage MsgTypeHand v).1 ++ rest) =
      { result := .err "detect connection to ourselves by nonce", sent := [], rest := rest, nonces := m' } := by
    simp only [handByShake, hrm rest]
    rw [if_pos hc]
  rw [this]
  exact ⟨⟨_, rfl⟩, rfl⟩

/-- The hands of C26 are those the node itself sends. -/
theorem C26_own_hand (E : Env) (hmem : 13 ≤ E.maxAlloc) (nonces : NonceList) (hn : NoncesOK nonces)
    (receiver : TCPAddr) (hr : IPv4 receiver) (genesis : Bytes) (hg : genesis.length = 32)
    (input rest : Bytes) (later : NonceList) (hl : later.list = nonces.list) :
    (∃ e, (handByShake E later ((shakeByHand E nonces receiver genesis input).sent ++ rest)).result = .err e) ∧
    (handByShake E later ((shakeByHand E nonces receiver genesis input).sent ++ rest)).sent = [] := by
  obtain ⟨x, n', hx, hmemx, -, -⟩ := next_ok hn
  obtain ⟨v, hv, hlv, hrd⟩ := ownHand_wf E hmem x receiver genesis hr hg
  have hs : (shakeByHand E nonces receiver genesis input).sent = (writeMessage MsgTypeHand v).1 := by
    simp only [shakeByHand, hx, hv]
    split <;> rfl
  obtain ⟨-, -, n, -, hrm⟩ := C03_roundtrip MsgTypeHand (Hand.read E) v _ hrd (by omega)
  have hc : later.consist x = true := by
    unfold NonceList.consist
    rw [List.any_eq_true]
    exact ⟨x, by rw [hl]; exact hmemx, by simp⟩
  have : handByShake E later ((writeMessage MsgTypeHand v).1 ++ rest) =
      { result := .err "detect connection to ourselves by nonce", sent := [], rest := rest, nonces := later } := by
    simp only [handByShake, hrm rest, ownHand]
    rw [if_pos hc]
  rw [hs, this]
  exact ⟨⟨_, rfl⟩, rfl⟩

/-- The first nonce drawn is the second of the table; after 100 draws the table is used again. -/
theorem C26_cycle (n : NonceList) (h : NoncesOK n) :
    ∃ xs m, draw 100 n = some (xs, m) ∧ m.idx = n.idx := by
  have gen : ∀ k (n : NonceList), NoncesOK n → ∃ xs m, draw k n = some (xs, m) ∧ m.idx = (n.idx + k) % 100 := by
    intro k
    induction k with
    | zero => intro n h; exact ⟨[], n, rfl, (Nat.mod_eq_of_lt h.2).symm⟩
    | succ k ih =>
      intro n h
      obtain ⟨x, n', hx, -, -, hok⟩ := next_ok h
      have hidx : n'.idx = (n.idx + 1) % 100 := by
        unfold NonceList.next at hx
        simp only at hx
        split at hx
        · simp only [Out.ok.injEq, Prod.mk.injEq] at hx
          rw [← hx.2]; rfl
        · simp at hx
      obtain ⟨xs, m, h1, h2⟩ := ih n' hok
      refine ⟨x :: xs, m, by simp [draw, hx, h1], ?_⟩
      rw [h2, hidx]; omega
  obtain ⟨xs, m, h1, h2⟩ := gen 100 n h
  exact ⟨xs, m, h1, by rw [h2]; have := h.2; omega⟩

/-- A call of one of the two handshake functions: an outgoing one to `receiver`, or an incoming one; `input` is
what the other side sends. -/
inductive HsCall
  | dial (receiver : TCPAddr) (genesis input : Bytes)
  | answer (input : Bytes)

/-- A history of handshakes of one process: what each outgoing one sent, in order, and the nonce table at the end. -/
def handshakes (E : Env) : NonceList → List HsCall → List Bytes × NonceList
  | n, [] => ([], n)
  | n, .dial receiver genesis input :: cs =>
    let r := shakeByHand E n receiver genesis input
    let rest := handshakes E r.nonces cs
    (r.sent :: rest.1, rest.2)
  | n, .answer input :: cs => handshakes E (handByShake E n input).nonces cs

/-- The call can be made: the address dialled is an IPv4 address and the genesis hash has 32 bytes. -/
def HsCall.Possible : HsCall → Prop
  | .dial receiver genesis _ => IPv4 receiver ∧ genesis.length = 32
  | .answer _ => True

/-- The eight bytes of the nonce in a hand on the wire: after the header (11 bytes), the version and the
capabilities (4 bytes each). -/
def nonceOnWire (sent : Bytes) : Bytes := (sent.drop 19).take 8

theorem dial_sends (E : Env) (hmem : 13 ≤ E.maxAlloc) (n : NonceList) (hn : NoncesOK n) (receiver : TCPAddr)
    (genesis input : Bytes) (hr : IPv4 receiver) (hg : genesis.length = 32) :
    (shakeByHand E n receiver genesis input).nonces = { n with idx := (n.idx + 1) % 100 } ∧
    ∃ x, n.list[(n.idx + 1) % 100]? = some x ∧
      nonceOnWire (shakeByHand E n receiver genesis input).sent = be64 x := by
  have hlt : (n.idx + 1) % 100 < n.list.length := by rw [hn.1]; omega
  have hnext : n.next = .ok (n.list[(n.idx + 1) % 100], { n with idx := (n.idx + 1) % 100 }) := by
    simp [NonceList.next, noncesCap, hlt]
  obtain ⟨v, hv, hl, -⟩ := ownHand_wf E hmem n.list[(n.idx + 1) % 100] receiver genesis hr hg
  have hs : (shakeByHand E n receiver genesis input).sent = (writeMessage MsgTypeHand v).1 ∧
      (shakeByHand E n receiver genesis input).nonces = { n with idx := (n.idx + 1) % 100 } := by
    simp only [shakeByHand, hnext, hv]
    split <;> exact ⟨rfl, rfl⟩
  refine ⟨hs.2, _, List.getElem?_eq_getElem hlt, ?_⟩
  rw [hs.1]
  obtain ⟨tail, ht⟩ : ∃ tail, v = be32 ProtocolVersion ++ be32 CapFullNode ++
      be64 n.list[(n.idx + 1) % 100] ++ tail := by
    simp only [Hand.bytes, ownHand] at hv
    cases hsb : serializeTCPAddr { ip := List.replicate 10 0 ++ [255, 255, 0, 0, 0, 0], port := 0 } with
    | ok sb =>
      cases hrb : serializeTCPAddr receiver with
      | ok rb =>
        rw [hsb, hrb] at hv
        have hv := Out.ok.inj hv
        exact ⟨be64 1 ++ (sb ++ (rb ++ (be64 (UInt64.ofNat userAgent.length) ++ (userAgent ++ genesis)))), by
          rw [← hv]; simp only [List.append_assoc]⟩
      | _ => rw [hsb, hrb] at hv; cases hv
    | _ => rw [hsb] at hv; cases hv
  rw [ht]
  simp only [nonceOnWire, writeMessage, Header.bytes, be64, be32, MagicCode]
  rfl

theorem sends_nonces (E : Env) (hmem : 13 ≤ E.maxAlloc) : ∀ (cs : List HsCall) (n : NonceList), NoncesOK n →
    (∀ c ∈ cs, c.Possible) →
    (handshakes E n cs).2.list = n.list ∧ NoncesOK (handshakes E n cs).2 ∧
    ∀ i sent, (handshakes E n cs).1[i]? = some sent →
      ∃ x, n.list[(n.idx + 1 + i) % 100]? = some x ∧ nonceOnWire sent = be64 x := by
  intro cs
  induction cs with
  | nil => intro n hn _; exact ⟨rfl, hn, by simp [handshakes]⟩
  | cons c cs ih =>
    intro n hn hp
    have hp' : ∀ c ∈ cs, c.Possible := fun x hx => hp x (List.mem_cons_of_mem _ hx)
    cases c with
    | answer input =>
      have : (handByShake E n input).nonces = n := by
        unfold handByShake
        split
        · split <;> rfl
        all_goals rfl
      simp only [handshakes, this]
      exact ih n hn hp'
    | dial receiver genesis input =>
      obtain ⟨hr, hg⟩ := hp _ List.mem_cons_self
      obtain ⟨h1, x, hx, hw⟩ := dial_sends E hmem n hn receiver genesis input hr hg
      have hn' : NoncesOK { n with idx := (n.idx + 1) % 100 } := ⟨hn.1, by show (n.idx + 1) % 100 < 100; omega⟩
      obtain ⟨g1, g2, g3⟩ := ih _ hn' hp'
      simp only [handshakes, h1]
      refine ⟨g1, g2, ?_⟩
      intro i sent hi
      cases i with
      | zero =>
        simp only [List.getElem?_cons_zero, Option.some.injEq] at hi
        exact ⟨x, by simpa using hx, by rw [← hi]; exact hw⟩
      | succ i =>
        obtain ⟨y, hy, hz⟩ := g3 i sent (by simpa using hi)
        refine ⟨y, ?_, hz⟩
        rw [← hy]
        congr 1
        show _ = ((n.idx + 1) % 100 + 1 + i) % 100
        omega

/-- **C26, histories.** In any history of outgoing and incoming handshakes of a process, whatever the other sides
send and whether the handshakes succeed or fail, the `i`-th outgoing hand (from 0) carries the table entry
`i + 1 mod 100`: every dial takes the next number. At the end a hand that carries any of the nonces sent is
refused and nothing is sent in reply. -/
theorem C26_history (E : Env) (hmem : 13 ≤ E.maxAlloc) (random : List UInt64) (hlen : 100 ≤ random.length)
    (cs : List HsCall) (hp : ∀ c ∈ cs, c.Possible) :
    let run := handshakes E (NonceList.init random) cs
    (∀ i sent, run.1[i]? = some sent →
      ∃ x, random[(i + 1) % 100]? = some x ∧ nonceOnWire sent = be64 x) ∧
    ∀ sent ∈ run.1, ∀ (h : Hand) (v rest : Bytes), WellFormedHand E h → be64 h.nonce = nonceOnWire sent →
      h.userAgent.length ≤ 1000000 → h.bytes = .ok v →
      (∃ e, (handByShake E run.2 ((writeMessage MsgTypeHand v).1 ++ rest)).result = .err e) ∧
      (handByShake E run.2 ((writeMessage MsgTypeHand v).1 ++ rest)).sent = [] := by
  intro run
  have h0 : NoncesOK (NonceList.init random) := by
    refine ⟨?_, (by decide : 0 < 100)⟩
    simp only [NonceList.init, noncesCap, List.length_take]
    omega
  obtain ⟨h1, -, h3⟩ := sends_nonces E hmem cs _ h0 hp
  refine ⟨?_, ?_⟩
  · intro i sent hi
    obtain ⟨x, hx, hw⟩ := h3 i sent hi
    refine ⟨x, ?_, hw⟩
    simp only [NonceList.init, noncesCap, Nat.zero_add] at hx
    rw [List.getElem?_take_of_lt (by omega)] at hx
    rw [← hx]; congr 2; omega
  · intro sent hs h v rest wf hn hua hv
    obtain ⟨i, hi, rfl⟩ := List.getElem_of_mem hs
    obtain ⟨x, hx, hw⟩ := h3 i _ (List.getElem?_eq_getElem hi)
    have hnx : h.nonce = x := by
      rw [hw] at hn
      have h1 := Rd.u64_be64 h.nonce []
      have h2 := Rd.u64_be64 x []
      rw [hn, h2] at h1
      simpa using h1.symm
    have hc : run.2.consist h.nonce = true := by
      unfold NonceList.consist
      rw [List.any_eq_true]
      exact ⟨x, by rw [h1]; exact List.mem_of_getElem? hx, by simp [hnx]⟩
    obtain ⟨w, hw', hl, hrd⟩ := C23_hand_roundtrip E h wf
    rw [hv] at hw'
    cases hw'
    obtain ⟨-, -, n, -, hrm⟩ := C03_roundtrip MsgTypeHand (Hand.read E) v _ hrd (by omega)
    have : handByShake E run.2 ((writeMessage MsgTypeHand v).1 ++ rest) =
        { result := .err "detect connection to ourselves by nonce", sent := [], rest := rest, nonces := run.2 } := by
      simp only [handByShake, hrm rest]
      rw [if_pos hc]
    rw [this]
    exact ⟨⟨_, rfl⟩, rfl⟩

/-- Such a history: two dials that fail because the other side closes, with an incoming connection in between. -/
example : ∀ c ∈ [HsCall.dial ⟨[127, 0, 0, 1], 13414⟩ (List.replicate 32 0) [], .answer [1],
    .dial ⟨[10, 0, 0, 1], 13414⟩ (List.replicate 32 0) []], c.Possible := by
  intro c hc
  simp only [List.mem_cons, List.not_mem_nil, or_false] at hc
  rcases hc with rfl | rfl | rfl
  · exact ⟨⟨rfl, by decide, by decide⟩, rfl⟩
  · trivial
  · exact ⟨⟨rfl, by decide, by decide⟩, rfl⟩

example : NoncesOK (NonceList.init (List.replicate 100 7)) := by
  constructor <;> decide

end Gringo.Props
