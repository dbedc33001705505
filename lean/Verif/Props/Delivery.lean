import Verif.Model.Send
import Verif.Spec.Delivery
import Verif.Props.Lifecycle
/-
C81, C82: from the `Send…` methods of one node to the handler of the other.
-/
namespace Gringo.Props
open Gringo.P2P Gringo.Spec

theorem write_eq_frame (t : UInt8) (v : Bytes) (h : v.length < 2 ^ 64) : (writeMessage t v).1 = frameBytes t v := by
  rw [frameBytes, be64_eq h]
  simp [writeMessage, Header.bytes, MagicCode]

/-- The 4-byte form. -/
theorem serialize_same {a b : TCPAddr} (h : SameEndpoint a b) : serializeTCPAddr a = serializeTCPAddr b := by
  obtain ⟨⟨h4, hip⟩, hp⟩ := h
  obtain ⟨ip, port⟩ := a
  obtain ⟨ip4, port'⟩ := b
  simp only at h4 hip hp
  subst hp
  rcases hip with rfl | rfl
  · rfl
  · have hto : to4 ([0, 0, 0, 0, 0, 0, 0, 0, 0, 0, 255, 255] ++ ip4) = some ip4 := by
      unfold to4
      rw [if_neg (by simp [h4]), if_pos]
      · simp
      · refine ⟨by simp [h4], ?_, ?_⟩ <;> simp [List.replicate]
    have hto' : to4 ip4 = some ip4 := by simp [to4, h4]
    simp only [serializeTCPAddr, hto, hto']

theorem serializeAll_same : ∀ {l l' : List TCPAddr}, List.Forall₂ SameEndpoint l l' → serializeAll l = serializeAll l'
  | _, _, .nil => rfl
  | _, _, .cons h t => by simp only [serializeAll, serialize_same h, serializeAll_same t]

theorem fourByteForm : ∀ (l : List TCPAddr), (∀ a ∈ l, PortOK a ∧ ∃ ip4, SameIPv4 a.ip ip4) →
    ∃ l', List.Forall₂ SameEndpoint l l' ∧ ∀ a ∈ l', IPv4 a
  | [], _ => ⟨[], .nil, by simp⟩
  | a :: t, h => by
    obtain ⟨l', h1, h2⟩ := fourByteForm t (fun x hx => h x (List.mem_cons_of_mem _ hx))
    obtain ⟨hp, ip4, h4⟩ := h a (List.mem_cons_self ..)
    refine ⟨⟨ip4, a.port⟩ :: l', .cons ⟨h4, rfl⟩ h1, ?_⟩
    intro x hx
    rcases List.mem_cons.1 hx with rfl | hx
    · exact ⟨h4.1, hp⟩
    · exact h2 x hx

/-- Every deliverable message can be serialised, and its frame stands for what should arrive. -/
theorem deliverable_carries (E : Env) (P : Point → Prop) (Q : E.Prf → Prop) (hE : PointCodec E P)
    (hQ : PrfCodec E Q) (hS : SortOK E) (hmem : 1000000 * (104 + E.outputSize) ≤ E.maxAlloc) (m : Message E)
    (hm : Deliverable P Q m) :
    ∃ v m', m.bytes = .ok v ∧ ArrivesAs E m m' ∧ Carries E m.type v (some m') := by
  have fin : ∀ {α : Type} {rd : Rd α} {v : Bytes} {a : α}, Reads rd v a → rd v = (.ok a, []) := by
    intro α rd v a h
    have := h []
    rwa [List.append_nil] at this
  cases m with
  | ping m => exact ⟨_, _, rfl, .ping m, .ping _ _ _ (fin (C02_ping m).2)⟩
  | pong m => exact ⟨_, _, rfl, .pong m, .pong _ _ _ (fin (C02_pong m))⟩
  | getPeerAddrs m => exact ⟨_, _, rfl, .getPeerAddrs m, .getPeerAddrs _ _ _ (fin (C02_get_peer_addrs m).2)⟩
  | peerAddrs m =>
    obtain ⟨hn, ha⟩ := hm
    obtain ⟨l', h1, h2⟩ := fourByteForm m.peers ha
    have hl := h1.length_eq
    obtain ⟨v, hv, -, hr⟩ := C22_list_partial ⟨l'⟩ (by simp only; omega) h2
    refine ⟨v, .peerAddrs ⟨l'⟩, ?_, .peerAddrs _ _ h1, .peerAddrs _ _ _ (fin hr)⟩
    rw [← hv]
    simp only [Message.bytes, PeerAddrs.bytes, serializeAll_same h1, hl]
  | getHeaders m =>
    obtain ⟨v, hv, -, hr⟩ := C20_locator_roundtrip m hm.1 hm.2
    exact ⟨v, _, hv, .getHeaders m, .getHeaders _ _ _ (fin hr)⟩
  | header m =>
    obtain ⟨v, hv, -, hr⟩ := C12_header_roundtrip E (by omega) m hm
    exact ⟨v, _, hv, .header m, .header _ _ _ (fin hr)⟩
  | headers m =>
    obtain ⟨v, hv, hr⟩ := C21_headers_roundtrip E (by omega) m hm.1 hm.2
    exact ⟨v, _, hv, .headers m, .headers _ _ _ (fin hr)⟩
  | getBlock m =>
    obtain ⟨hv, hr⟩ := (C02_get_block m).1 hm
    exact ⟨m.hash, _, hv, .getBlock m, .getBlock _ _ _ (fin hr)⟩
  | block m =>
    obtain ⟨wf, hi, ho, hk, ni, no, nk⟩ := hm
    obtain ⟨v, b', hv, hr, h1, h2, h3, h4⟩ := C14_block_roundtrip E P Q hE hQ hS (by omega) hmem m wf hi ho hk ni no nk
    exact ⟨v, _, hv, .block m b' h1 h2 h3 h4, .block _ _ _ (fin hr)⟩
  | transaction m =>
    obtain ⟨hoff, hin, ho, hk, no, nk⟩ := hm
    obtain ⟨t', hr, h1, h2, h3, h4⟩ := C17_no_inputs_partial E P Q hE hQ hS hmem m hoff hin ho hk no nk
    refine ⟨_, _, rfl, .transaction m t' h1 ?_ h3 h4, .transaction _ _ _ (fin hr)⟩
    rw [hin, h2]
    exact ⟨.refl _, .nil⟩

theorem deliverable_frames (E : Env) (P : Point → Prop) (Q : E.Prf → Prop) (hE : PointCodec E P)
    (hQ : PrfCodec E Q) (hS : SortOK E) (hmem : 1000000 * (104 + E.outputSize) ≤ E.maxAlloc) :
    ∀ (ms : List (Message E)), (∀ m ∈ ms, Deliverable P Q m) →
      (∀ m ∈ ms, ∀ v, m.bytes = .ok v → v.length ≤ 20000000) →
    ∃ (fs : List (GoodFrame E)), List.Forall₂ (fun m f => m.frame = .ok (frameBytes f.type f.body)) ms fs ∧
      List.Forall₂ (ArrivesAs E) ms (messagesOf fs)
  | [], _, _ => ⟨[], .nil, .nil⟩
  | m :: ms, hd, hsz => by
    obtain ⟨fs, h1, h2⟩ := deliverable_frames E P Q hE hQ hS hmem ms (fun x hx => hd x (List.mem_cons_of_mem _ hx))
      (fun x hx => hsz x (List.mem_cons_of_mem _ hx))
    obtain ⟨v, m', hv, ha, hc⟩ := deliverable_carries E P Q hE hQ hS hmem m (hd m (List.mem_cons_self ..))
    have hl := hsz m (List.mem_cons_self ..) v hv
    refine ⟨⟨m.type, v, some m', hl, hc⟩ :: fs, .cons ?_ h1, ?_⟩
    · simp only [Message.frame, hv, Out.bind_ok, Out.pure_def, write_eq_frame m.type v (by omega)]
    · exact .cons ha h2

theorem frames_flatten {E : Env} (ms : List (Message E)) (fs : List (GoodFrame E))
    (h : List.Forall₂ (fun m f => m.frame = .ok (frameBytes f.type f.body)) ms fs) :
    List.Forall₂ (fun m b => m.frame = .ok b) ms (fs.map fun f => frameBytes f.type f.body) := by
  induction h with
  | nil => exact .nil
  | cons h _ ih => exact .cons h ih

/-- **C81, delivery.** Any list of deliverable messages of at most 20 000 000 bytes each can be written, and the
read loop on the other side, given all the bytes written, hands on exactly these messages in this order, counts
exactly these bytes, and ends at the end of the stream. Missing for the full property: IPv6 addresses,
transactions with inputs and longer messages; see below. -/
theorem C81_delivered_partial (E : Env) (P : Point → Prop) (Q : E.Prf → Prop) (hE : PointCodec E P)
    (hQ : PrfCodec E Q) (hS : SortOK E) (hmem : 1000000 * (104 + E.outputSize) ≤ E.maxAlloc) (ms : List (Message E))
    (hd : ∀ m ∈ ms, Deliverable P Q m) (hsz : ∀ m ∈ ms, ∀ v, m.bytes = .ok v → v.length ≤ 20000000) :
    ∃ (written : List Bytes), List.Forall₂ (fun m b => m.frame = .ok b) ms written ∧
      List.Forall₂ (ArrivesAs E) ms (readHandler E written.flatten).dispatched ∧
      (readHandler E written.flatten).received = UInt64.ofNat written.flatten.length ∧
      (readHandler E written.flatten).ending = .exit (some "EOF") := by
  obtain ⟨fs, h1, h2⟩ := deliverable_frames E P Q hE hQ hS hmem ms hd hsz
  obtain ⟨g1, g2, g3⟩ := C07_exact_split E (by omega) fs
  have e : (fs.map fun f => frameBytes f.type f.body).flatten = streamOf fs := by
    rw [streamOf, List.flatMap_def]
  exact ⟨_, frames_flatten ms fs h1, by rw [e, g1]; exact h2, by rw [e, g2], by rw [e, g3]⟩

/-- What `WriteMessage` writes of a message that can be serialised. -/
def wireOf {E : Env} (m : Message E) : Bytes := match m.frame with | .ok b => b | _ => []

/-- **C81, every schedule.** Whatever the goroutines of the sending peer did so far (any schedule, any number of
concurrent senders, a connection that takes the bytes in pieces or breaks): the messages the remote read loop has
handed on are a prefix of the messages accepted for sending, each as it should arrive. -/
theorem C81_prefix_partial (E : Env) (P : Point → Prop) (Q : E.Prf → Prop) (hE : PointCodec E P)
    (hQ : PrfCodec E Q) (hS : SortOK E) (hmem : 1000000 * (104 + E.outputSize) ≤ E.maxAlloc)
    (hmem2 : 20000000 ≤ E.maxAlloc) {s : Lifecycle.Peer {m : Message E // ∃ b, m.frame = .ok b}}
    (h : Lifecycle.Reachable (fun m => wireOf m.1) s)
    (hd : ∀ m ∈ s.accepted, Deliverable P Q m.1)
    (hsz : ∀ m ∈ s.accepted, ∀ v, m.1.bytes = .ok v → v.length ≤ 20000000) :
    ∃ got, List.Forall₂ (ArrivesAs E) (s.accepted.map (·.1)) got ∧ (readHandler E s.wire).dispatched <+: got := by
  obtain ⟨fs, h1, h2⟩ := deliverable_frames E P Q hE hQ hS hmem (s.accepted.map (·.1))
    (by intro m hm; obtain ⟨x, hx, rfl⟩ := List.mem_map.1 hm; exact hd x hx)
    (by intro m hm; obtain ⟨x, hx, rfl⟩ := List.mem_map.1 hm; exact hsz x hx)
  refine ⟨_, h2, ?_⟩
  have hne : ∀ m : {m : Message E // ∃ b, m.frame = .ok b}, wireOf m.1 ≠ [] := by
    rintro ⟨m, b, hb⟩
    simp only [wireOf, hb]
    simp only [Message.frame] at hb
    cases hv : m.bytes with
    | ok v =>
      rw [hv] at hb
      simp only [Out.bind_ok, Out.pure_def, Out.ok.injEq] at hb
      rw [← hb]
      simp [writeMessage, Header.bytes, MagicCode]
    | err _ => rw [hv] at hb; cases hb
    | panic _ => rw [hv] at hb; cases hb
    | fatal _ => rw [hv] at hb; cases hb
  obtain ⟨⟨done, last, p, ha, -, hw, ⟨q, hq⟩, -⟩, -⟩ := C68_order hne h
  have e1 : s.wire ++ q = s.accepted.flatMap fun m => wireOf m.1 := by
    rw [hw, ha, List.append_assoc, hq, List.flatMap_append]
  have e2 : ∀ (l : List {m : Message E // ∃ b, m.frame = .ok b}) (fs : List (GoodFrame E)),
      List.Forall₂ (fun m f => m.frame = .ok (frameBytes f.type f.body)) (l.map (·.1)) fs →
      (l.flatMap fun m => wireOf m.1) = streamOf fs := by
    intro l
    induction l with
    | nil => intro fs h; cases h; rfl
    | cons x l ih =>
      intro fs h
      cases h with
      | cons hx ht =>
        rename_i f fs
        have hx' : x.1.frame = .ok (frameBytes f.type f.body) := hx
        have hw : wireOf x.1 = frameBytes f.type f.body := by simp only [wireOf, hx']
        rw [List.flatMap_cons, hw, ih _ ht]
        rfl
  have := C09_causal E hmem2 s.wire q
  rw [e1, e2 _ _ h1, (C07_exact_split E hmem2 fs).1] at this
  exact this

/-- **C81 is false of the code for long messages**: the sender does not look at the limit of 20 000 000 bytes that
the receiver enforces. A message with a longer body is written all the same; the remote read loop hands on what
came before it and then ends: it, and everything behind it, is lost with the connection. -/
theorem C81_refuted (E : Env) (hmem : 20000000 ≤ E.maxAlloc) (fs : List (GoodFrame E)) (m : Message E) (v : Bytes)
    (hv : m.bytes = .ok v) (hbig : 20000000 < v.length) (h64 : v.length < 2 ^ 64) (rest : Bytes) :
    ∃ b, m.frame = .ok b ∧ (readHandler E (streamOf fs ++ (b ++ rest))).dispatched = messagesOf fs ∧
      (readHandler E (streamOf fs ++ (b ++ rest))).ending = .exit (some "too big message size") := by
  refine ⟨frameBytes m.type v, ?_, ?_⟩
  · simp only [Message.frame, hv, Out.bind_ok, Out.pure_def, write_eq_frame m.type v h64]
  have h64' : (UInt64.ofNat v.length).toNat = v.length := by
    rw [UInt64.toNat_ofNat']; exact Nat.mod_eq_of_lt h64
  have hgt : UInt64.ofNat v.length > MaxMsgLen := by
    apply UInt64.lt_iff_toNat_lt.2
    rw [h64']
    exact hbig
  have hs : readStep E (frameBytes m.type v ++ rest) = .stop (.exit (some "too big message size")) := by
    rw [frameBytes, List.append_assoc ([0x54, 0x34, m.type] ++ be 8 v.length)]
    simp only [readStep, header_read_frame m.type v.length h64]
    rw [if_pos hgt]
  obtain ⟨h1, -, h3⟩ := C07_frames_first E hmem fs (frameBytes m.type v ++ rest)
  rw [h1, h3, readHandler, readLoop, hs]
  simp

theorem serialize_length {a : TCPAddr} {v : Bytes} (h : serializeTCPAddr a = .ok v) : v.length ≤ 11 := by
  have key : ∀ ip : Bytes, (if ip.length = 4 then Out.ok ([0] ++ ip ++ be16 (portBits a.port))
      else if ip.length = 16 then .ok ([1] ++ ip.take 8 ++ be16 (portBits a.port))
      else .fatal "invalid netaddr") = .ok v → v.length ≤ 11 := by
    intro ip h
    by_cases h4 : ip.length = 4
    · rw [if_pos h4] at h; cases h; simp [h4]
    by_cases h16 : ip.length = 16
    · rw [if_neg h4, if_pos h16] at h; cases h; simp [h16]
    · rw [if_neg h4, if_neg h16] at h; cases h
  exact key _ h

theorem serializeAll_length : ∀ {l : List TCPAddr} {v : Bytes}, serializeAll l = .ok v → v.length ≤ 11 * l.length
  | [], v, h => by cases h; simp
  | a :: t, v, h => by
    rw [serializeAll] at h
    cases ha : serializeTCPAddr a with
    | ok x =>
      rw [ha, Out.bind_ok] at h
      cases ht : serializeAll t with
      | ok y =>
        rw [ht, Out.bind_ok] at h
        cases h
        have h1 := serialize_length ha
        have h2 := serializeAll_length ht
        simp only [List.length_append, List.length_cons]
        omega
      | err _ => rw [ht] at h; cases h
      | panic _ => rw [ht] at h; cases h
      | fatal _ => rw [ht] at h; cases h
    | err _ => rw [ha] at h; cases h
    | panic _ => rw [ha] at h; cases h
    | fatal _ => rw [ha] at h; cases h

/-- **C81 is false of the code for address lists with an IPv6 address**: the message is written and the remote
read loop ends at it, whatever comes behind. -/
theorem C81_refuted_ipv6 (E : Env) (hmem : 20000000 ≤ E.maxAlloc) (fs : List (GoodFrame E))
    (pre post : List TCPAddr) (a : TCPAddr) (hpre : ∀ x ∈ pre, IPv4 x) (h16 : a.ip.length = 16)
    (hv6 : ¬ (a.ip.take 10 = List.replicate 10 0 ∧ (a.ip.drop 10).take 2 = [255, 255]))
    (b rest : Bytes) (hb : (Message.peerAddrs ⟨pre ++ a :: post⟩ : Message E).frame = .ok b) :
    (readHandler E (streamOf fs ++ (b ++ rest))).dispatched = messagesOf fs ∧
    (readHandler E (streamOf fs ++ (b ++ rest))).ending ≠ .flagged := by
  simp only [Message.frame, Message.bytes] at hb
  cases hv : (PeerAddrs.mk (pre ++ a :: post)).bytes with
  | ok v =>
    rw [hv] at hb
    simp only [Out.bind_ok, Out.pure_def, Out.ok.injEq] at hb
    have hn : (pre ++ a :: post).length ≤ 256 := by
      by_cases h : (pre ++ a :: post).length ≤ 256
      · exact h
      · rw [PeerAddrs.bytes, if_pos (by simp only; unfold MaxPeerAddrs; omega)] at hv; cases hv
    have hl : v.length < 2 ^ 64 := by
      rw [PeerAddrs.bytes, if_neg (by simp only; unfold MaxPeerAddrs; omega)] at hv
      simp only at hv
      cases hs : serializeAll (pre ++ a :: post) with
      | ok w =>
        have := serializeAll_length hs
        rw [hs, Out.bind_ok] at hv
        cases hv
        simp only [List.length_append, be32_length] at this ⊢
        simp only [List.length_append] at hn
        omega
      | err _ => rw [hs] at hv; cases hv
      | panic _ => rw [hs] at hv; cases hv
      | fatal _ => rw [hs] at hv; cases hv
    have hf : Fault E (b ++ rest) := by
      rw [← hb, write_eq_frame _ v hl]
      refine .undecodable _ _ _ hl ?_
      intro m hm
      have ht : (Message.peerAddrs ⟨pre ++ a :: post⟩ : Message E).type = 6 := rfl
      rw [ht] at hm
      cases hm with
      | peerAddrs _ r m h =>
        obtain ⟨e, he⟩ := C22_refuted_list pre post a hpre hn h16 hv6 v hv []
        rw [List.append_nil, h] at he
        cases he
    obtain ⟨h1, -, h3⟩ := C08_stops_at_fault E hmem fs _ hf
    exact ⟨by rw [h1, (C07_exact_split E hmem fs).1], h3⟩
  | err _ => rw [hv] at hb; cases hb
  | panic _ => rw [hv] at hb; cases hb
  | fatal _ => rw [hv] at hb; cases hb

/-! ### Concrete cases for C81 -/

/-- A ping, a request, a list of two addresses in both forms and a block: all deliverable, and short. -/
def sampleMessages : List (Message Toy.env) :=
  [.ping ⟨5, 7⟩, .getHeaders ⟨[List.replicate 32 1]⟩,
   .peerAddrs ⟨[⟨[127, 0, 0, 1], 13414⟩, ⟨[0, 0, 0, 0, 0, 0, 0, 0, 0, 0, 255, 255, 10, 0, 0, 1], 80⟩]⟩,
   .block sampleBlock]

theorem sampleBlock_deliverable : Deliverable Toy.OKPoint (fun _ => True) (.block sampleBlock) := by
  refine ⟨sampleHeader_wf, ?_, ?_, ?_, by simp [sampleBlock], by simp [sampleBlock], by simp [sampleBlock]⟩
  · intro i hi; simp [sampleBlock] at hi; rcases hi with rfl | rfl <;> rfl
  · intro o ho; simp [sampleBlock] at ho; subst ho; exact ⟨⟨by norm_num, by norm_num⟩, trivial, by simp⟩
  · intro k hk; simp [sampleBlock] at hk; subst hk; exact ⟨⟨by norm_num, by norm_num⟩, rfl⟩

set_option maxRecDepth 100000 in
theorem sampleMessages_short : ∀ m ∈ sampleMessages, ∀ v, m.bytes = .ok v → v.length ≤ 20000000 := by
  have key : (sampleMessages.all fun m => match m.bytes with | .ok v => decide (v.length ≤ 20000000) | _ => true) = true := by
    decide +kernel
  intro m hm v hv
  have := List.all_eq_true.1 key m hm
  rw [hv] at this
  simpa using this

/-- The four messages arrive. -/
example : ∃ written : List Bytes, List.Forall₂ (fun m b => m.frame = .ok b) sampleMessages written ∧
    List.Forall₂ (ArrivesAs Toy.env) sampleMessages (readHandler Toy.env written.flatten).dispatched := by
  obtain ⟨w, h1, h2, -⟩ := C81_delivered_partial Toy.env Toy.OKPoint (fun _ => True) Toy.pointCodec Toy.prfCodec
    Toy.sortOK (by norm_num) sampleMessages
    (by
      intro m hm
      simp only [sampleMessages, List.mem_cons, List.not_mem_nil, or_false] at hm
      rcases hm with rfl | rfl | rfl | rfl
      · trivial
      · exact ⟨by simp, by simp⟩
      · refine ⟨by simp, ?_⟩
        intro a ha
        simp only [List.mem_cons, List.not_mem_nil, or_false] at ha
        rcases ha with rfl | rfl
        · exact ⟨⟨by decide, by decide⟩, [127, 0, 0, 1], rfl, .inl rfl⟩
        · exact ⟨⟨by decide, by decide⟩, [10, 0, 0, 1], rfl, .inr rfl⟩
      · exact sampleBlock_deliverable)
    sampleMessages_short
  exact ⟨w, h1, h2⟩

/-- A block with 200 000 kernels: well within the list limits, and more than 20 000 000 bytes. -/
def longBlock : Block Toy.env :=
  { sampleBlock with
    kernels := List.replicate 200000
      { features := 1, fee := 3, lockHeight := 4, excess := ⟨6, 0⟩, excessSig := List.replicate 64 8 } }

theorem kernels_length (E : Env) (P : Point → Prop) (hE : PointCodec E P) : ∀ (l : List TxKernel), KernelsOK P l →
    (l.flatMap (TxKernel.bytes E)).length = 114 * l.length
  | [], _ => rfl
  | k :: t, h => by
    obtain ⟨h1, h2⟩ := h k (List.mem_cons_self ..)
    rw [List.flatMap_cons, List.length_append, (C28_kernel E P hE k h1 h2).1,
      kernels_length E P hE t (fun x hx => h x (List.mem_cons_of_mem _ hx)), List.length_cons]
    omega

theorem block_at_least (E : Env) (P : Point → Prop) (hE : PointCodec E P) (hS : SortOK E) (hmem : 336 ≤ E.maxAlloc)
    (b : Block E) (wf : WellFormedHeader b.header) (hk : KernelsOK P b.kernels) :
    ∃ v, b.bytes = .ok v ∧ 114 * b.kernels.length ≤ v.length := by
  obtain ⟨w, hw, -, -⟩ := C12_header_roundtrip E hmem b.header wf
  refine ⟨_, by simp only [Block.bytes, Block.bytesAndState, hw, Out.bind_ok, Out.pure_def]; rfl, ?_⟩
  have hp : b.sorted.kernels.Perm b.kernels := hS.perm (kernelKey E) b.kernels
  have hk' : KernelsOK P b.sorted.kernels := fun k h => hk k (hp.mem_iff.1 h)
  have := kernels_length E P hE _ hk'
  rw [hp.length_eq] at this
  rw [List.length_append, this]
  omega

/-- It meets the hypotheses of `C81_refuted`, being deliverable but for its size. -/
theorem longBlock_long : Deliverable Toy.OKPoint (fun _ => True) (.block longBlock) ∧
    ∃ v, (Message.block longBlock).bytes = .ok v ∧ 20000000 < v.length := by
  obtain ⟨wf, hi, ho, -, ni, no, -⟩ := sampleBlock_deliverable
  have hk : KernelsOK Toy.OKPoint longBlock.kernels := by
    intro k hk
    have := List.eq_of_mem_replicate hk
    subst this
    exact ⟨⟨by norm_num, by norm_num⟩, rfl⟩
  have nk : longBlock.kernels.length = 200000 := List.length_replicate ..
  refine ⟨⟨wf, hi, ho, hk, ni, no, by rw [nk]; norm_num⟩, ?_⟩
  obtain ⟨v, hv, hl⟩ := block_at_least Toy.env Toy.OKPoint Toy.pointCodec Toy.sortOK (by norm_num) longBlock wf hk
  rw [nk] at hl
  exact ⟨v, hv, by omega⟩

/-! ### C82 -/

/-- **C82, requests.** Each `Send…` method queues exactly the message it is named after with the given content;
a ping always reports difficulty 1 and height 1. -/
theorem C82_queued {E : Env} :
    sendPing (E := E) = .ok (.ping ⟨1, 1⟩) ∧
    (∀ c, sendPeerRequest (E := E) c = .ok (.getPeerAddrs ⟨c⟩)) ∧
    (∀ b : Block E, sendBlock b = .ok (.block b)) ∧
    (∀ t : Transaction E, sendTransaction t = .ok (.transaction t)) ∧
    (∀ h : Bytes, h.length = 32 → sendBlockRequest (E := E) h = .ok (.getBlock ⟨h⟩)) ∧
    (∀ l : Locator, l.hashes.length ≤ 14 → sendHeaderRequest (E := E) l = .ok (.getHeaders l)) := by
  refine ⟨rfl, fun _ => rfl, fun _ => rfl, fun _ => rfl, ?_, ?_⟩
  · intro h hl; rw [sendBlockRequest, if_neg (by omega)]
  · intro l hl; rw [sendHeaderRequest, if_neg (by unfold MaxLocators; omega)]

/-- **C82, arrival.** What the requests of a node turn into on the other side: a block request with a 32-byte
hash, a header request with up to 14 hashes of 32 bytes and a peer request arrive as they are. -/
theorem C82_arrives {E : Env} (hmem : 20000000 ≤ E.maxAlloc) :
    (∀ h : Bytes, h.length = 32 → ∃ m b, sendBlockRequest (E := E) h = .ok m ∧ m.frame = .ok b ∧
      (readHandler E b).dispatched = [.getBlock ⟨h⟩]) ∧
    (∀ l : Locator, l.hashes.length ≤ 14 → (∀ x ∈ l.hashes, x.length = 32) →
      ∃ m b, sendHeaderRequest (E := E) l = .ok m ∧ m.frame = .ok b ∧
      (readHandler E b).dispatched = [.getHeaders l]) ∧
    (∀ c, ∃ m b, sendPeerRequest (E := E) c = .ok m ∧ m.frame = .ok b ∧
      (readHandler E b).dispatched = [.getPeerAddrs ⟨c⟩]) ∧
    (∃ m b, sendPing (E := E) = .ok m ∧ m.frame = .ok b ∧ (readHandler E b).dispatched = [.ping ⟨1, 1⟩]) := by
  have one : ∀ (m : Message E) (v : Bytes), m.bytes = .ok v → v.length ≤ 20000000 →
      Carries E m.type v (some m) → ∃ b, m.frame = .ok b ∧ (readHandler E b).dispatched = [m] := by
    intro m v hv hl hc
    refine ⟨frameBytes m.type v, ?_, ?_⟩
    · simp only [Message.frame, hv, Out.bind_ok, Out.pure_def, write_eq_frame m.type v (by omega)]
    · have := (C07_exact_split E hmem [⟨m.type, v, some m, hl, hc⟩]).1
      simpa [streamOf, messagesOf] using this
  have fin : ∀ {α : Type} {rd : Rd α} {v : Bytes} {a : α}, Reads rd v a → rd v = (.ok a, []) := by
    intro α rd v a h
    have := h []
    rwa [List.append_nil] at this
  refine ⟨?_, ?_, ?_, ?_⟩
  · intro h hl
    obtain ⟨hv, hr⟩ := (C02_get_block ⟨h⟩).1 hl
    obtain ⟨b, h1, h2⟩ := one (.getBlock ⟨h⟩) h hv (by omega) (.getBlock _ _ _ (fin hr))
    exact ⟨_, b, C82_queued.2.2.2.2.1 h hl, h1, h2⟩
  · intro l hn hx
    obtain ⟨v, hv, hlen, hr⟩ := C20_locator_roundtrip l hn hx
    obtain ⟨b, h1, h2⟩ := one (.getHeaders l) v hv (by omega) (.getHeaders _ _ _ (fin hr))
    exact ⟨_, b, C82_queued.2.2.2.2.2 l hn, h1, h2⟩
  · intro c
    obtain ⟨b, h1, h2⟩ := one (.getPeerAddrs ⟨c⟩) _ rfl (by simp [GetPeerAddrs.bytes])
      (.getPeerAddrs _ _ _ (fin (C02_get_peer_addrs ⟨c⟩).2))
    exact ⟨_, b, rfl, h1, h2⟩
  · obtain ⟨b, h1, h2⟩ := one (.ping ⟨1, 1⟩) _ rfl (by simp [Ping.bytes]) (.ping _ _ _ (fin (C02_ping ⟨1, 1⟩).2))
    exact ⟨_, b, rfl, h1, h2⟩

/-- **C82 is false of the code for arguments of another length**: a request for a hash that does not have 32 bytes
is either a panic in the caller or queued and then ends the sending process; so does a locator of more than 14
hashes, in the caller. -/
theorem C82_refuted {E : Env} :
    (∀ h : Bytes, h.length ≠ 32 → (∃ p, sendBlockRequest (E := E) h = .panic p) ∨
      ∃ m p, sendBlockRequest (E := E) h = .ok m ∧ m.frame = .fatal p) ∧
    (∀ l : Locator, 14 < l.hashes.length → ∃ p, sendHeaderRequest (E := E) l = .fatal p) := by
  constructor
  · intro h hl
    by_cases h6 : h.length < 6
    · exact .inl ⟨_, by rw [sendBlockRequest, if_pos h6]⟩
    · refine .inr ⟨.getBlock ⟨h⟩, "invalid block hash len", by rw [sendBlockRequest, if_neg h6], ?_⟩
      have hb : (Message.getBlock ⟨h⟩ : Message E).bytes = .fatal "invalid block hash len" := by
        rw [Message.bytes, GetBlock.bytes, if_pos (show h.length ≠ BlockHashSize from hl)]
      rw [Message.frame, hb]
      rfl
  · intro l hl
    exact ⟨_, by rw [sendHeaderRequest, if_pos (by unfold MaxLocators; omega)]⟩

/-- Every node of the network answers pings with the difficulty and height it was told (C60), so the two ones a
node announces are what the others know of it. -/
example : ∃ b, (Message.ping ⟨1, 1⟩ : Message Toy.env).frame = .ok b ∧
    (readHandler Toy.env b).dispatched = [.ping ⟨1, 1⟩] := by
  obtain ⟨-, -, -, m, b, h1, h2, h3⟩ := C82_arrives (E := Toy.env) (by norm_num)
  cases h1
  exact ⟨b, h2, h3⟩

end Gringo.Props
