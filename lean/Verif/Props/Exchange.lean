import Verif.Props.Session
import Verif.Props.Delivery
import Verif.Props.Chain
/-
C97: a request and its answer, from one node to another and back.
-/
namespace Gringo.Props
open Gringo.Spec Gringo.P2P

variable {E : Env}

/-- The messages that ask for something. -/
def IsRequest : Message E → Prop
  | .ping _ | .getPeerAddrs _ | .getHeaders _ | .getBlock _ => True
  | _ => False

/-- An answer as a message. -/
def replyMessage : Reply E → Message E
  | .pong m => .pong m
  | .peerAddrs m => .peerAddrs m
  | .headers m => .headers m
  | .block b => .block b

theorem request_short (P : Point → Prop) (Q : E.Prf → Prop) (m : Message E) (hr : IsRequest m)
    (hd : Deliverable P Q m) (v : Bytes) (hv : m.bytes = .ok v) : v.length ≤ 20000000 := by
  cases m with
  | ping m => cases hv; simp [Ping.bytes]
  | getPeerAddrs m => cases hv; simp [GetPeerAddrs.bytes]
  | getHeaders m =>
    obtain ⟨v', hv', hl, -⟩ := C20_locator_roundtrip m hd.1 hd.2
    have := hd.1
    have hvv : m.bytes = .ok v := hv
    rw [hv'] at hvv; cases hvv; omega
  | getBlock m =>
    obtain ⟨hv', -⟩ := (C02_get_block m).1 hd
    have h32 : m.hash.length = 32 := hd
    have hvv : m.bytes = .ok v := hv
    rw [hv'] at hvv; cases hvv; omega
  | pong | peerAddrs | header | headers | block | transaction => cases hr

theorem headersBytes_length (hmem : 336 ≤ E.maxAlloc) : ∀ (l : List BlockHeader) (v : Bytes),
    (∀ h ∈ l, WellFormedHeader h) → headersBytes l = .ok v → v.length ≤ 583 * l.length
  | [], v, _, h => by cases h; simp
  | x :: t, v, hw, h => by
    obtain ⟨w, hwb, hwl, -⟩ := C12_header_roundtrip E hmem x (hw x (List.mem_cons_self ..))
    have hp := (hw x (List.mem_cons_self ..)).pow.2.1
    rw [headersBytes, hwb, Out.bind_ok] at h
    cases ht : headersBytes t with
    | ok u =>
      rw [ht, Out.bind_ok] at h
      cases h
      have := headersBytes_length hmem t u (fun y hy => hw y (List.mem_cons_of_mem _ hy)) ht
      simp only [List.length_append, List.length_cons]
      omega
    | _ => rw [ht] at h; cases h

/-- Up to 512 headers are never too long. -/
theorem headers_short (hmem : 336 ≤ E.maxAlloc) (m : BlockHeaders) (hw : ∀ h ∈ m.headers, WellFormedHeader h)
    (v : Bytes) (hv : m.bytes = .ok v) : v.length ≤ 20000000 := by
  unfold BlockHeaders.bytes at hv
  split at hv
  · cases hv
  · rename_i hn
    unfold MaxBlockHeaders at hn
    cases ht : headersBytes m.headers with
    | ok u =>
      rw [ht, Out.bind_ok] at hv
      cases hv
      have := headersBytes_length hmem m.headers u hw ht
      simp only [List.length_append, be16_length]
      omega
    | _ => rw [ht] at hv; cases hv

theorem request_same {m m' : Message E} (hr : IsRequest m) (h : ArrivesAs E m m') : m' = m := by
  cases h <;> first | rfl | cases hr

theorem requests_same : ∀ {l l' : List (Message E)}, (∀ m ∈ l, IsRequest m) → List.Forall₂ (ArrivesAs E) l l' → l' = l
  | _, _, _, .nil => rfl
  | _, _, hr, .cons h t => by
    rw [request_same (hr _ (List.mem_cons_self ..)) h, requests_same (fun m hm => hr m (List.mem_cons_of_mem _ hm)) t]

/-- Requests have answers to the asking side only. -/
theorem answered_replies {c : Chain E} {st : Storage E} {hh : Bytes} : ∀ {ms : List (Message E)} {es : List (Effect E)},
    Answered c st hh ms es → (∀ m ∈ ms, IsRequest m) → ∃ rs : List (Reply E), es = rs.map .reply := by
  intro ms es h
  induction h with
  | nil => intro _; exact ⟨[], rfl⟩
  | ping m h ih =>
    intro hr; obtain ⟨rs, rfl⟩ := ih fun x hx => hr x (List.mem_cons_of_mem _ hx)
    exact ⟨.pong _ :: rs, rfl⟩
  | getPeerAddrs m p hp h ih =>
    intro hr; obtain ⟨rs, rfl⟩ := ih fun x hx => hr x (List.mem_cons_of_mem _ hx)
    exact ⟨.peerAddrs _ :: rs, rfl⟩
  | getHeaders m h ih =>
    intro hr; obtain ⟨rs, rfl⟩ := ih fun x hx => hr x (List.mem_cons_of_mem _ hx)
    exact ⟨.headers _ :: rs, rfl⟩
  | getBlock m b hb h ih =>
    intro hr; obtain ⟨rs, rfl⟩ := ih fun x hx => hr x (List.mem_cons_of_mem _ hx)
    exact ⟨.block _ :: rs, rfl⟩
  | getBlockUnknown m hb h ih => intro hr; exact ih fun x hx => hr x (List.mem_cons_of_mem _ hx)
  | pong m h ih | peerAddrs m h ih | header m h ih | headers m h ih | transaction m h ih =>
    intro hr; exact ih fun x hx => hr x (List.mem_cons_of_mem _ hx)
  | block b rs hr h ih => intro hq; exact absurd (hq _ (List.mem_cons_self ..)) (by simp [IsRequest])

/-- **C97, any requests.** One node sends requests to another one. They can be written; the other node answers
exactly them, in order; and as far as the answers are deliverable and not too long, the asking node finds exactly
the answers in what comes back. -/
theorem C97_exchange_partial (P : Point → Prop) (Q : E.Prf → Prop) (hE : PointCodec E P) (hQ : PrfCodec E Q)
    (hS : SortOK E) (hmem : 1000000 * (104 + E.outputSize) ≤ E.maxAlloc) (qs : List (Message E))
    (hq : ∀ q ∈ qs, IsRequest q ∧ Deliverable P Q q)
    (others : Nat → Node E → Node E) (ho : ∀ n x, LeavesEntries x (others n x)) (w : Nat → World) (f : Sender)
    (node : Node E) (headHash : Bytes) (hh : HasHash node.chain.head headHash) (known : Known node f) :
    ∃ asked : List Bytes, List.Forall₂ (fun q b => q.frame = .ok b) qs asked ∧
      ∀ n, asked.flatten.length < n → ∃ answers : List (Reply E),
        (converse others w f n (some node) asked.flatten).effects = answers.map .reply ∧
        Answered node.chain node.storage headHash qs (answers.map .reply) ∧
        ((∀ r ∈ answers, Deliverable P Q (replyMessage r) ∧
            ∀ v, (replyMessage r).bytes = .ok v → v.length ≤ 20000000) →
          ∃ written : List Bytes, List.Forall₂ (fun r b => (replyMessage r).frame = .ok b) answers written ∧
            List.Forall₂ (fun r m => ArrivesAs E (replyMessage r) m) answers
              (readHandler E written.flatten).dispatched) := by
  obtain ⟨fs, h1, h2⟩ := deliverable_frames E P Q hE hQ hS hmem qs (fun m hm => (hq m hm).2)
    (fun m hm v hv => request_short P Q m (hq m hm).1 (hq m hm).2 v hv)
  have hms := requests_same (fun m hm => (hq m hm).1) h2
  have e : (fs.map fun f => frameBytes f.type f.body).flatten = streamOf fs := by rw [streamOf, List.flatMap_def]
  refine ⟨_, frames_flatten qs fs h1, ?_⟩
  rw [e]
  intro n hn
  have hplain : ∀ m ∈ messagesOf fs, Plain m := by
    rw [hms]
    intro m hm
    have := (hq m hm).1
    cases m <;> trivial
  obtain ⟨ha, -⟩ := C95_all_answered (by omega) others ho w f node fs n hn headHash hh known hplain
  rw [hms] at ha
  obtain ⟨rs, hrs⟩ := answered_replies ha fun m hm => (hq m hm).1
  rw [hrs] at ha
  refine ⟨rs, hrs, ha, ?_⟩
  intro hd
  obtain ⟨written, g1, g2, -⟩ := C81_delivered_partial E P Q hE hQ hS hmem (rs.map replyMessage)
    (by intro m hm; obtain ⟨r, hr, rfl⟩ := List.mem_map.1 hm; exact (hd r hr).1)
    (by intro m hm; obtain ⟨r, hr, rfl⟩ := List.mem_map.1 hm; exact (hd r hr).2)
  exact ⟨written, List.forall₂_map_left_iff.1 g1, List.forall₂_map_left_iff.1 g2⟩

/-- The hash of a header is not changed by the wire. -/
theorem onWire_hash (h : BlockHeader) : (onWire h).hash E = h.hash E := rfl

/-- **C97, a block.** A node asks for a block by its hash. If the other node has stored a block of this hash (in a
storage that finds blocks by hash), then what arrives is exactly one block: it has that hash, its header is that of
the stored block up to the two fields that are not transmitted, and its inputs, outputs and kernels are those of
the stored block in hash order. -/
theorem C97_block_partial (P : Point → Prop) (Q : E.Prf → Prop) (hE : PointCodec E P) (hQ : PrfCodec E Q)
    (hS : SortOK E) (hmem : 1000000 * (104 + E.outputSize) ≤ E.maxAlloc) (hash : Bytes) (h32 : hash.length = 32)
    (blocks : List (Block E)) (hstored : ∃ b ∈ blocks, HasHash b hash)
    (hdel : ∀ b ∈ blocks, Deliverable P Q (.block b) ∧ ∀ v, b.bytes = .ok v → v.length ≤ 20000000)
    (others : Nat → Node E → Node E) (ho : ∀ n x, LeavesEntries x (others n x)) (w : Nat → World) (f : Sender)
    (node : Node E) (hst : node.storage = listStorage blocks)
    (headHash : Bytes) (hh : HasHash node.chain.head headHash) (known : Known node f) :
    ∃ asked, (sendBlockRequest hash >>= Message.frame (E := E)) = .ok asked ∧
      ∀ n, asked.length < n → ∃ b ∈ blocks, HasHash b hash ∧
        (converse others w f n (some node) asked).effects = [.reply (.block b)] ∧
        ∃ written b', (Message.block b).frame = .ok written ∧
          (readHandler E written).dispatched = [.block b'] ∧ HasHash b' hash ∧ b'.header = onWire b.header ∧
          SortedVersion (inputKey E) b.inputs b'.inputs ∧ SortedVersion outputKey b.outputs b'.outputs ∧
          SortedVersion (kernelKey E) b.kernels b'.kernels := by
  obtain ⟨asked, h1, h2⟩ := C97_exchange_partial P Q hE hQ hS hmem [.getBlock ⟨hash⟩]
    (by intro q hq; rw [List.mem_singleton] at hq; subst hq; exact ⟨trivial, h32⟩) others ho w f node headHash hh known
  cases h1 with
  | cons h1 h1' =>
    rename_i a as
    cases h1'
    refine ⟨a, ?_, ?_⟩
    · rw [C82_queued.2.2.2.2.1 hash h32, Out.bind_ok]; exact h1
    · intro n hn
      obtain ⟨answers, g1, g2, g3⟩ := h2 n (by simpa using hn)
      have hfound : ∃ b ∈ blocks, HasHash b hash ∧ node.storage.getBlock ⟨some hash, none⟩ = some b := by
        rw [hst]
        obtain ⟨b, hb, hbh⟩ := hstored
        unfold listStorage
        simp only
        cases hx : blocks.find? (fun b => decide (Matches ⟨some hash, none⟩ b)) with
        | none =>
          have := List.find?_eq_none.1 hx b hb
          exact absurd (show Matches ⟨some hash, none⟩ b from ⟨hbh, trivial⟩) (by simpa using this)
        | some c =>
          have hc := List.find?_some hx
          simp only [decide_eq_true_eq] at hc
          exact ⟨c, List.mem_of_find?_eq_some hx, hc.1, rfl⟩
      obtain ⟨b, hb, hbh, hget⟩ := hfound
      have hans : answers = [.block b] := by
        generalize hes : answers.map Effect.reply = es at g2
        cases g2 with
        | getBlock m b' hb' h =>
          rw [hget] at hb'; cases hb'
          cases h
          match answers, hes with
          | [x], hes => rw [Effect.reply.inj (List.cons.inj hes).1]
        | getBlockUnknown m hb' h =>
          rcases hb' with hb' | hb'
          · have hb0 : hash = [] := hb'
            rw [hb0] at h32; simp at h32
          · rw [hget] at hb'; cases hb'
      subst hans
      refine ⟨b, hb, hbh, by simpa using g1, ?_⟩
      obtain ⟨written, k1, k2⟩ := g3 (by
        intro r hr; rw [List.mem_singleton] at hr; subst hr
        exact ⟨(hdel b hb).1, (hdel b hb).2⟩)
      cases k1 with
      | cons k1 k1' =>
        rename_i wr wrs
        cases k1'
        simp only [List.flatten_cons, List.flatten_nil, List.append_nil] at k2
        generalize hds : (readHandler E wr).dispatched = ds at k2
        cases k2 with
        | cons k2 k2' =>
          cases k2'
          cases k2 with
          | block m m' e1 e2 e3 e4 =>
            refine ⟨wr, m', k1, hds, ?_, e1, e2, e3, e4⟩
            have : m'.hash = b.hash := by
              unfold Block.hash; rw [e1]; exact onWire_hash b.header
            exact this.trans hbh

/-- **C97, headers.** A node asks for headers. If the other node's stored blocks are `pre ++ x :: post`, and of the
hashes sent the first that the other node knows is that of `x` (and not the hash of its head), then what arrives is
one list: the headers of the first 512 blocks after `x`, up to the two fields that are not transmitted. -/
theorem C97_headers (P : Point → Prop) (Q : E.Prf → Prop) (hE : PointCodec E P) (hQ : PrfCodec E Q)
    (hS : SortOK E) (hmem : 1000000 * (104 + E.outputSize) ≤ E.maxAlloc) (loc : Locator)
    (hloc : loc.hashes.length ≤ 14 ∧ ∀ x ∈ loc.hashes, x.length = 32)
    (pre post : List (Block E)) (x : Block E) (h : Bytes) (hx : HasHash x h) (hpre : ∀ b ∈ pre, ¬ HasHash b h)
    (before after : List Bytes) (hsplit : loc.hashes = before ++ h :: after)
    (hwf : ∀ b ∈ post, WellFormedHeader b.header)
    (others : Nat → Node E → Node E) (ho : ∀ n x, LeavesEntries x (others n x)) (w : Nat → World) (f : Sender)
    (node : Node E) (hst : node.storage = listStorage (pre ++ x :: post))
    (headHash : Bytes) (hh : HasHash node.chain.head headHash) (hne : h ≠ headHash)
    (hbefore : ∀ h' ∈ before, h' ≠ headHash ∧ ∀ b ∈ pre ++ x :: post, ¬ HasHash b h') (known : Known node f) :
    ∃ asked, (sendHeaderRequest loc >>= Message.frame (E := E)) = .ok asked ∧
      ∀ n, asked.length < n →
        ∃ written, (converse others w f n (some node) asked).effects =
            [.reply (.headers ⟨(post.take 512).map (·.header)⟩)] ∧
          (Message.headers (E := E) ⟨(post.take 512).map (·.header)⟩).frame = .ok written ∧
          (readHandler E written).dispatched = [.headers ⟨(post.take 512).map fun b => onWire b.header⟩] := by
  obtain ⟨asked, h1, h2⟩ := C97_exchange_partial P Q hE hQ hS hmem [.getHeaders loc]
    (by intro q hq; rw [List.mem_singleton] at hq; subst hq; exact ⟨trivial, hloc⟩) others ho w f node headHash hh known
  have hfor : headersFor node.storage headHash loc = (post.take 512).map (·.header) := by
    have e1 := C50_answer node.chain node.storage loc headHash hh
    have e2 := C50_following node.chain pre post x loc headHash h hh hx hpre before after
      (by rw [List.take_of_length_le hloc.1]; exact hsplit) hne hbefore
    rw [hst] at e1 ⊢
    rw [e2] at e1
    exact (Out.ok.inj e1).symm
  cases h1 with
  | cons h1 h1' =>
    rename_i a as
    cases h1'
    refine ⟨a, ?_, ?_⟩
    · rw [C82_queued.2.2.2.2.2 loc hloc.1, Out.bind_ok]; exact h1
    · intro n hn
      obtain ⟨answers, g1, g2, g3⟩ := h2 n (by simpa using hn)
      have hans : answers = [.headers ⟨(post.take 512).map (·.header)⟩] := by
        generalize hes : answers.map Effect.reply = es at g2
        cases g2 with
        | getHeaders m h =>
          cases h
          rw [hfor] at hes
          match answers, hes with
          | [y], hes => rw [Effect.reply.inj (List.cons.inj hes).1]
      subst hans
      obtain ⟨written, k1, k2⟩ := g3 (by
        intro r hr; rw [List.mem_singleton] at hr; subst hr
        have hw : ∀ y ∈ (post.take 512).map (·.header), WellFormedHeader y := by
          intro y hy
          obtain ⟨b, hb, rfl⟩ := List.mem_map.1 hy
          exact hwf b (List.mem_of_mem_take hb)
        exact ⟨⟨by simp, hw⟩, headers_short (E := E) (by omega) _ hw⟩)
      cases k1 with
      | cons k1 k1' =>
        rename_i wr wrs
        cases k1'
        refine ⟨wr, by simpa using g1, k1, ?_⟩
        simp only [List.flatten_cons, List.flatten_nil, List.append_nil] at k2
        generalize (readHandler E wr).dispatched = ds at k2
        cases k2 with
        | cons k2 k2' =>
          cases k2'
          cases k2 with
          | headers m => rw [List.map_map]; rfl

/-- **C97, a ping.** A ping comes back as the total difficulty and height of the other node. -/
theorem C97_ping (P : Point → Prop) (Q : E.Prf → Prop) (hE : PointCodec E P) (hQ : PrfCodec E Q)
    (hS : SortOK E) (hmem : 1000000 * (104 + E.outputSize) ≤ E.maxAlloc) (others : Nat → Node E → Node E)
    (ho : ∀ n x, LeavesEntries x (others n x)) (w : Nat → World) (f : Sender) (node : Node E) (headHash : Bytes)
    (hh : HasHash node.chain.head headHash) (known : Known node f) :
    ∃ asked, (sendPing >>= Message.frame (E := E)) = .ok asked ∧ ∀ n, asked.length < n →
      ∃ written, (converse others w f n (some node) asked).effects =
          [.reply (.pong ⟨node.chain.totalDifficulty, node.chain.height⟩)] ∧
        (Message.pong (E := E) ⟨node.chain.totalDifficulty, node.chain.height⟩).frame = .ok written ∧
        (readHandler E written).dispatched = [.pong ⟨node.chain.totalDifficulty, node.chain.height⟩] := by
  obtain ⟨asked, h1, h2⟩ := C97_exchange_partial P Q hE hQ hS hmem [.ping ⟨1, 1⟩]
    (by intro q hq; rw [List.mem_singleton] at hq; subst hq; exact ⟨trivial, trivial⟩) others ho w f node headHash hh known
  cases h1 with
  | cons h1 h1' =>
    rename_i a as
    cases h1'
    refine ⟨a, h1, ?_⟩
    intro n hn
    obtain ⟨answers, g1, g2, g3⟩ := h2 n (by simpa using hn)
    have hans : answers = [.pong ⟨node.chain.totalDifficulty, node.chain.height⟩] := by
      generalize hes : answers.map Effect.reply = es at g2
      cases g2 with
      | ping m h =>
        cases h
        match answers, hes with
        | [y], hes => rw [Effect.reply.inj (List.cons.inj hes).1]
    subst hans
    obtain ⟨written, k1, k2⟩ := g3 (by
      intro r hr; rw [List.mem_singleton] at hr; subst hr
      refine ⟨trivial, ?_⟩
      intro v hv; cases hv; simp [Ping.bytes])
    cases k1 with
    | cons k1 k1' =>
      rename_i wr wrs
      cases k1'
      refine ⟨wr, by simpa using g1, k1, ?_⟩
      simp only [List.flatten_cons, List.flatten_nil, List.append_nil] at k2
      generalize (readHandler E wr).dispatched = ds at k2
      cases k2 with
      | cons k2 k2' =>
        cases k2'
        cases k2 with
        | pong m => rfl

/-- **C97 is false of the code for long blocks.** A stored block whose serialisation is longer than 20 000 000 bytes
is sent as the answer, and the asking node hangs up on it: it cannot be had from a node of this program. -/
theorem C97_refuted (P : Point → Prop) (Q : E.Prf → Prop) (hE : PointCodec E P) (hQ : PrfCodec E Q)
    (hS : SortOK E) (hmem : 1000000 * (104 + E.outputSize) ≤ E.maxAlloc) (hash : Bytes) (h32 : hash.length = 32)
    (b : Block E) (hb : HasHash b hash) (v : Bytes) (hv : b.bytes = .ok v) (hbig : 20000000 < v.length)
    (h64 : v.length < 2 ^ 64) (others : Nat → Node E → Node E) (ho : ∀ n x, LeavesEntries x (others n x))
    (w : Nat → World) (f : Sender) (node : Node E) (hst : node.storage = listStorage [b])
    (headHash : Bytes) (hh : HasHash node.chain.head headHash) (known : Known node f) :
    ∃ asked written, (sendBlockRequest hash >>= Message.frame (E := E)) = .ok asked ∧
      (∀ n, asked.length < n → (converse others w f n (some node) asked).effects = [.reply (.block b)]) ∧
      (Message.block b).frame = .ok written ∧ (readHandler E written).dispatched = [] ∧
      (readHandler E written).ending = .exit (some "too big message size") := by
  obtain ⟨asked, h1, h2⟩ := C97_exchange_partial P Q hE hQ hS hmem [.getBlock ⟨hash⟩]
    (by intro q hq; rw [List.mem_singleton] at hq; subst hq; exact ⟨trivial, h32⟩) others ho w f node headHash hh known
  cases h1 with
  | cons h1 h1' =>
    rename_i a as
    cases h1'
    obtain ⟨wr, k1, k2, k3⟩ := C81_refuted E (by omega) [] (.block b) v hv hbig h64 []
    simp only [streamOf, List.flatMap_nil, List.nil_append, List.append_nil] at k2 k3
    refine ⟨a, wr, ?_, ?_, k1, k2, k3⟩
    · rw [C82_queued.2.2.2.2.1 hash h32, Out.bind_ok]; exact h1
    · intro n hn
      obtain ⟨answers, g1, g2, -⟩ := h2 n (by simpa using hn)
      have hget : node.storage.getBlock ⟨some hash, none⟩ = some b := by
        rw [hst]
        unfold listStorage
        simp only
        rw [List.find?_cons_of_pos (l := [])]
        exact decide_eq_true (show Matches ⟨some hash, none⟩ b from ⟨hb, trivial⟩)
      rw [show [a].flatten = a by simp] at g1
      rw [g1]
      generalize answers.map Effect.reply = es at g2
      cases g2 with
      | getBlock m b' hb' h =>
        rw [hget] at hb'; cases hb'
        cases h
        rfl
      | getBlockUnknown m hb' h =>
        rcases hb' with hb' | hb'
        · have hb0 : hash = [] := hb'
          rw [hb0] at h32; simp at h32
        · rw [hget] at hb'; cases hb'

end Gringo.Props
