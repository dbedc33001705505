import Verif.Proofs.Survive
import Verif.Props.FullWitness
/-
C129: what a peer can do to end the process of the shipped node.
-/
namespace Gringo.Props
open Gringo.Spec Gringo.P2P

variable {E : Env}

section
variable (hP : NeverCrashes E.pointRead) (hQ : NeverCrashes E.prfRead) (hmem : biggestAllocation E ≤ E.maxAlloc)
  (u : Full.Setup) (hip : ∀ c, (u.receiver c).ip.length = 4 ∨ (u.receiver c).ip.length = 16) (nonces : NonceList)
  (hn : 100 ≤ nonces.list.length)
include hP hQ hmem hip hn

/-- **C129, short of trouble the process goes on.** If the process of the shipped node has ended, whatever the order of
all that went on in it and whatever came in on however many connections, then what came in on some connection is
trouble. Missing: that nothing is trouble; see the theorems below. -/
theorem C129_survives_partial (s : Full.State E) (h : Shipped u nonces s) (he : HasEnded s) :
    ∃ c, c < s.prog.pool.next ∧ Trouble E (cameOn s c) := by
  rcases Survive.calm_or_trouble hP hQ hmem hn hip h with ht | hc
  · exact ht
  · exact absurd he (Survive.calm_goes_on h hc)

/-- **C129, short of trouble everybody is served.** Unless what came in on some connection is trouble, the shipped node
has banned nobody, its loop was not told to quit, no read loop is in `Ban`; and once it is at rest, on every connection
that was not closed all bytes have been written, every whole frame that came in has been read, and the answers to all
messages in them are among the messages written, in the order of the questions. A connection that was closed has
ended. -/
theorem C129_serves_partial (hmem2 : 20000000 ≤ E.maxAlloc) (hg : u.genesis.length = 32) (s : Full.State E)
    (h : Shipped u nonces s) (ht : ∀ c, c < s.prog.pool.next → ¬ Trouble E (cameOn s c)) :
    s.prog.pool.bans = [] ∧ s.prog.pool.quit = false ∧ s.prog.pool.closers = [] ∧
    (∀ x ∈ s.prog.pool.conns, ¬ InBan s.prog x) ∧
    (FullAtRest u s → ∀ x ∈ s.prog.pool.conns, ∀ ip : Bytes, ip.length = 4 → ∀ port : UInt16,
      u.receiver x.id = ⟨ip, port.toNat⟩ →
      (x.peer.flag = true → Over x) ∧
      (x.peer.flag = false → ∃ nonce ∈ nonces.list, ∃ (wire : Bytes) (sh : Shake) (len : Nat) (fs : List (GoodFrame E))
        (rest : Bytes) (es : List (Effect E)),
        sentOn s x.id = handFrame nonce ip port u.genesis ++ wire ∧ AllWritten x.peer.accepted wire ∧
        cameOn s x.id = [0x54, 0x34, 2] ++ be 8 len ++ shakeBody sh ++ streamOf fs ++ rest ∧
        (∀ g : GoodFrame E, ¬ frameBytes g.type g.body <+: rest) ∧
        Answered (Chain.new (testnet1 E) (sqlStorage E)) (sqlStorage E) (E.blake2b (Network.hashed .testnet1))
          (messagesOf fs) es ∧
        (answersOf es).Sublist x.peer.accepted)) := by
  rcases Survive.calm_or_trouble hP hQ hmem hn hip h with ⟨c, h1, h2⟩ | hc
  · exact absurd h2 (ht c h1)
  have nb : ∀ x ∈ s.prog.pool.conns, ¬ InBan s.prog x := by
    rintro x hx (e | e)
    · exact (hc.pool.peers x hx).closing _ e
    · rw [hc.stuck] at e; cases e
  refine ⟨hc.pool.bans, hc.pool.quit, hc.pool.closers, nb, fun hr x hx ip hip4 port hrec => ?_⟩
  obtain ⟨h1, h2⟩ := C128_at_rest hmem2 u _ _ _ nonces _ (genesis_hash E .testnet1) s (Survive.shipped_reachable h) hc.alive
    hc.pool.panicked hr x hx ip hip4 port hrec hg
  refine ⟨fun hf => (h1 hf).resolve_right fun e => ?_, fun hf => ?_⟩
  · rcases e with e | ⟨-, -, k, e, -⟩
    · exact nb x hx e
    · rw [hc.pool.closers] at e; cases e
  obtain ⟨nonce, n1, wire, n2, n3, -, n4⟩ := h2 hf
  obtain ⟨sh, len, fs, rest, es, -, -, -, k1, k2, k3, k4⟩ := n4.resolve_left (nb x hx)
  exact ⟨nonce, n1, wire, sh, len, fs, rest, es, n2, n3, k1, k2, k3, k4⟩

end

/-- What follows the header of the frame of a shake. -/
theorem Survive.strip {a b : Nat} {x y : Bytes} (h : [0x54, 0x34, 2] ++ be 8 a ++ x = [0x54, 0x34, 2] ++ be 8 b ++ y) : x = y :=
  (List.append_inj h (by simp only [List.length_append, be_length])).2

theorem Survive.shake_read {sh : Shake} {len : Nat} (hs : GoodShake sh len) (hmem : 20000000 ≤ E.maxAlloc) (rest : Bytes) :
    Shake.read E (shakeBody sh ++ rest) = (.ok sh, rest) := by
  obtain ⟨h1, h2, h3, h4, h5⟩ := hs
  have : sh.userAgent.length ≤ E.maxAlloc := by
    simp only [shakeBody, List.length_append] at h4
    omega
  rw [Full.shakeBody_eq h3]
  exact (C23_shake_roundtrip E sh h1 h2 h3 this).2 rest

/-- Reading a compact block whose decoding panics. -/
theorem Survive.compact_crash (hmem : 20000000 ≤ E.maxAlloc) (body rest : Bytes) (hl : body.length ≤ 20000000)
    (hb : ¬ (CompactBlock.read E body).1.Safe) : ∃ what, readStep E (frameBytes 13 body ++ rest) = .stop (.crash what) := by
  have h64 : (UInt64.ofNat body.length).toNat = body.length := by
    rw [UInt64.toNat_ofNat']; exact Nat.mod_eq_of_lt (by omega)
  have hbig : ¬ UInt64.ofNat body.length > MaxMsgLen := by
    intro h
    have := UInt64.lt_iff_toNat_lt.1 h
    rw [h64] at this
    have h2 : MaxMsgLen.toNat = 20000000 := rfl
    omega
  have hdec : ∃ p, decodeBody E 13 body = .panic p ∨ decodeBody E 13 body = .fatal p := by
    have e : decodeBody E 13 body = runBody (CompactBlock.read E) body _ := rfl
    rw [e]
    rcases hq : CompactBlock.read E body with ⟨o, r⟩
    rw [hq] at hb
    cases o with
    | ok _ => exact absurd trivial hb
    | err _ => exact absurd trivial hb
    | panic p => exact ⟨p, .inl (by simp [runBody, hq])⟩
    | fatal p => exact ⟨p, .inr (by simp [runBody, hq])⟩
  obtain ⟨p, hdec⟩ := hdec
  refine ⟨p, ?_⟩
  rw [frameBytes, List.append_assoc ([0x54, 0x34, 13] ++ be 8 body.length)]
  simp only [readStep, header_read_frame 13 body.length (by omega)]
  rw [if_neg hbig]
  simp only [h64, Rd.make_ok (size := 1) (by omega : body.length * 1 ≤ E.maxAlloc), Rd.readFull_append (b := body) rfl rest]
  rcases hdec with e | e <;> rw [e]

/-- **C129, what is no trouble.** A shake, followed by frames whose messages are not unwelcome, is no trouble, and no
beginning of it is. -/
theorem C129_no_trouble (hmem : 20000000 ≤ E.maxAlloc) (sh : Shake) (len : Nat) (hs : GoodShake sh len)
    (fs : List (GoodFrame E)) (hw : ∀ m ∈ messagesOf fs, ¬ Unwelcome E m) (bs : Bytes)
    (hb : bs <+: [0x54, 0x34, 2] ++ be 8 len ++ shakeBody sh ++ streamOf fs) : ¬ Trouble E bs := by
  intro ht
  have ht := Survive.Trouble.mono ht hb
  clear hb
  have all := C07_frames_first E hmem fs []
  generalize hq : ([0x54, 0x34, 2] ++ be 8 len ++ shakeBody sh ++ streamOf fs : Bytes) = q at ht
  rw [List.append_assoc _ (shakeBody sh)] at hq
  cases ht with
  | shake len' caps td name rest h1 h2 h =>
    have e := Survive.strip (b := len') (y := be 4 1 ++ (be 4 caps.toNat ++ (be 8 td.toNat ++ (be 8 name.toNat ++ rest)))) (hq.trans (by
      simp only [List.append_assoc]))
    have r1 := Survive.shake_read hs hmem (streamOf fs)
    have r2 := C27_refuted_shake E caps td name h rest
    rw [e] at r1
    have r3 : (Shake.read E (be 4 1 ++ (be 4 caps.toNat ++ (be 8 td.toNat ++ (be 8 name.toNat ++ rest))))).1 =
        .panic "makeslice: len out of range" := by
      rw [← r2]
      simp only [be32, be64, List.append_assoc]
      rfl
    rw [r1] at r3
    cases r3
  | compact sh' len' hs' fs' body rest hl h =>
    have e := Survive.strip (b := len') (y := shakeBody sh' ++ (streamOf fs' ++ (frameBytes 13 body ++ rest))) (hq.trans (by
      simp only [List.append_assoc]))
    have r1 := Survive.shake_read hs hmem (streamOf fs)
    rw [e, Survive.shake_read hs' hmem] at r1
    injection r1 with r1 r2
    have k := (C07_frames_first E hmem fs' (frameBytes 13 body ++ rest)).2.2
    have k2 := all.2.2
    rw [List.append_nil, ← r2, k] at k2
    obtain ⟨what, hc⟩ := Survive.compact_crash hmem body rest hl h
    have : (readHandler E (frameBytes 13 body ++ rest)).ending = .crash what := by
      rw [readHandler, readLoop, hc]
    rw [this] at k2
    cases k2
  | message sh' len' hs' fs' rest m h hm =>
    have e := Survive.strip (b := len') (y := shakeBody sh' ++ (streamOf fs' ++ rest)) (hq.trans (by simp only [List.append_assoc]))
    have r1 := Survive.shake_read hs hmem (streamOf fs)
    rw [e, Survive.shake_read hs' hmem] at r1
    injection r1 with r1 r2
    have k := (C07_frames_first E hmem fs' rest).1
    have k2 := all.1
    rw [List.append_nil, ← r2, k] at k2
    refine hw m ?_ hm
    have : (readHandler E []).dispatched = [] := rfl
    rw [this, List.append_nil] at k2
    rw [← k2]
    exact List.mem_append_left _ h

/-- **C129, among polite peers the process goes on.** If what came in on every connection is a shake, followed by frames
whose messages are not unwelcome, or a beginning of that, then the process has not ended. -/
theorem C129_polite_partial (hP : NeverCrashes E.pointRead) (hQ : NeverCrashes E.prfRead)
    (hmem : biggestAllocation E ≤ E.maxAlloc) (hmem2 : 20000000 ≤ E.maxAlloc) (u : Full.Setup)
    (hip : ∀ c, (u.receiver c).ip.length = 4 ∨ (u.receiver c).ip.length = 16) (nonces : NonceList)
    (hn : 100 ≤ nonces.list.length) (s : Full.State E) (h : Shipped u nonces s)
    (hp : ∀ c, c < s.prog.pool.next → ∃ (sh : Shake) (len : Nat) (fs : List (GoodFrame E)), GoodShake sh len ∧
      (∀ m ∈ messagesOf fs, ¬ Unwelcome E m) ∧ cameOn s c <+: [0x54, 0x34, 2] ++ be 8 len ++ shakeBody sh ++ streamOf fs) :
    ¬ HasEnded s := by
  intro he
  obtain ⟨c, hc, ht⟩ := C129_survives_partial hP hQ hmem u hip nonces hn s h he
  obtain ⟨sh, len, fs, h1, h2, h3⟩ := hp c hc
  exact C129_no_trouble hmem2 sh len h1 fs h2 _ h3 ht

/-! ### The process can be ended -/

/-- Nothing comes in but `bs` on the connection `c`. -/
def ComesIn (s s' : Full.State E) (c : Nat) (bs : Bytes) : Prop :=
  cameOn s' c = cameOn s c ++ bs ∧ ∀ d, d ≠ c → cameOn s' d = cameOn s d

/-- **C129 is false of the code (shake).** Whenever the shipped node waits for the shake of a peer, 35 bytes end its
process, however large its memory. -/
theorem C129_refuted_shake (u : Full.Setup) (nonces : NonceList) (s : Full.State E) (h : Shipped u nonces s)
    (hd : s.prog.dead = false) (hp : s.prog.pool.panicked = false) (a : String) (c : Nat)
    (hl : s.prog.pool.loop = .greeting a c) (hw : (s.sockets c).written = (s.sockets c).hand.length) (hc : cameOn s c = [])
    (len : Nat) (caps : UInt32) (td name : UInt64) (h1 : 24 ≤ len) (h2 : len ≤ 20000000) (h6 : E.maxAlloc < name.toNat) :
    ∃ s', Shipped u nonces s' ∧ s'.prog.dead = true ∧
      ComesIn s s' c ([0x54, 0x34, 2] ++ be 8 len ++ be 4 1 ++ be 4 caps.toNat ++ be 8 td.toNat ++ be 8 name.toNat) := by
  set bs : Bytes := [0x54, 0x34, 2] ++ be 8 len ++ be 4 1 ++ be 4 caps.toNat ++ be 8 td.toNat ++ be 8 name.toNat with hbs
  obtain ⟨g1, g2⟩ := (Survive.shipped_inv h).greeting _ _ hl
  have hr : (Full.readShake E bs).1 = .panic "makeslice: len out of range" := by
    have h64 : (UInt64.ofNat len).toNat = len := by
      rw [UInt64.toNat_ofNat']; exact Nat.mod_eq_of_lt (by omega)
    have hbig : ¬ UInt64.ofNat len > MaxMsgLen := by
      intro h
      have := UInt64.lt_iff_toNat_lt.1 h
      rw [h64] at this
      have h2 : MaxMsgLen.toNat = 20000000 := rfl
      omega
    have e : bs = ([0x54, 0x34, 2] ++ be 8 len) ++ (be32 1 ++ be32 caps ++ be64 td ++ be64 name ++ []) := by
      simp only [hbs, be32, be64, List.append_assoc, List.append_nil]
      rfl
    have hh := header_read_frame 2 len (by omega) []
    rw [List.append_nil] at hh
    have hlim : Rd.limit HeaderLen.toNat Header.read bs =
        (.ok ⟨MagicCode, 2, UInt64.ofNat len⟩, be32 1 ++ be32 caps ++ be64 td ++ be64 name ++ []) := by
      have l : ([0x54, 0x34, 2] ++ be 8 len : Bytes).length = HeaderLen.toNat := by
        rw [List.length_append, be_length]; rfl
      rw [e, Rd.limit, ← l, List.take_left, List.drop_left, hh]
      rfl
    have hs := C27_refuted_shake E caps td name h6 []
    generalize hb : be32 1 ++ be32 caps ++ be64 td ++ be64 name ++ [] = body at hlim hs
    have lb : body.length = 24 := by
      rw [← hb]; simp only [List.length_append, be32_length, be64_length, List.length_nil]
    unfold Full.readShake readMessage
    simp only [Rd.bind_run, hlim, Rd.cont_ok]
    rw [if_neg (by decide), if_neg hbig]
    simp only [Rd.bind_run, Rd.limit, h64]
    rw [List.take_of_length_le (by omega)]
    rcases hq : Shake.read E body with ⟨o, r⟩
    rw [hq] at hs
    simp only at hs
    subst hs
    rfl
  have n1 := h.next hd hp (.early c bs g1 g2) (by simp)
  have n2 := n1.next hd hp (.shakeDies a c hl (by
    dsimp only
    rw [Function.update_self]
    exact hw) (.inl ⟨_, by
    dsimp only
    rw [Function.update_self, show (s.sockets c).came = [] from hc]
    exact hr⟩)) (by simp)
  refine ⟨_, n2, rfl, ?_, fun d hdc => ?_⟩
  · unfold cameOn
    dsimp only
    rw [Function.update_self]
  · unfold cameOn
    dsimp only
    rw [Function.update_of_ne hdc]

section
variable (u : Full.Setup) (nonces : NonceList) (s : Full.State E) (h : Shipped u nonces s)
  (hd : s.prog.dead = false) (hp : s.prog.pool.panicked = false) (x : Whole.Conn (Message E)) (hx : x ∈ s.prog.pool.conns)
  (hr : x.peer.reader = .reading) (ht : (s.prog.io x.id).task = none) (hi : (s.prog.io x.id).inbox = [])
include h hd hp hx ht hi

/-- A frame comes in. -/
theorem Survive.comes (bs : Bytes) : ∃ s1 : Full.State E, Shipped u nonces s1 ∧ s1.prog.dead = false ∧
    s1.prog.pool = s.prog.pool ∧ s1.prog.mempool = s.prog.mempool ∧ (s1.prog.io x.id).task = none ∧
    (s1.prog.io x.id).stuck = (s.prog.io x.id).stuck ∧ (s1.prog.io x.id).inbox = bs ∧ ComesIn s s1 x.id bs := by
  have n1 := h.next hd hp (.arrive x.id bs ((Survive.shipped_inv h).conns x hx)) (by simp)
  refine ⟨_, n1, hd, rfl, rfl, ?_, ?_, ?_, ?_, fun d hdc => ?_⟩
  · dsimp only; rw [Function.update_self]; exact ht
  · dsimp only; rw [Function.update_self]
  · dsimp only; rw [Function.update_self]; dsimp only; rw [hi]; rfl
  · unfold cameOn; dsimp only; rw [Function.update_self]
  · unfold cameOn; dsimp only; rw [Function.update_of_ne hdc]

include hr

/-- **C129 is false of the code (transaction).** Whenever the shipped node waits for a message of a peer, one transaction
ends its process. -/
theorem C129_refuted_transaction (hmem : 20000000 ≤ E.maxAlloc) (hs : (s.prog.io x.id).stuck = false) (body : Bytes)
    (hl : body.length ≤ 20000000) (tx : Transaction E) (rest : Bytes) (hb : Transaction.read E body = (.ok tx, rest)) :
    ∃ s', Shipped u nonces s' ∧ s'.prog.dead = true ∧ ComesIn s s' x.id (frameBytes 15 body) := by
  obtain ⟨s1, n1, d1, p1, m1, t1, k1, i1, c1⟩ := Survive.comes u nonces s h hd hp x hx ht hi (frameBytes 15 body)
  have hx1 : x ∈ s1.prog.pool.conns := by rw [p1]; exact hx
  have hp1 : s1.prog.pool.panicked = false := by rw [p1]; exact hp
  have rd := readStep_good E hmem 15 body _ hl (.transaction body rest tx hb) []
  rw [List.append_nil, ← i1] at rd
  have st2 : Program.Step u.remote .own s1.prog _ := .read x (.transaction tx) _ _ hx1 hr t1 rd
  have n2 := n1.next d1 hp1 (.prog .own _ st2 (Full.own_arrived st2) (.inl rfl)) (by simp)
  have mem : s1.prog.mempool = none := by
    rw [m1]
    exact (Program.inv_reachable ((Survive.shipped_inv h).alive hd)).same.2.2
  have pm : ∀ (w : World) (node : Node E) (f : Sender), node.mempool = none →
      (processMessage w node f (.transaction tx)).ended = .fatal "unexpected error" ∨
      (processMessage w node f (.transaction tx)).ended = .panic "invalid memory address or nil pointer dereference" := by
    intro w node f hm
    unfold processMessage
    split
    · exact .inl rfl
    · right
      simp only [handle, hm]
  have ne : ("invalid memory address or nil pointer dereference" : String) ≠ "assignment to entry in nil map" := by decide
  let q : Program.State E := { s1.prog with
    io := Function.update s1.prog.io x.id { s1.prog.io x.id with inbox := [], task := some (.transaction tx) } }
  have st3 : Program.Step u.remote .own q _ :=
    .processDies x (Net.world noNames id fun _ => false) (.transaction tx) hx1 hr (by dsimp only [q]; rw [Function.update_self])
      (by dsimp only [q]; rw [Function.update_self]; exact k1.trans hs)
      (by rcases pm (Net.world noNames id fun _ => false) q.node (Program.sender u.remote x) mem with e | e <;> (rw [e]; simp))
      (by rcases pm (Net.world noNames id fun _ => false) q.node (Program.sender u.remote x) mem with e | e <;> (rw [e]; simp))
      (by
        rcases pm (Net.world noNames id fun _ => false) q.node (Program.sender u.remote x) mem with e | e <;> rw [e] <;> intro e2
        · cases e2
        · injection e2 with e2
          exact absurd e2 ne) nofun
  have n3 := n2.next d1 hp1 (.prog .own _ st3 (Full.own_arrived st3) (.inl rfl)) (by simp)
  exact ⟨_, n3, rfl, c1⟩

/-- **C129 is false of the code (compact block).** Whenever the shipped node waits for a message of a peer, one compact
block whose decoding panics ends its process. -/
theorem C129_refuted_compact (hmem : 20000000 ≤ E.maxAlloc) (body : Bytes) (hl : body.length ≤ 20000000)
    (hb : ¬ (CompactBlock.read E body).1.Safe) :
    ∃ s', Shipped u nonces s' ∧ s'.prog.dead = true ∧ ComesIn s s' x.id (frameBytes 13 body) := by
  obtain ⟨s1, n1, d1, p1, m1, t1, k1, i1, c1⟩ := Survive.comes u nonces s h hd hp x hx ht hi (frameBytes 13 body)
  have hx1 : x ∈ s1.prog.pool.conns := by rw [p1]; exact hx
  have hp1 : s1.prog.pool.panicked = false := by rw [p1]; exact hp
  obtain ⟨what, rd⟩ := Survive.compact_crash hmem body [] hl hb
  rw [List.append_nil] at rd
  rw [← i1] at rd
  have st2 : Program.Step u.remote .own s1.prog _ := .readerDies x what hx1 hr t1 rd
  have n2 := n1.next d1 hp1 (.prog .own _ st2 (Full.own_arrived st2) (.inl rfl)) (by simp)
  exact ⟨_, n2, rfl, c1⟩

end

/-- A step of the goroutines of a connection whose read handler goes on reading. -/
theorem Survive.inner {u : Full.Setup} {nonces : NonceList} {s : Full.State E} (h : Shipped u nonces s)
    (hd : s.prog.dead = false) (hp : s.prog.pool.panicked = false) {l r : List (Whole.Conn (Message E))}
    {x : Whole.Conn (Message E)} (hx : s.prog.pool.conns = l ++ x :: r) (hl : x.lock = .before) {k : Lifecycle.Kind}
    (hk : k ≠ .call) {p : Lifecycle.Peer (Message E)} (hs : Lifecycle.Step Talk.frame k x.peer p) (hc : p.conn = 0)
    (hr : p.reader = x.peer.reader) (hw : ∀ m, x.peer.writer ≠ .got m) (hm : p.threads = x.peer.threads) :
    Shipped u nonces
      { s with prog := { s.prog with pool := { s.prog.pool with conns := l ++ { x with peer := p } :: r } } } := by
  have st : Whole.Step Talk.frame Program.ping Program.ask s.prog.pool k { s.prog.pool with conns := l ++ { x with peer := p } :: r } := by
    have st := Whole.Step.inner (ping := Program.ping) (ask := Program.ask) s.prog.pool l r x hx k p hk hs (fun _ => hr)
    rw [hc] at st
    have e : (if p.reader.handles = true then x.lock else .before) = x.lock := by rw [hl]; simp
    rw [e] at st
    exact st
  have st1 := Program.step1 s.prog ((Survive.shipped_inv h).alive hd) st l r x { x with peer := p } hx rfl rfl
    (fun e => hr.trans e) (fun m _ e => absurd e (hw m)) (fun _ => by simp only [Program.handed, hm])
  exact h.next hd hp (.prog k _ st1 (fun _ => rfl) (.inl rfl)) (fun e => absurd e hk)

/-- **C129 is false of the code (blocks and headers).** Whenever the shipped node waits for a message of a peer, and is
writing one to it, then a block or headers it does not accept, and breaking the connection, may end its process: `Ban` does
not wait when somebody else disconnects, and then writes to a nil map. -/
theorem C129_refuted_ban (u : Full.Setup) (nonces : NonceList) (s : Full.State E) (h : Shipped u nonces s)
    (hd : s.prog.dead = false) (hp : s.prog.pool.panicked = false) (x : Whole.Conn (Message E)) (hx : x ∈ s.prog.pool.conns)
    (hr : x.peer.reader = .reading) (ht : (s.prog.io x.id).task = none) (hi : (s.prog.io x.id).inbox = [])
    (hmem : 20000000 ≤ E.maxAlloc) (hs : (s.prog.io x.id).stuck = false) (hf : x.peer.flag = false) (m : Message E)
    (q : Bytes) (hw : x.peer.writer = .writing m q) (hq : q ≠ []) (i : PeerInfo)
    (he : s.prog.pool.table.find (u.remote x.id) = some i) (hpe : i.peer = some x.id) (f : GoodFrame E)
    (hfm : (∃ b, f.msg = some (.block b) ∧ Unwelcome E (.block b)) ∨
      ∃ hs, f.msg = some (.headers hs) ∧ Unwelcome E (.headers hs)) :
    ∃ s', Shipped u nonces s' ∧ s'.prog.dead = true ∧ ComesIn s s' x.id (frameBytes f.type f.body) := by
  obtain ⟨s1, n1, d1, p1, m1, t1, k1, i1, c1⟩ := Survive.comes u nonces s h hd hp x hx ht hi (frameBytes f.type f.body)
  obtain ⟨bad, hbad, hun, hkind⟩ : ∃ bad, f.msg = some bad ∧ Unwelcome E bad ∧
      ((∃ b, bad = .block b) ∨ ∃ hs, bad = .headers hs) := by
    rcases hfm with ⟨b, h1, h2⟩ | ⟨b, h1, h2⟩
    · exact ⟨_, h1, h2, .inl ⟨b, rfl⟩⟩
    · exact ⟨_, h1, h2, .inr ⟨b, rfl⟩⟩
  have hx1 : x ∈ s1.prog.pool.conns := by rw [p1]; exact hx
  have hp1 : s1.prog.pool.panicked = false := by rw [p1]; exact hp
  have rd := readStep_good E hmem f.type f.body _ f.size f.carries []
  rw [List.append_nil, ← i1, hbad] at rd
  have st2 : Program.Step u.remote .own s1.prog _ := .read x bad _ _ hx1 hr t1 rd
  have n2 := n1.next d1 hp1 (.prog .own _ st2 (Full.own_arrived st2) (.inl rfl)) (by simp)
  have pinv := Program.inv_reachable ((Survive.shipped_inv h).alive hd)
  have hl : x.lock = .before := (pinv.calm x hx).1
  have lif := Lifecycle.inv_reachable ((Whole.inv_reachable pinv.whole).conns x hx).peer
  have hc : x.peer.conn = 0 := by
    have := lif.conn
    rw [hf] at this
    simp only [Bool.toNat_false] at this
    omega
  obtain ⟨l, r, hlr⟩ := List.append_of_mem hx1
  have n3 := Survive.inner n2 d1 hp1 hlr hl (k := .remote) (by simp) (.writeFail _ m q hw hq) hc rfl
    (fun m' e => by rw [hw] at e; cases e) rfl
  have n4 := Survive.inner n3 d1 hp1 rfl hl (k := .own) (by simp) (.writerDone _ rfl) hc rfl (fun m' e => by cases e) rfl
  have n5 := Survive.inner n4 d1 hp1 rfl hl (k := .own) (by simp) (.writerLeave _ _ _ _ rfl (.win _ hf)) hc rfl
    (fun m' e => by cases e) rfl
  obtain ⟨s5, y, n5, d5, p5, io5, tab5, hy, hyi, hyr, hyf, c5⟩ : ∃ (s5 : Full.State E) (y : Whole.Conn (Message E)),
      Shipped u nonces s5 ∧ s5.prog.dead = false ∧ s5.prog.pool.panicked = false ∧
      s5.prog.io x.id = { s1.prog.io x.id with inbox := [], task := some bad } ∧
      s5.prog.pool.table = s1.prog.pool.table ∧ y ∈ s5.prog.pool.conns ∧ y.id = x.id ∧ y.peer.reader = .reading ∧
      y.peer.flag = true ∧ ComesIn s s5 x.id (frameBytes f.type f.body) :=
    ⟨_, _, n5, d1, hp1, Function.update_self .., rfl, List.mem_append_right _ (List.mem_cons_self ..), rfl, hr, rfl, c1⟩
  have like : LikeMain s5.prog.node := (Program.inv_reachable ((Survive.shipped_inv n5).alive d5)).same
  have tab : s5.prog.pool.table.find (u.remote y.id) = some i := by rw [tab5, hyi, p1]; exact he
  have out : ∀ (node : Node E) (g : Sender), LikeMain node → node.table.find g.remote = some i → g.conn = x.id →
      (processMessage (Net.world noNames id fun _ => true) node g bad).ended = .fatal "unexpected error" ∨
      (processMessage (Net.world noNames id fun _ => true) node g bad).ended = .panic "assignment to entry in nil map" := by
    intro node g hl' ht' hg
    have banned : ∀ (n : Node E) (k : Node E → Handled E), n.table = node.table →
        (afterBan (Net.world noNames id fun _ => true) n g k).ended = .panic "assignment to entry in nil map" := by
      intro n k hn
      simp only [afterBan, ban, hn, ht', hpe, Net.world, Bool.true_eq_false, and_false, if_false]
    unfold processMessage
    split
    · exact .inl rfl
    · right
      obtain ⟨l1, l2, -⟩ := hl'
      rcases hkind with ⟨b, rfl⟩ | ⟨b, rfl⟩
      · obtain ⟨e, he⟩ := hun
        simp only [handle, l1, l2, he, orBan]
        exact banned _ _ rfl
      · obtain ⟨e, he⟩ := hun
        simp only [handle, he, orBan]
        exact banned _ _ rfl
  have o := out s5.prog.node (Program.sender u.remote y) like tab hyi
  have st6 : Program.Step u.remote .own s5.prog { s5.prog with dead := true } :=
    .processDies y (Net.world noNames id fun _ => true) bad hy hyr (by rw [hyi, io5])
      (by rw [hyi, io5]; exact k1.trans hs)
      (by rcases o with e | e <;> (rw [e]; simp))
      (by rcases o with e | e <;> (rw [e]; simp))
      (fun _ i' c h1 h2 => by
        rw [show i' = i from Option.some.inj (h1.symm.trans tab), hpe] at h2
        rw [hyi]
        exact (Option.some.inj h2).symm)
      (fun _ => hyf)
  have n6 := n5.next d5 p5 (.prog .own _ st6 (Full.own_arrived st6) (.inl rfl)) (by simp)
  exact ⟨_, n6, rfl, c5⟩

/-! ### The theorems apply -/

theorem Survive.closed : Full.Closed oneSetup (Chain.new (testnet1 E) (sqlStorage E)) (sqlStorage E) none someNonces
    (E.blake2b (Network.hashed .testnet1)) (Shipped oneSetup someNonces (E := E)) :=
  ⟨genesis_hash E .testnet1, .new, fun _ h => Survive.shipped_reachable h, fun h hd hp hs hc => h.next hd hp hs hc⟩

/-- The world of a machine without a network. -/
def offline : World := Net.world noNames id fun _ => false

theorem offline_real : Program.Real offline := ⟨noNames, id, _, rfl, fun _ => .refl _⟩

/-- A transaction with nothing in it. -/
theorem empty_tx (E : Env) : ∃ (tx : Transaction E) (rest : Bytes), Transaction.read E (List.replicate 56 0) = (.ok tx, rest) := by
  have e : (List.replicate 56 0 : Bytes) = List.replicate 32 0 ++ (be64 0 ++ (be64 0 ++ (be64 0 ++ []))) := by decide +kernel
  have z : (0 : UInt64).toNat = 0 := rfl
  have l : ¬ (0 : UInt64) > UInt64.ofNat MaxListLen := by decide
  refine ⟨⟨List.replicate 32 0, [], [], []⟩, [], ?_⟩
  rw [e]
  simp only [Transaction.read, Rd.bind_run, Rd.readFull_append (b := List.replicate 32 0) (n := 32) rfl, Rd.cont_ok, Rd.u64_be64]
  rw [if_neg l, if_neg l, if_neg l]
  simp only [Rd.bind_run, z, Rd.make_ok (by omega : 0 * 32 ≤ E.maxAlloc), Rd.make_ok (by omega : 0 * E.outputSize ≤ E.maxAlloc),
    Rd.make_ok (by omega : 0 * 104 ≤ E.maxAlloc), Rd.readMany, Rd.pure_run, Rd.cont_ok]
  rfl

theorem toy_safe : NeverCrashes Toy.env.pointRead ∧ NeverCrashes Toy.env.prfRead ∧
    biggestAllocation Toy.env ≤ Toy.env.maxAlloc :=
  ⟨Toy.pointCodec.safe, Toy.prfCodec.safe, by decide⟩

/-- `C129_survives_partial`, `C129_serves_partial`, `C129_no_trouble`: the shipped node comes to rest after a shake and a
ping, which are no trouble; so the process has not ended, and the ping is answered. -/
example : ∃ (s : Full.State Toy.env) (x : Whole.Conn (Message Toy.env)), Shipped oneSetup someNonces s ∧
    FullAtRest oneSetup s ∧ s.prog.pool.conns = [x] ∧ x.peer.flag = false ∧
    ¬ Trouble Toy.env (cameOn s x.id) ∧ ¬ HasEnded s ∧ s.prog.pool.bans = [] ∧
    x.peer.accepted = [.ping ⟨1, 1⟩, .getPeerAddrs ⟨7⟩, .pong ⟨10, 0⟩] := by
  obtain ⟨-, -, s, x, h1, h2, h3, h4, h5, h6, h7, h8, h9, h10, h16, h11, h12, h13, h14, h15, -⟩ :=
    greeted_run _ _ none _ (Survive.closed (E := Toy.env)) offline offline_real (by decide) pingFrame rfl
  have nt : ¬ Trouble Toy.env (cameOn s 0) := by
    rw [h10]
    refine C129_no_trouble (by decide) aShake 57 ⟨rfl, rfl, by decide, by decide, by decide⟩ [pingFrame] ?_ _ ?_
    · intro m hm
      rw [show messagesOf [(pingFrame : GoodFrame Toy.env)] = [.ping ⟨8, 9⟩] from rfl, List.mem_singleton] at hm
      subst hm
      exact id
    · rw [streamOf, List.flatMap_cons, List.flatMap_nil, List.append_nil, frameBytes]
      exact List.prefix_refl _
  have all : ∀ c, c < s.prog.pool.next → ¬ Trouble Toy.env (cameOn s c) := by
    intro c hc
    rw [h16, Nat.lt_one_iff] at hc
    rw [hc]; exact nt
  have sv := C129_serves_partial toy_safe.1 toy_safe.2.1 toy_safe.2.2 oneSetup (fun _ => .inl rfl) someNonces (by decide)
    (by decide) rfl s h1 all
  refine ⟨s, x, h1, h5, h6, h8, by rw [h7]; exact nt, fun he => ?_, sv.1, h15⟩
  obtain ⟨c, hc, ht⟩ := C129_survives_partial toy_safe.1 toy_safe.2.1 toy_safe.2.2 oneSetup (fun _ => .inl rfl) someNonces
    (by decide) s h1 he
  exact all c hc ht

/-- `C129_refuted_shake`: a peer that is connected to ends the process with a shake. -/
example : ∃ s s' : Full.State Toy.env, Shipped oneSetup someNonces s ∧ s.prog.dead = false ∧ Shipped oneSetup someNonces s' ∧
    s'.prog.dead = true ∧ ComesIn s s' 0 ([0x54, 0x34, 2] ++ be 8 24 ++ be 4 1 ++ be 4 7 ++ be 8 5 ++ be 8 (2 ^ 64 - 1)) := by
  obtain ⟨⟨s, h1, h2, h3, -, h4, -, h5, -, h6⟩, -⟩ :=
    greeted_run _ _ none _ (Survive.closed (E := Toy.env)) offline offline_real (by decide) pingFrame rfl
  obtain ⟨s', k1, k2, k3⟩ := C129_refuted_shake oneSetup someNonces s h1 h2 h3 _ 0 h4 h5 h6 24 7 5 0xFFFFFFFFFFFFFFFF
    (by decide) (by decide) (by decide)
  exact ⟨s, s', h1, h2, k1, k2, k3⟩

/-- `C129_refuted_transaction`, `C129_refuted_compact`: a peer that was served so far ends the process. -/
example : ∃ s s' s'' : Full.State Toy.env, Shipped oneSetup someNonces s ∧ s.prog.dead = false ∧
    Shipped oneSetup someNonces s' ∧ s'.prog.dead = true ∧ ComesIn s s' 0 (frameBytes 15 (List.replicate 56 0)) ∧
    Shipped oneSetup someNonces s'' ∧ s''.prog.dead = true ∧ ∃ body, ComesIn s s'' 0 (frameBytes 13 body) := by
  obtain ⟨-, -, s, x, h1, h2, h3, h4, h5, h6, h7, h8, h9, h10, h16, h11, h12, h13, h14, h15, -⟩ :=
    greeted_run _ _ none _ (Survive.closed (E := Toy.env)) offline offline_real (by decide) pingFrame rfl
  have hx : x ∈ s.prog.pool.conns := by rw [h6]; simp
  have hs : (s.prog.io x.id).stuck = false := by
    by_contra e
    exact h9 (.inr (by simpa using e))
  obtain ⟨tx, rest, htx⟩ := empty_tx Toy.env
  obtain ⟨s', k1, k2, k3⟩ := C129_refuted_transaction oneSetup someNonces s h1 h2 h3 x hx h11 (by rw [h7]; exact h12)
    (by rw [h7]; exact h13) (by decide) hs (List.replicate 56 0) (by decide) tx rest htx
  obtain ⟨v, hv, hp⟩ := C27_refuted_compact Toy.env (by decide) sampleHeader sampleHeader_wf 0xFFFFFFFFFFFFFFFF (by decide) []
  obtain ⟨v', hv', lv, -⟩ := C12_header_roundtrip Toy.env (by decide) sampleHeader sampleHeader_wf
  rw [hv] at hv'; cases hv'
  obtain ⟨s'', j1, j2, j3⟩ := C129_refuted_compact oneSetup someNonces s h1 h2 h3 x hx h11 (by rw [h7]; exact h12)
    (by rw [h7]; exact h13) (by decide) (v ++ [0, 0] ++ be64 0xFFFFFFFFFFFFFFFF ++ []) (by
      have := sampleHeader.pow.edgeBits.toNat_lt
      simp only [List.length_append, be64_length, lv, List.length_cons, List.length_nil]
      omega) (by rw [hp]; exact id)
  rw [h7] at k3 j3
  exact ⟨s, s', s'', h1, h2, k1, k2, k3, j1, j2, _, j3⟩

/-- `C129_refuted_ban`: the peer of the runs above sends headers of a version that does not exist, while its answer is
being written. -/
example : ∃ s s' : Full.State Toy.env, Shipped oneSetup someNonces s ∧ s.prog.dead = false ∧
    Shipped oneSetup someNonces s' ∧ s'.prog.dead = true ∧ ∃ body, ComesIn s s' 0 (frameBytes 9 body) := by
  obtain ⟨-, ⟨s, x, m, q, i, h1, h2, h3, h4, h5, h6, h7, h8, h9, h10, h11, h12, h13, h14⟩, -⟩ :=
    greeted_run _ _ none _ (Survive.closed (E := Toy.env)) offline offline_real (by decide) pingFrame rfl
  have wf : WellFormedHeader { sampleHeader with version := 7 } := { sampleHeader_wf with }
  obtain ⟨v, hv, lv, hr⟩ := C12_header_roundtrip Toy.env (by decide) { sampleHeader with version := 7 } wf
  obtain ⟨b, hb, hr'⟩ := C21_headers_roundtrip Toy.env (by decide) ⟨[{ sampleHeader with version := 7 }]⟩ (by decide)
    (fun h e => by rw [List.mem_singleton.1 e]; exact wf)
  have hl : b.length ≤ 20000000 := by
    have : b = be16 1 ++ v := by
      unfold BlockHeaders.bytes at hb
      rw [if_neg (by decide)] at hb
      simp only [headersBytes, hv, Out.bind_ok, pure, List.append_nil] at hb
      injection hb with hb
      exact hb.symm
    rw [this, List.length_append, be16_length, lv]
    decide
  have rd := hr' []
  rw [List.append_nil] at rd
  let f : GoodFrame Toy.env := ⟨9, b, _, hl, .headers b [] _ rd⟩
  obtain ⟨s', k1, k2, k3⟩ := C129_refuted_ban oneSetup someNonces s h1 h2 h3 x h4 h7 (by rw [h5]; exact h10)
    (by rw [h5]; exact h11) (by decide) (by rw [h5]; exact h12) h6 m q h8 h9 i (by rw [h5]; exact h13) (by rw [h5]; exact h14) f
    (.inr ⟨_, rfl, "invalid block version", rfl⟩)
  rw [h5] at k3
  exact ⟨s, s', h1, h2, k1, k2, _, k3⟩

end Gringo.Props
