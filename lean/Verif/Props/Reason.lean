import Verif.Props.ProgramWitness
/-
C151: why a connection ends.
-/
namespace Gringo.Props
open Gringo.Spec Gringo.P2P Gringo.Lifecycle

variable {E : Env}

/-- The connection is in use: it was not closed, nobody is about to close it, and the read and the write handler are at
work, or were not started yet. -/
structure InUse {M : Type} (p : Peer M) : Prop where
  flag : p.flag = false
  quit : p.quit = 0
  conn : p.conn = 0
  reader : p.reader = .notStarted ∨ p.reader = .loop ∨ p.reader = .reading ∨ ∃ m, p.reader = .replying m
  writer : p.writer = .notStarted ∨ p.writer = .select ∨ (∃ m, p.writer = .got m) ∨ ∃ m rest, p.writer = .writing m rest
  calls : ∀ d, .disconnect d ∉ p.threads

/-- A handler of connection `c` gives up. -/
def GivesUp (c : Nat) (s : Program.State E) : Prop :=
  ∃ x ∈ s.pool.conns, x.id = c ∧ (x.peer.reader = .stopping ∨ x.peer.writer = .stopping)

/-- A step, of any goroutine, caller, peer or network, except that: no address is banned, `Stop` is not at work, and no
handler of connection `c` gives up because the peer hangs up, the network fails, or what came in cannot be read. -/
def Undisturbed (remote : Nat → String) (c : Nat) (s s' : Program.State E) : Prop :=
  ∃ k, Program.Step remote k s s' ∧ s'.pool.bans = [] ∧ s'.pool.closers = [] ∧ ¬ (k = .remote ∧ GivesUp c s')

theorem inUse_inner {M : Type} {frame : M → Bytes} {k : Kind} {p q : Peer M} (hk : k ≠ .call) (h : Lifecycle.Step frame k p q)
    (u : InUse p) :
    InUse q ∨ (k = .remote ∧ (q.reader = .stopping ∨ q.writer = .stopping)) ∨
      (p.reader = .reading ∧ ∃ a, q.reader = .handling a) := by
  obtain ⟨u1, u2, u3, u4, u5, u6⟩ := u
  have nd : ∀ {l r : List (Thread M)} {t t' : Thread M}, p.threads = l ++ t :: r → (∀ d, t' ≠ .disconnect d) →
      ∀ d, .disconnect d ∉ l ++ t' :: r := by
    intro l r t t' e ht d hd
    rcases List.mem_append.1 hd with hd | hd
    · exact u6 d (by rw [e]; simp [hd])
    · rcases List.mem_cons.1 hd with hd | hd
      · exact ht d hd.symm
      · exact u6 d (by rw [e]; simp [hd])
  cases h with
  | start => exact absurd rfl hk
  | callDisconnect => exact absurd rfl hk
  | callSend => exact absurd rfl hk
  | callWait => exact absurd rfl hk
  | loopGo => exact .inl ⟨u1, u2, u3, by simp, u5, u6⟩
  | loopEnd _ h hf => rw [u1] at hf; cases hf
  | deliver _ a h => exact .inr (.inr ⟨h, a, rfl⟩)
  | readFail => exact .inr (.inl ⟨rfl, .inl rfl⟩)
  | readClosed _ h hc => omega
  | handleNothing _ h => rw [h] at u4; simp at u4
  | handleReply _ m h => rw [h] at u4; simp at u4
  | handleClose _ h => rw [h] at u4; simp at u4
  | replyQuit _ m h hq => omega
  | replyTaken _ m h hw => exact .inl ⟨u1, u2, u3, by simp, by simp, u6⟩
  | closingStep _ s' d d' h hd => rw [h] at u4; simp at u4
  | closingEnd _ h => rw [h] at u4; simp at u4
  | readerDone _ h => rw [h] at u4; simp at u4
  | readerLeave _ s' d d' h hd => rw [h] at u4; simp at u4
  | gotDrop _ m h hf => rw [u1] at hf; cases hf
  | gotWrite _ m h hf => exact .inl ⟨u1, u2, u3, u4, by simp, u6⟩
  | chunk _ m p' q' h hp hc => exact .inl ⟨u1, u2, u3, u4, by simp, u6⟩
  | writeFail => exact .inr (.inl ⟨rfl, .inr rfl⟩)
  | writeClosed _ m q h hq hc => omega
  | writeDone _ m h => exact .inl ⟨u1, u2, u3, u4, by simp, u6⟩
  | selectQuit _ h hq => omega
  | writerDone _ h => rw [h] at u5; simp at u5
  | writerLeave _ s' d d' h hd => rw [h] at u5; simp at u5
  | threadDisc _ s' l r d d' h hd => exact absurd (by rw [h]; simp) (u6 d)
  | sendQuit _ l r m h hq => omega
  | sendTaken _ l r m h hw => exact .inl ⟨u1, u2, u3, u4, by simp, nd h (by simp)⟩
  | waitQuit _ l r h hq => omega
  | waitEnd _ l r h hg => exact .inl ⟨u1, u2, u3, u4, u5, nd h (by simp)⟩

theorem inUse_call {M : Type} {x : Whole.Conn M} {t : Thread M} (u : InUse x.peer) (ht : ∀ d, t ≠ .disconnect d) :
    InUse (x.calls t).peer := by
  obtain ⟨u1, u2, u3, u4, u5, u6⟩ := u
  refine ⟨u1, u2, u3, u4, u5, fun d hd => ?_⟩
  rcases List.mem_append.1 hd with hd | hd
  · exact u6 d hd
  · exact ht d (List.mem_singleton.1 hd).symm

/-- One connection is replaced. -/
theorem inUse_at {M : Type} {l r : List (Whole.Conn M)} {x0 x1 x : Whole.Conn M} {Q : Whole.Conn M → Prop}
    (hx : x ∈ l ++ x0 :: r) (hid : x1.id = x0.id) (ha : x1.addr = x0.addr) (hq : x = x0 → Q x1) (hs : Q x) :
    ∃ y ∈ l ++ x1 :: r, y.id = x.id ∧ y.addr = x.addr ∧ Q y := by
  rcases List.mem_append.1 hx with h | h
  · exact ⟨x, by simp [h], rfl, rfl, hs⟩
  · rcases List.mem_cons.1 h with h | h
    · exact ⟨x1, by simp, by rw [hid, h], by rw [ha, h], hq h⟩
    · exact ⟨x, by simp [h], rfl, rfl, hs⟩

theorem inUse_pool {M : Type} {frame : M → Bytes} {ping ask : M} {k : Kind} {s q : Whole.State M}
    (h : Whole.Step frame ping ask s k q)
    (hr : ∀ x ∈ s.conns, ∀ y ∈ q.conns, y.id = x.id → x.peer.reader = .reading → ∀ a, y.peer.reader ≠ .handling a)
    (hb : q.bans = []) (hc : q.closers = []) {x : Whole.Conn M} (hx : x ∈ s.conns) (u : InUse x.peer) :
    ∃ y ∈ q.conns, y.id = x.id ∧ y.addr = x.addr ∧
      (InUse y.peer ∨ (k = .remote ∧ (y.peer.reader = .stopping ∨ y.peer.writer = .stopping))) := by
  cases h with
  | register => exact ⟨x, by simp [hx], rfl, rfl, .inl u⟩
  | start addr l r x0 h0 hx0 p h1 h2 hp =>
    rw [hx0] at hx
    refine inUse_at hx rfl rfl (fun e => .inl ?_) (.inl u)
    subst e hp
    exact ⟨u.flag, u.quit, u.conn, by simp, by simp, u.calls⟩
  | ping addr l r x0 h0 hx0 =>
    rw [hx0] at hx
    exact inUse_at hx rfl rfl (fun e => .inl (inUse_call (e ▸ u) (by simp))) (.inl u)
  | ask addr n m b l r x0 h0 hx0 =>
    rw [hx0] at hx
    exact inUse_at hx rfl rfl (fun e => .inl (inUse_call (e ▸ u) (by simp))) (.inl u)
  | spawn addr n m b l r x0 h0 hx0 =>
    rw [hx0] at hx
    exact inUse_at hx rfl rfl (fun e => .inl (inUse_call (x := x0) (t := .wait) (e ▸ u) (by simp))) (.inl u)
  | inner l r x0 hx0 _ p hk hs hh =>
    have hm : x0 ∈ s.conns := by rw [hx0]; simp
    have hn := hr x0 hm
    rw [hx0] at hx
    refine inUse_at hx rfl rfl (fun e => ?_) (.inl u)
    subst e
    rcases inUse_inner hk hs u with h | h | ⟨h, a, ha⟩
    · exact .inl h
    · exact .inr h
    · exact absurd ha (hn _ (List.mem_append_right _ List.mem_cons_self) rfl h a)
  | relay l r x0 m hx0 =>
    rw [hx0] at hx
    exact inUse_at hx rfl rfl (fun e => .inl (inUse_call (e ▸ u) (by simp))) (.inl u)
  | want l r x0 a hx0 =>
    rw [hx0] at hx
    exact inUse_at hx rfl rfl (fun e => .inl (e ▸ u)) (.inl u)
  | record l r x0 td height hx0 =>
    rw [hx0] at hx
    exact inUse_at hx rfl rfl (fun e => .inl (e ▸ u)) (.inl u)
  | mark l r x0 n hx0 =>
    rw [hx0] at hx
    exact inUse_at hx rfl rfl (fun e => .inl (e ▸ u)) (.inl u)
  | seeDown l r x0 hx0 =>
    rw [hx0] at hx
    exact inUse_at hx rfl rfl (fun e => .inl (e ▸ u)) (.inl u)
  | count l r x0 n hx0 =>
    rw [hx0] at hx
    exact inUse_at hx rfl rfl (fun e => .inl (e ▸ u)) (.inl u)
  | drop l r x0 hx0 =>
    rw [hx0] at hx
    exact inUse_at hx rfl rfl (fun e => .inl (e ▸ u)) (.inl u)
  | free l r x0 hx0 =>
    rw [hx0] at hx
    exact inUse_at hx rfl rfl (fun e => .inl (e ▸ u)) (.inl u)
  | banSelf => simp at hb
  | banOther => simp at hb
  | closeCall => simp at hc
  | _ => exact ⟨x, hx, rfl, rfl, .inl u⟩

theorem inUse_step {remote : Nat → String} {k : Kind} {s s' : Program.State E} (h : Program.Step remote k s s')
    (hb : s'.pool.bans = []) (hc : s'.pool.closers = []) {x : Whole.Conn (Message E)} (hx : x ∈ s.pool.conns)
    (u : InUse x.peer) :
    ∃ y ∈ s'.pool.conns, y.id = x.id ∧ y.addr = x.addr ∧
      (InUse y.peer ∨ (k = .remote ∧ (y.peer.reader = .stopping ∨ y.peer.writer = .stopping))) := by
  cases h with
  | pool _ q hs hr =>
    refine inUse_pool hs (fun a ha b hb' e h c hc' => ?_) hb hc hx u
    rcases hr a ha b hb' e h with h | h
    · rw [h] at hc'; cases hc'
    · rw [h.2] at hc'; cases hc'
  | relay l' r' j i l r x0 h0 hi hn hx0 =>
    rw [hx0] at hx
    exact inUse_at hx rfl rfl (fun e => .inl (inUse_call (e ▸ u) (by simp))) (.inl u)
  | skip l r x0 c rest hx0 =>
    rw [hx0] at hx
    refine inUse_at hx rfl rfl (fun e => .inl ?_) (.inl u)
    subst e; exact ⟨u.flag, u.quit, u.conn, by simp, u.writer, u.calls⟩
  | process l r x0 w m hx0 =>
    rw [hx0] at hx
    refine inUse_at hx rfl rfl (fun e => .inl ?_) (.inl u)
    subst e; exact ⟨u.flag, u.quit, u.conn, by simp, u.writer, u.calls⟩
  | answer l r x0 w m a hx0 =>
    rw [hx0] at hx
    refine inUse_at hx rfl rfl (fun e => .inl ?_) (.inl u)
    subst e; exact ⟨u.flag, u.quit, u.conn, by simp, u.writer, u.calls⟩
  | ban => simp at hb
  | banOther => simp at hb
  | _ => exact ⟨x, hx, rfl, rfl, .inl u⟩

/-- C151. A connection that is in use stays in use, whatever every goroutine, caller, peer and the network do and for
however long, unless an address is banned, the node is being stopped, or a handler of this very connection gives up in a
step of the remote side: the peer hangs up, the network fails, or what came in cannot be read. Nothing else ends a
connection, as long as the process runs; in particular there is no step that ends it because nothing came in. -/
theorem C151 (remote : Nat → String) (s t : Program.State E) (x : Whole.Conn (Message E)) (hx : x ∈ s.pool.conns)
    (hu : InUse x.peer) (hr : Relation.ReflTransGen (Undisturbed remote x.id) s t) :
    ∃ y ∈ t.pool.conns, y.id = x.id ∧ y.addr = x.addr ∧ InUse y.peer := by
  induction hr with
  | refl => exact ⟨x, hx, rfl, rfl, hu⟩
  | tail _ h ih =>
    obtain ⟨y, hy, e1, e2, hyu⟩ := ih
    obtain ⟨k, hs, hb, hc, hn⟩ := h
    obtain ⟨z, hz, f1, f2, hzu⟩ := inUse_step hs hb hc hy hyu
    refine ⟨z, hz, f1.trans e1, f2.trans e2, ?_⟩
    rcases hzu with h | ⟨hk, h⟩
    · exact h
    · exact absurd ⟨hk, z, hz, f1.trans e1, h⟩ hn

/-- A connection that was just entered into the tables is in use: C151 says what becomes of every connection. -/
theorem inUse_new (M : Type) : InUse (Peer.new M) := ⟨rfl, rfl, rfl, .inl rfl, .inl rfl, fun _ h => by cases h⟩

/-- C151 applies to a state that is reached: a connection was opened and its handlers were started, and then bytes come
in on it. -/
example (chain : Chain E) (storage : Storage E) (mempool : Option (Transaction E → Out Unit)) (bs : Bytes) :
    ∃ (s t : Program.State E) (x : Whole.Conn (Message E)), Program.Reachable hostOf chain storage mempool s ∧
      x ∈ s.pool.conns ∧ x.peer.reader = .loop ∧ x.peer.writer = .select ∧ InUse x.peer ∧
      Relation.ReflTransGen (Undisturbed hostOf x.id) s t ∧ (t.io x.id).arrived = bs := by
  let a0 := "10.0.0.1:3414"
  let told : PoolRun.Told := ⟨ProtocolVersion, 1, CapFullNode⟩
  have hr : ∀ a, twoHosts "" = some a → a.port = 0 := by intro a h; rw [(by decide +kernel : twoHosts "" = none)] at h; cases h
  let P : Lifecycle.Peer (Message E) := .new (Message E)
  let T0 : Table := [(a0, PeerInfo.fresh)]
  let T1 : Table := [(a0, PoolRun.registered 0 (Time.unix 0) told PeerInfo.fresh)]
  let st (t : Table) (on : List String) (n : Int) (sl : Nat) (lp : Whole.Loop) (cs : List (Whole.Conn (Message E))) (op : List Nat)
      (nx : Nat) : Program.State E :=
    { (Program.State.new chain storage mempool) with pool := ⟨t, on, n, sl, lp, cs, op, nx, false, [], [], false⟩ }
  let R (s : Program.State E) : Prop := Program.Reachable hostOf chain storage mempool s
  have e0 : R (st [] [] 0 0 .select [] [] 0) := .new
  have e1 : R (st T0 [] 0 0 .select [] [] 0) := Program.lift _ e0 rfl rfl (.add _ a0 twoHosts hr) rfl
  have e3 : R (st T0 [] 0 1 .choosing [] [] 0) := Program.lift _ e1 rfl rfl (.take _ rfl (show 0 < 15 by decide)) rfl
  have e4 : R (st T0 [] 0 1 (.connecting a0) [] [] 0) :=
    Program.lift _ e3 rfl rfl (.choose _ T0 T0 rfl (.refl _) (.refl _)) rfl
  have free : ∀ {t on n sl lp cs op nx a}, Whole.Loop.holds lp = none → ¬ (st t on n sl lp cs op nx).pool.locked a := by
    rintro t on n sl lp cs op nx a hl (h | h | ⟨c, k, h⟩)
    · have h : lp.holds = some a := h
      rw [hl] at h; cases h
    · cases h
    · cases h
  have e5 : R (st T0 [] 0 1 (.dialing a0) [] [] 0) :=
    Program.lift _ e4 rfl rfl (.dial _ a0 PeerInfo.fresh rfl (by decide) (show (0 : Int) ≤ 15 by decide) (show T0.find a0 = _ by decide +kernel) (free rfl) (by decide)) rfl
  have e6 : R (st T0 [] 0 1 (.greeting a0 0) [] [0] 1) := Program.lift _ e5 rfl rfl (.opens _ a0 rfl) rfl
  have e7 : R (st T0 [] 0 1 (.counting a0 0 told 0) [] [0] 1) :=
    Program.lift _ e6 rfl rfl (.see _ a0 0 told rfl rfl) rfl
  let c (p : Lifecycle.Peer (Message E)) : Whole.Conn (Message E) := ⟨0, a0, p, .unborn, .before⟩
  have e8 : R (st T1 [a0] 1 1 (.starting a0 0) [c P] [0] 1) :=
    Program.liftNew _ e7 rfl rfl (.register _ a0 0 told (Time.unix 0) 0 rfl) (c P) rfl (fun _ h => by cases h)
  let P1 : Lifecycle.Peer (Message E) := { P with wg := 2, reader := .loop, writer := .select }
  have e9 : R (st T1 [a0] 1 1 (.pinging a0 0) [c P1] [0] 1) :=
    Program.lift1 _ e8 rfl rfl (.start _ a0 [] [] (c P) rfl rfl P1 rfl rfl rfl) [] [] (c P) (c P1) rfl rfl rfl
      (fun h => by cases h) (fun _ _ h => by cases h) (fun h => by cases h)
  refine ⟨_, _, c P1, e9, List.mem_singleton.2 rfl, rfl, rfl,
    ⟨rfl, rfl, rfl, .inr (.inl rfl), .inr (.inl rfl), fun _ h => by cases h⟩,
    .single ⟨.remote, .arrive 0 bs, rfl, rfl, ?_⟩, ?_⟩
  · rintro ⟨-, x, hx, -, h⟩
    rw [List.mem_singleton.1 hx] at h
    rcases h with h | h <;> cases h
  · exact List.nil_append bs

end Gringo.Props
