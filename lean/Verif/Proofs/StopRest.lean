import Verif.Proofs.ProgramRest
import Verif.Proofs.ProgramEnds
/-
Helper lemmas for Props/StopRest.lean.
-/
namespace Gringo.Program
open Gringo.P2P Gringo.Spec Gringo.Props

variable {E : Env} {remote : Nat → String} {chain : Chain E} {storage : Storage E} {mempool : Option (Transaction E → Out Unit)}

/-- The goroutine of `Stop` waits for the connection, whose read loop does not end. -/
def Jam (s : State E) (c n : Nat) : Prop :=
  ∃ y ∈ s.pool.conns, y.id = c ∧ (y.addr, .closing c n) ∈ s.pool.closers ∧ y.call n = some (.disconnect .waiting) ∧
    ((y.peer.reader = .reading ∧ ∃ m, (s.io c).task = some m ∧ (locks m = true ∨ (s.io c).stuck = true)) ∨
      ∃ d, y.peer.reader = .closing d)

/-- A call of `Disconnect` waits until the handlers have ended. -/
theorem waiting_stays {M : Type} {frame : M → Bytes} {k : Lifecycle.Kind} {p q : Lifecycle.Peer M}
    (hs : Lifecycle.Step frame k p q) (hw : p.wg ≠ 0) {n : Nat} (h : p.threads[n]? = some (.disconnect .waiting)) :
    q.threads[n]? = some (.disconnect .waiting) := by
  have d : ∀ {d d' : Lifecycle.Disc} {z : Lifecycle.Peer M}, Lifecycle.DiscStep d p d' z → z.threads = p.threads := by
    intro d d' z h; cases h <;> rfl
  have hlt := (List.getElem?_eq_some_iff.1 h).1
  have app : ∀ t : List (Lifecycle.Thread M), (p.threads ++ t)[n]? = some (.disconnect .waiting) := fun t => by
    rw [List.getElem?_append_left hlt]; exact h
  have mid : ∀ {l r : List (Lifecycle.Thread M)} {u v : Lifecycle.Thread M}, p.threads = l ++ u :: r →
      u ≠ .disconnect .waiting → (l ++ v :: r)[n]? = some (.disconnect .waiting) := fun {l r u v} e hne => by
    rw [e] at h
    by_cases e1 : n < l.length
    · rw [List.getElem?_append_left e1] at h ⊢; exact h
    have e1 := Nat.le_of_not_lt e1
    rw [List.getElem?_append_right e1] at h ⊢
    cases e2 : n - l.length with
    | zero => rw [e2] at h; exact absurd (Option.some.inj h) hne
    | succ j => rw [e2] at h; exact h
  cases hs with
  | callDisconnect => exact app _
  | callSend => exact app _
  | callWait => exact app _
  | closingStep _ s0 _ _ _ hd => show s0.threads[n]? = _; rw [d hd]; exact h
  | readerLeave _ s0 _ _ _ hd => show s0.threads[n]? = _; rw [d hd]; exact h
  | writerLeave _ s0 _ _ _ hd => show s0.threads[n]? = _; rw [d hd]; exact h
  | threadDisc _ s0 l r d0 d' h0 hd =>
    refine mid h0 fun e => ?_
    cases e
    cases hd
    exact hw ‹_›
  | sendQuit _ l r m h0 => exact mid h0 nofun
  | sendTaken _ l r m h0 => exact mid h0 nofun
  | waitQuit _ l r h0 => exact mid h0 nofun
  | waitEnd _ l r h0 => exact mid h0 nofun
  | _ => exact h

theorem closing_goes {M : Type} {frame : M → Bytes} {k : Lifecycle.Kind} {p q : Lifecycle.Peer M}
    (hs : Lifecycle.Step frame k p q) {d : Lifecycle.Disc} (h : p.reader = .closing d) (hne : d ≠ .returned) :
    ∃ d', q.reader = .closing d' := by
  have e : ∀ {d d' : Lifecycle.Disc} {z : Lifecycle.Peer M}, Lifecycle.DiscStep d p d' z → z.reader = p.reader := by
    intro d d' z h; cases h <;> rfl
  cases hs with
  | closingStep _ s0 _ d' _ hd => exact ⟨d', rfl⟩
  | closingEnd _ hr => rw [h] at hr; cases hr; exact absurd rfl hne
  | writerLeave _ s0 _ _ _ hd => exact ⟨d, (e hd).trans h⟩
  | threadDisc _ s0 l r d0 d' h0 hd => exact ⟨d, (e hd).trans h⟩
  | _ => first | exact ⟨d, h⟩ | simp_all

theorem jam_step {s s' : State E} (hi : Inv remote chain storage mempool s) {k : Lifecycle.Kind}
    (hs : Step remote k s s') {c n : Nat} (hj : Jam s c n) : Jam s' c n := by
  obtain ⟨y, hy, rfl, hcl, hk, hrd⟩ := hj
  have hv := Whole.inv_reachable hi.whole
  have hls : s.pool.loop = .stopped := Classical.byContradiction fun e' => by rw [hv.stopped e'] at hcl; cases hcl
  have hwg : y.peer.wg ≠ 0 := by
    rw [(Lifecycle.inv_reachable (hv.conns y hy).peer).wg]
    rcases hrd with ⟨e, -⟩ | ⟨d, e⟩ <;> rw [e] <;> simp [Lifecycle.Reader.counts]
  have call : ∀ {l r : List (Whole.Conn (Message E))} {x : Whole.Conn (Message E)} {t : Lifecycle.Thread (Message E)},
      s.pool.conns = l ++ x :: r → ∃ y' ∈ l ++ x.calls t :: r, y'.id = y.id ∧ y'.addr = y.addr ∧
        y'.call n = some (.disconnect .waiting) ∧ y'.peer.reader = y.peer.reader := fun {l r x t} e => by
    rw [e] at hy
    rcases Whole.mem_replaced (x := x.calls t) hy with rfl | hy
    · refine ⟨y.calls t, by simp, rfl, rfl, ?_, rfl⟩
      unfold Whole.Conn.call Whole.Conn.calls at *
      dsimp only
      rw [List.getElem?_append_left (List.getElem?_eq_some_iff.1 hk).1]
      exact hk
    · exact ⟨y, hy, rfl, rfl, hk, rfl⟩
  have other : ∀ {l r : List (Whole.Conn (Message E))} {x v : Whole.Conn (Message E)}, s.pool.conns = l ++ x :: r →
      x.id ≠ y.id → y ∈ l ++ v :: r := fun {l r x v} e hne => by
    rw [e] at hy
    rcases Whole.mem_replaced (x := v) hy with rfl | hy
    · exact absurd rfl hne
    · exact hy
  have busy : ∀ {x : Whole.Conn (Message E)}, x ∈ s.pool.conns → x.peer.reader = .reading → (s.io x.id).task = none →
      x.id ≠ y.id := fun hx h1 h2 e => by
    cases Whole.same_id hi.whole hx hy e
    rcases hrd with ⟨-, m, e, -⟩ | ⟨d, e⟩
    · rw [h2] at e; cases e
    · rw [h1] at e; cases e
  cases hs with
  | pool k q hs hr hw hm =>
    obtain ⟨y', hy', g1, g2, -⟩ := Props.conn_stays hv hs hy
    obtain ⟨f3, f4⟩ : (y'.peer = y.peer ∨ ∃ k, Lifecycle.Step Talk.frame k y.peer y'.peer) ∧
        (y.peer.reader = .closing .returned → y'.peer.reader = .closing .returned) := by
      rcases Whole.conn_from hi.whole hs hy' with ⟨-, -, e, -⟩ | ⟨x, hx, f1, -, f3, f4, -⟩
      · exact absurd g1.symm (e y hy)
      · cases Whole.same_id hi.whole hx hy (f1.symm.trans g1)
        exact ⟨f3, f4⟩
    refine ⟨y', hy', g1, ?_, ?_, ?_⟩
    · rw [g2]
      have old : ∀ {l r : List (String × Whole.Closer)} {u v : String × Whole.Closer}, s.pool.closers = l ++ u :: r →
          u ≠ (y.addr, .closing y.id n) → (y.addr, .closing y.id n) ∈ l ++ v :: r := fun {l r u v} e hne => by
        rw [e] at hcl
        rcases Whole.mem_replaced (x := v) hcl with h | h
        · exact absurd h.symm hne
        · exact h
      cases hs with
      | quitting hl => rw [hls] at hl; cases hl
      | closeLock l r addr hx hl => exact old hx nofun
      | closeCall l r addr i l' r' x hx => exact old hx nofun
      | closeDone l r addr k' x hx hx' hk' =>
        refine old hx fun e => ?_
        injection e with e1 e2
        injection e2 with e2 e3
        cases Whole.same_id hi.whole hx' hy e2
        subst e3
        rw [hk] at hk'
        cases hk'
      | _ => exact hcl
    · rcases f3 with f3 | ⟨k', f3⟩
      · unfold Whole.Conn.call; rw [f3]; exact hk
      · exact waiting_stays f3 hwg hk
    · rcases hrd with ⟨e1, m, e2, e3⟩ | ⟨d, e⟩
      · rcases hr y hy y' hy' g1 e1 with e | ⟨e, -⟩
        · exact .inl ⟨e, m, e2, e3⟩
        · rw [e2] at e; cases e
      · right
        by_cases hd : d = .returned
        · subst hd; exact ⟨_, f4 e⟩
        rcases f3 with f3 | ⟨k', f3⟩
        · exact ⟨d, by rw [f3]; exact e⟩
        · exact closing_goes f3 e hd
  | arrive c bs =>
    refine ⟨y, hy, rfl, hcl, hk, hrd.imp (fun ⟨e1, m, e2⟩ => ⟨e1, m, ?_⟩) id⟩
    dsimp only
    by_cases e : y.id = c
    · rw [e, Function.update_self, ← e]; exact e2
    · rw [Function.update_of_ne e]; exact e2
  | look => exact ⟨y, hy, rfl, hcl, hk, hrd⟩
  | relay l' r' j i l r x h hi hn hx =>
    obtain ⟨y', h1, h2, h3, h4, h5⟩ := call (t := .send (.block j.block)) hx
    exact ⟨y', h1, h2, by rw [h3]; exact hcl, h4, by rw [h5]; exact hrd⟩
  | skip l r x c rest hx hr ht h =>
    have hne := busy (by rw [hx]; simp) hr ht
    refine ⟨y, other hx hne, rfl, hcl, hk, ?_⟩
    dsimp only
    rw [Function.update_of_ne hne.symm]; exact hrd
  | read x m c rest hx hr ht h =>
    have hne := busy hx hr ht
    refine ⟨y, hy, rfl, hcl, hk, ?_⟩
    dsimp only
    rw [Function.update_of_ne hne.symm]; exact hrd
  | readerDies => exact ⟨y, hy, rfl, hcl, hk, hrd⟩
  | process l r x w m hx hr ht hs hw hl he ha =>
    have hne : x.id ≠ y.id := fun e => by
      cases Whole.same_id hi.whole (by rw [hx]; simp) hy e
      rcases hrd with ⟨-, m', e1, e2 | e2⟩ | ⟨d, e⟩
      · rw [ht] at e1; cases e1; exact hl e2 (.inr (.inr ⟨_, _, hcl⟩))
      · rw [hs] at e2; cases e2
      · rw [hr] at e; cases e
    refine ⟨y, other hx hne, rfl, hcl, hk, ?_⟩
    simp only [State.handled]
    rw [Function.update_of_ne hne.symm]; exact hrd
  | answer l r x w m a hx hr ht hs hw hl he ha =>
    have hne : x.id ≠ y.id := fun e => by
      cases Whole.same_id hi.whole (by rw [hx]; simp) hy e
      rcases hrd with ⟨-, m', e1, e2 | e2⟩ | ⟨d, e⟩
      · rw [ht] at e1; cases e1; exact hl e2 (.inr (.inr ⟨_, _, hcl⟩))
      · rw [hs] at e2; cases e2
      · rw [hr] at e; cases e
    refine ⟨y, other hx hne, rfl, hcl, hk, ?_⟩
    simp only [State.handled]
    rw [Function.update_of_ne hne.symm]; exact hrd
  | ban l r x w m hx hr ht hs he =>
    by_cases hne : x.id = y.id
    · cases Whole.same_id hi.whole (by rw [hx]; simp) hy hne
      exact ⟨{ y with peer := { y.peer with reader := .closing .cas } }, by simp, rfl, hcl, hk, .inr ⟨_, rfl⟩⟩
    · refine ⟨y, other hx hne, rfl, hcl, hk, ?_⟩
      dsimp only
      rw [Function.update_of_ne (Ne.symm hne)]; exact hrd
  | banOther l r x z w m i hx hr ht hs hz he hi hp hne =>
    obtain ⟨y', h1, h2, h3, h4, h5⟩ := call (t := .disconnect .cas) hz
    refine ⟨y', h1, h2, by rw [h3]; exact hcl, h4, ?_⟩
    rw [h5]
    refine hrd.imp (fun ⟨e1, m', e2, e3⟩ => ⟨e1, m', ?_⟩) id
    dsimp only
    by_cases e : y.id = x.id
    · rw [e, Function.update_self]; exact ⟨by rw [← e]; exact e2, .inr rfl⟩
    · rw [Function.update_of_ne e]; exact ⟨e2, e3⟩
  | processDies => exact ⟨y, hy, rfl, hcl, hk, hrd⟩
  | writerDies => exact ⟨y, hy, rfl, hcl, hk, hrd⟩

theorem not_held {s : State E} (h : Reachable remote chain storage mempool s) {x : Whole.Conn (Message E)}
    (hx : x ∈ s.pool.conns) (hf : x.peer.flag = false) : ¬ HeldByStop s x := by
  rintro ⟨-, -, k, -, hk⟩
  rw [(waiting_flag h hx hk).1] at hf
  cases hf

/-- From a state in which a message was read that needs the lock, `Stop` comes to wait for the connection. -/
theorem held_run {s : State E} (h : Reachable remote chain storage mempool s) (hd : s.dead = false) (hp : s.pool.panicked = false)
    (hl : s.pool.loop = .select) (hq : s.pool.quit = false) {x : Whole.Conn (Message E)} (hx : x ∈ s.pool.conns)
    (hf : x.peer.flag = false) (hr : x.peer.reader = .reading) {m : Message E} (ht : (s.io x.id).task = some m)
    (hm : Tidings m) {i : PeerInfo} (hi : s.pool.table.find x.addr = some i) (hpe : i.peer = some x.id) :
    ∃ s' y, RunWhile remote (fun _ => True) s s' ∧ s'.dead = false ∧ s'.pool.panicked = false ∧ s'.pool.loop = .stopped ∧
      (∃ l r, s.pool.conns = l ++ x :: r ∧ s'.pool.conns = l ++ y :: r) ∧ y ∈ s'.pool.conns ∧ y.id = x.id ∧ y.addr = x.addr ∧
      HeldByStop s' y ∧ s'.pool.bans = s.pool.bans ∧ s'.jobs = s.jobs ∧ s'.io = s.io ∧
      s'.pool.closers.length = s.pool.table.length := by
  have none_ : s.pool.closers = [] := (Whole.inv_reachable (inv_reachable h).whole).stopped (by rw [hl]; simp)
  -- one step of the pool that changes no connection
  have same : ∀ {t : State E} {k : Lifecycle.Kind} {q : Whole.State (Message E)},
      Reachable remote chain storage mempool t ∧ RunWhile remote (fun _ => True) s t → t.dead = false →
      t.pool.panicked = false → Whole.Step Talk.frame ping ask t.pool k q → q.conns = t.pool.conns →
      Reachable remote chain storage mempool { t with pool := q } ∧
      RunWhile remote (fun _ => True) s { t with pool := q } := fun ⟨h1, h2⟩ hd hp hs hc => by
    have st := pool_same (inv_reachable h1) hs hc
    exact ⟨h1.next hd hp st, h2.next hd hp st trivial⟩
  obtain ⟨l, r, hlr⟩ := List.append_of_mem hx
  have htab : (x.addr, i) ∈ s.pool.table := by
    obtain ⟨_, _, e, -⟩ := List.lookup_eq_some_iff.1 hi
    rw [e]; simp
  obtain ⟨l', r', hc⟩ := List.append_of_mem (List.mem_map.2 ⟨(x.addr, i), htab, rfl⟩ :
    (x.addr, Whole.Closer.pending) ∈ s.pool.table.map fun e => (e.1, Whole.Closer.pending))
  have h1 := same ⟨h, .refl trivial⟩ hd hp (.stop _) rfl
  have h2 := same h1 hd (show s.pool.quit = false from hq) (.quitting _ hl rfl) rfl
  have h3 := same h2 hd hq (.closeLock _ l' r' x.addr hc (by
    rintro (e | e | ⟨c, k, e⟩)
    · cases e
    · obtain ⟨_, -, e⟩ := List.mem_map.1 e; cases congrArg Prod.snd e
    · obtain ⟨_, -, e⟩ := List.mem_map.1 e; cases congrArg Prod.snd e)) rfl
  -- one step that changes the connection
  have one : ∀ {t : State E} {k : Lifecycle.Kind} {q : Whole.State (Message E)} {u v : Whole.Conn (Message E)},
      Reachable remote chain storage mempool t ∧ RunWhile remote (fun _ => True) s t → t.dead = false →
      t.pool.panicked = false → Whole.Step Talk.frame ping ask t.pool k q → t.pool.conns = l ++ u :: r → q.conns = l ++ v :: r →
      v.id = u.id → u.peer.reader = v.peer.reader → u.peer.writer = v.peer.writer → handed v = handed u →
      Reachable remote chain storage mempool { t with pool := q } ∧
      RunWhile remote (fun _ => True) s { t with pool := q } :=
    fun ⟨h1, h2⟩ hd hp hs e1 e2 e3 e4 e5 e6 => by
      have st := pool_one (inv_reachable h1) hs e1 e2 e3 (fun e => .inl (e4 ▸ e))
        (fun m p g1 g2 => by rw [e5, g2] at g1; cases g1) (fun _ => e6)
      exact ⟨h1.next hd hp st, h2.next hd hp st trivial⟩
  have h4 := one h3 hd hq (.closeCall _ l' r' x.addr i l r x rfl hi hpe hlr) hlr rfl rfl rfl rfl
    (by simp [handed, Whole.Conn.calls])
  -- the steps of `Disconnect`
  obtain ⟨c1, c2⟩ := (inv_reachable h).calm x hx
  have disc : ∀ {t : State E} {d d' : Lifecycle.Disc} {v : Whole.Conn (Message E)} {p : Lifecycle.Peer (Message E)},
      Reachable remote chain storage mempool t ∧ RunWhile remote (fun _ => True) s t → t.dead = false →
      t.pool.panicked = false → t.pool.conns = l ++ v :: r → v.id = x.id → v.addr = x.addr → v.lock = .before →
      v.peer.reader = .reading → v.peer.threads = x.peer.threads ++ [.disconnect d] → Lifecycle.DiscStep d v.peer d' p →
      ∃ t' v', (Reachable remote chain storage mempool t' ∧ RunWhile remote (fun _ => True) s t') ∧
        t'.dead = false ∧ t'.pool.panicked = false ∧ t'.pool.conns = l ++ v' :: r ∧ v'.id = x.id ∧ v'.addr = x.addr ∧
        v'.lock = .before ∧ v'.peer.reader = .reading ∧ v'.peer.threads = x.peer.threads ++ [.disconnect d'] ∧
        t'.pool.loop = t.pool.loop ∧ t'.pool.closers = t.pool.closers ∧ t'.io = t.io ∧ t'.pool.bans = t.pool.bans ∧
        t'.jobs = t.jobs := by
    intro t d d' v p ht hd hp e1 e2 e3 e4 e5 e6 hs
    have hre : p.reader = v.peer.reader := by cases hs <;> rfl
    have hwr : p.writer = v.peer.writer := by cases hs <;> rfl
    have hst : Lifecycle.Step Talk.frame .own v.peer { p with threads := x.peer.threads ++ .disconnect d' :: [] } :=
      .threadDisc _ p x.peer.threads [] d d' e6 hs
    have hin := Whole.Step.inner (ping := ping) (ask := ask) t.pool l r v e1 .own _ (by simp) hst (fun _ => hre)
    refine ⟨_, _, one ht hd hp hin e1 rfl rfl hre.symm hwr.symm ?_, hd, hp, rfl, e2, e3, ?_, hre.trans e5, rfl, rfl, rfl, rfl, rfl, rfl⟩
    · simp [handed, e6]
    · simp [e4]
  obtain ⟨t1, v1, a1, a2, a3, a4, a5, a6, a7, a8, a9, a10, a11, a12, a13, a14⟩ := disc h4 hd hq (v := x.calls (.disconnect .cas)) rfl rfl
    rfl c1 hr rfl (.win _ hf)
  obtain ⟨t2, v2, b1, b2, b3, b4, b5, b6, b7, b8, b9, b10, b11, b12, b13, b14⟩ := disc a1 a2 a3 a4 a5 a6 a7 a8 a9 (.closeQuit _)
  obtain ⟨t3, v3, d1, d2, d3, d4, d5, d6, d7, d8, d9, d10, d11, d12, d13, d14⟩ := disc b1 b2 b3 b4 b5 b6 b7 b8 b9 (.closeConn _)
  refine ⟨t3, v3, d1.2, d2, d3, by rw [d10, b10, a10], ⟨l, r, hlr, d4⟩, by rw [d4]; simp, d5, d6,
    ⟨d8, ⟨m, ?_, hm⟩, x.peer.threads.length, ?_, ?_⟩, by rw [d13, b13, a13], by rw [d14, b14, a14], by rw [d12, b12, a12], ?_⟩
  · rw [d12, b12, a12, d5]; exact ht
  · rw [d11, b11, a11, d5, d6]; simp
  · unfold Whole.Conn.call; rw [d9]; simp
  · rw [d11, b11, a11]
    have := congrArg List.length hc
    simpa using this.symm

/-- A node with one connection, which a goroutine of `Stop` waits for. -/
def Alone (s : State E) : Prop :=
  s.pool.bans = [] ∧ s.jobs = [] ∧ s.pool.loop = .stopped ∧ ∃ y p n, s.pool.conns = [y] ∧ (s.io y.id).task = some (.ping p) ∧
    y.peer.reader = .reading ∧ s.pool.closers = [(y.addr, .closing y.id n)] ∧ y.call n = some (.disconnect .waiting)

/-- It does not end. -/
theorem alone_step {s s' : State E} (h : Reachable remote chain storage mempool s) (ha : Alone s) (hw : ProgramWorks remote s s') :
    Alone s' ∧ s'.dead = false ∧ s'.pool.panicked = false := by
  obtain ⟨hd, hp, -, hst⟩ := hw
  have hi := inv_reachable h
  have ⟨k, hs, hk⟩ : ∃ k, Step remote k s s' ∧ k ≠ .call := by
    rcases hst with h | ⟨h, -⟩ <;> exact ⟨_, h, by simp⟩
  obtain ⟨hb, hj, hl, y, p, n, hc, ht, hr, hcl, hn⟩ := ha
  have hy : y ∈ s.pool.conns := by rw [hc]; simp
  have hfl := waiting_flag h hy hn
  have hjam : Jam s y.id n := ⟨y, hy, rfl, by rw [hcl]; simp, hn, .inl ⟨hr, _, ht, .inl rfl⟩⟩
  obtain ⟨y', hy', j1, j2, j3, j4⟩ := jam_step hi hs hjam
  have only : ∀ {l r : List (Whole.Conn (Message E))} {x : Whole.Conn (Message E)}, s.pool.conns = l ++ x :: r →
      l = [] ∧ x = y ∧ r = [] := fun {l r x} e => by
    rw [hc] at e
    cases l with
    | nil => cases e; exact ⟨rfl, rfl, rfl⟩
    | cons => simp at e
  have one : ∀ {x : Whole.Conn (Message E)}, x ∈ s.pool.conns → x = y := fun hx => by rw [hc] at hx; exact List.mem_singleton.1 hx
  have held : ¬ (¬ s.pool.locked y.addr) := fun e => e (.inr (.inr ⟨y.id, n, by rw [hcl]; simp⟩))
  have noJob : ∀ {l r : List (Job E)} {j : Job E}, s.jobs ≠ l ++ j :: r := fun {l r j} e => by rw [hj] at e; simp at e
  have hdone : ∀ w, (processMessage w s.node (sender remote y) (.ping p)).ended = .done := fun w => by
    obtain ⟨i, e, -⟩ := (Whole.inv_reachable hi.whole).target y.addr y.id n (by rw [hcl]; simp)
    have e : s.node.table.find (sender remote y).addr = some i := e
    simp [processMessage, handle, e]
  cases hs with
  | pool k q hs hr' hw hm =>
    have fin : q.bans = [] → q.loop = .stopped → q.conns.length = 1 → q.closers = s.pool.closers → q.panicked = false →
        Alone { s with pool := q } ∧ s.dead = false ∧ q.panicked = false := fun f1 f2 f3 f4 f5 => by
      obtain ⟨v, hv⟩ := List.length_eq_one_iff.1 f3
      have hy2 : y' ∈ q.conns := hy'
      rw [hv, List.mem_singleton] at hy2
      refine ⟨⟨f1, hj, f2, y', p, n, hv.trans (by rw [hy2]), by rw [j1]; exact ht, ?_, ?_, j3⟩, hd, f5⟩
      · rcases hr' y hy y' hy' j1 hr with h | ⟨h, -⟩
        · exact h
        · rw [ht] at h; cases h
      · show q.closers = _
        rw [f4, hcl, j1]
        have j2 : (y'.addr, Whole.Closer.closing y.id n) ∈ q.closers := j2
        rw [f4, hcl, List.mem_singleton] at j2
        rw [j2]
    have len : s.pool.conns.length = 1 := by rw [hc]; rfl
    cases hs with
    | inner l r x hx kind p hkc hs hh => exact fin hb hl (by obtain ⟨rfl, -, rfl⟩ := only hx; rfl) rfl hp
    | want l r x a hx h => obtain ⟨-, rfl, -⟩ := only hx; rw [hr] at h; cases h
    | record l r x td height hx h => exact fin hb hl (by obtain ⟨rfl, -, rfl⟩ := only hx; rfl) rfl hp
    | banSelf addr i l r x hx h => obtain ⟨-, rfl, -⟩ := only hx; rw [hr] at h; cases h
    | relay | add | banOther | banNil | stop => exact absurd rfl hk
    | mark l r x k hx => exact fin hb hl (by obtain ⟨rfl, -, rfl⟩ := only hx; rfl) rfl hp
    | seeDown l r x hx h => exact fin hb hl (by obtain ⟨rfl, -, rfl⟩ := only hx; rfl) rfl hp
    | count l r x n hx h => exact fin hb hl (by obtain ⟨rfl, -, rfl⟩ := only hx; rfl) rfl hp
    | drop l r x hx h => exact fin hb hl (by obtain ⟨rfl, -, rfl⟩ := only hx; rfl) rfl hp
    | free l r x hx h => exact fin hb hl (by obtain ⟨rfl, -, rfl⟩ := only hx; rfl) rfl hp
    | banEnd b h => rw [hb] at h; cases h
    | closeLock l r addr h => rw [hcl] at h; cases l <;> simp at h
    | closeNil addr i h => rw [hcl] at h; simp at h
    | closeCall l r addr i l' r' x h => rw [hcl] at h; cases l <;> simp at h
    | closeDone l r addr k x h hx' hk' =>
      rw [hcl] at h
      cases l with
      | nil =>
        simp only [List.nil_append, List.cons.injEq, Prod.mk.injEq, Whole.Closer.closing.injEq] at h
        obtain ⟨⟨-, -, e⟩, -⟩ := h
        rw [one hx', ← e, hn] at hk'
        cases hk'
      | cons => simp at h
    | _ => have h := hl.symm.trans ‹s.pool.loop = _›; cases h
  | arrive c bs =>
    refine ⟨⟨hb, hj, hl, y, p, n, hc, ?_, hr, hcl, hn⟩, hd, hp⟩
    show (Function.update s.io c _ y.id).task = _
    by_cases e : y.id = c
    · cases e; rw [Function.update_self]; exact ht
    · rw [Function.update_of_ne e]; exact ht
  | look l' r' j i st h => exact absurd h noJob
  | relay l' r' j i l r x h => exact absurd h noJob
  | skip l r x c rest hx hr ht' => obtain ⟨-, rfl, -⟩ := only hx; rw [ht] at ht'; cases ht'
  | read x m c rest hx hr ht' => rw [one hx, ht] at ht'; cases ht'
  | readerDies x what hx hr ht' => rw [one hx, ht] at ht'; cases ht'
  | process l r x w m hx hr ht' _ _ h =>
    obtain ⟨-, rfl, -⟩ := only hx; rw [ht] at ht'; cases ht'; exact absurd (h rfl) held
  | answer l r x w m a hx hr ht' _ _ h =>
    obtain ⟨-, rfl, -⟩ := only hx; rw [ht] at ht'; cases ht'; exact absurd (h rfl) held
  | ban l r x w m hx hr ht' _ he =>
    obtain ⟨-, rfl, -⟩ := only hx; rw [ht] at ht'; cases ht'; rw [hdone] at he; cases he
  | banOther l r x y w m i hx hr ht' _ _ he => rw [one hx] at ht' he; rw [ht] at ht'; cases ht'; rw [hdone] at he; cases he
  | processDies x w m hx hr ht' _ he => rw [one hx] at ht' he; rw [ht] at ht'; cases ht'; exact absurd (hdone w) he
  | writerDies x m hx hw hf => rw [one hx, hfl.1] at hf; cases hf

/-- It comes to rest, and the goroutine of `Stop` still waits. -/
theorem alone_rest {s : State E} (h : Reachable remote chain storage mempool s) (hd : s.dead = false) (hp : s.pool.panicked = false)
    (ha : Alone s) : ∃ t, Reachable remote chain storage mempool t ∧ t.dead = false ∧ t.pool.panicked = false ∧
      ProgramAtRest remote t ∧ Alone t := by
  have acc := works_acc h
  induction acc with
  | intro s _ ih =>
    by_cases hrest : ProgramAtRest remote s
    · exact ⟨s, h, hd, hp, hrest, ha⟩
    · obtain ⟨s1, h1⟩ := not_forall.1 hrest
      have h1 := not_not.1 h1
      obtain ⟨a1, a2, a3⟩ := alone_step h ha h1
      refine ih s1 h1 ?_ a2 a3 a1
      obtain ⟨-, -, -, hst⟩ := h1
      rcases hst with hst | ⟨hst, -⟩
      · exact h.next hd hp hst
      · exact h.next hd hp hst

section Rest

variable {s : State E} (h : Reachable remote chain storage mempool s) (hd : s.dead = false)
  (hp : s.pool.panicked = false) (hr : ProgramAtRest remote s)
include h hd hp hr

/-- When the loop has ended, every connection gets closed. -/
theorem stopped_rest (hl : s.pool.loop = .stopped) {x : Whole.Conn (Message E)} (hx : x ∈ s.pool.conns) :
    x.peer.flag = true := by
  have hi := inv_reachable h
  obtain ⟨hv, p, hrp, hrel⟩ := Whole.refines hi.whole
  cases hf : x.peer.flag with
  | true => rfl
  | false =>
    exfalso
    have := stopped_inv hrp (by rw [hrel.loop, hl]; rfl) x.abs (by rw [hrel.links]; exact List.mem_map.2 ⟨x, hx, rfl⟩)
      ((up_iff (hv.conns x hx)).2 hf)
    rw [hrel.closers] at this
    obtain ⟨⟨a, e⟩, h1, h2⟩ := List.mem_map.1 this
    have ha : a = x.addr := congrArg Prod.fst h2
    subst ha
    rcases closer_rest h hd hp hr h1 with rfl | ⟨y, hy, -, k, rfl, hk⟩
    · cases h2
    obtain ⟨i, g1, g2⟩ := hv.target _ _ _ h1
    have g3 := (PoolRun.inv_reachable hrp).entries.owner x.abs (by rw [hrel.links]; exact List.mem_map.2 ⟨x, hx, rfl⟩) (by
      show PoolRun.occupies ⟨_, _, x.phase, _⟩ = true
      rw [(up_iff (hv.conns x hx)).2 hf]; rfl) i (by rw [hrel.table]; exact g1)
    rw [g2] at g3
    cases Whole.same_id hi.whole hy hx (Option.some.inj g3)
    rw [(waiting_flag h hx hk).1] at hf
    cases hf

/-- A goroutine of `Stop` has ended, or waits for a connection that is held up. -/
theorem closer_waits {a : String} {e : Whole.Closer} (he : (a, e) ∈ s.pool.closers) :
    e = .over ∨ ∃ x ∈ s.pool.conns, x.addr = a ∧ (∃ k, e = .closing x.id k) ∧
      ((s.io x.id).stuck = true ∨ HeldByStop s x) := by
  refine (closer_rest h hd hp hr he).imp id ?_
  rintro ⟨x, hx, h1, k, h2, h3⟩
  obtain ⟨f1, f2⟩ := waiting_flag h hx h3
  refine ⟨x, hx, h1, ⟨k, h2⟩, ?_⟩
  rcases closed_rest h hd hp hr hx f1 with g | (g | g) | g
  · exact (g.2.2.2.2 _ (List.mem_of_getElem? h3)).elim
  · exact absurd g f2
  · exact .inl g
  · exact .inr g

end Rest

end Gringo.Program
