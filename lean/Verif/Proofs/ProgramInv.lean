import Verif.Proofs.Program
/-
Invariants of Model/Program.lean.
-/
namespace Gringo.Program
open Gringo.P2P Gringo.Spec Gringo.Props

variable {E : Env} {remote : Nat → String}

/-- A connection as in Model/Talk.lean, as it is, or was when the process ended. -/
def talk (s : State E) (x : Whole.Conn (Message E)) : Talk.State E where
  peer := x.peer
  node := s.node
  inbox := (s.io x.id).inbox
  task := (s.io x.id).task
  dead := false
  arrived := (s.io x.id).arrived

/-! ### One step of the goroutines -/

theorem handling_from {k : Lifecycle.Kind} {p q : Lifecycle.Peer (Message E)} (hs : Lifecycle.Step Talk.frame k p q)
    {a : Lifecycle.Act (Message E)} (h : q.reader = .handling a) :
    p.reader = .handling a ∨ p.reader = .reading := by
  have d : ∀ {d d' : Lifecycle.Disc} {z : Lifecycle.Peer (Message E)}, Lifecycle.DiscStep d p d' z →
      z.reader = p.reader := by
    intro d d' z h; cases h <;> rfl
  cases hs with
  | deliver _ _ hr => exact .inr hr
  | writerLeave _ s0 _ _ _ hd => exact .inl ((d hd).symm.trans h)
  | threadDisc _ s0 _ _ _ _ _ hd => exact .inl ((d hd).symm.trans h)
  | _ => first | exact .inl h | cases h

theorem closing_stays {k : Lifecycle.Kind} {p q : Lifecycle.Peer (Message E)} (hs : Lifecycle.Step Talk.frame k p q)
    {d : Lifecycle.Disc} (h : p.reader = .closing d)
    (hr : p.reader = .closing .returned → q.reader = .closing .returned) : ∃ d', q.reader = .closing d' := by
  have d : ∀ {d d' : Lifecycle.Disc} {z : Lifecycle.Peer (Message E)}, Lifecycle.DiscStep d p d' z →
      z.reader = p.reader := by
    intro d d' z h; cases h <;> rfl
  cases hs with
  | closingStep _ _ _ d' => exact ⟨d', rfl⟩
  | closingEnd _ hc => exact ⟨_, hr hc⟩
  | writerLeave _ s0 _ _ _ hd => exact ⟨_, (d hd).trans h⟩
  | threadDisc _ s0 _ _ _ _ _ hd => exact ⟨_, (d hd).trans h⟩
  | _ => first | exact ⟨_, h⟩ | (rename_i hc; rw [h] at hc; cases hc) | (rename_i hc _; rw [h] at hc; cases hc)

/-! ### The invariant -/

/-- What holds at all times. -/
structure Inv (remote : Nat → String) (chain : Chain E) (storage : Storage E)
    (mempool : Option (Transaction E → Out Unit)) (s : State E) : Prop where
  whole : Whole.Reachable Talk.frame ping ask s.pool
  same : s.chain = chain ∧ s.storage = storage ∧ s.mempool = mempool
  calm : ∀ x ∈ s.pool.conns, x.lock = .before ∧ ∀ a, x.peer.reader ≠ .handling a
  bans : ∀ b ∈ s.pool.bans, ∀ c, b.by_ = some c → ∃ x ∈ s.pool.conns, x.id = c ∧ ∃ d, x.peer.reader = .closing d
  unused : ∀ c, (∀ x ∈ s.pool.conns, x.id ≠ c) → (s.io c).task = none ∧ (s.io c).inbox = (s.io c).arrived
  talks : ∀ x ∈ s.pool.conns, ∃ node : Node E, node.chain = chain ∧ node.storage = storage ∧
    Known node (sender remote x) ∧ Talk.Reachable LeavesEntries (sender remote x) node (talk s x)

variable {chain : Chain E} {storage : Storage E} {mempool : Option (Transaction E → Out Unit)}

theorem inv_new : Inv remote chain storage mempool (.new chain storage mempool) where
  whole := .new
  same := ⟨rfl, rfl, rfl⟩
  calm := fun _ h => by cases h
  bans := fun _ h => by cases h
  unused := fun _ _ => ⟨rfl, rfl⟩
  talks := fun _ h => by cases h

/-- Another connection, or the pool, changes the node. -/
theorem talk_others {s s' : State E} {x y : Whole.Conn (Message E)} {f : Sender} {node : Node E}
    (h : Talk.Reachable LeavesEntries f node (talk s x)) (hn : LeavesEntries s.node s'.node)
    (hid : y.id = x.id) (hp : y.peer = x.peer) (h1 : (s'.io x.id).inbox = (s.io x.id).inbox)
    (h2 : (s'.io x.id).task = (s.io x.id).task) (h3 : (s'.io x.id).arrived = (s.io x.id).arrived) :
    Talk.Reachable LeavesEntries f node (talk s' y) := by
  have e : talk s' y = { talk s x with node := s'.node } := by
    unfold talk
    rw [hid, hp, h1, h2, h3]
  rw [e]
  exact .step h (.others _ rfl hn)

theorem leaves_refl (n : Node E) : LeavesEntries n n := ⟨rfl, rfl, rfl, fun _ h => h⟩

/-- The goroutines of a connection go on, and maybe the node changes. -/
theorem talk_inner {s s' : State E} {x y : Whole.Conn (Message E)} {f : Sender} {node : Node E}
    (h : Talk.Reachable LeavesEntries f node (talk s x)) (hn : LeavesEntries s.node s'.node) (hid : y.id = x.id)
    (hp : y.peer = x.peer ∨ ∃ k, Lifecycle.Step Talk.frame k x.peer y.peer) (hio : s'.io x.id = s.io x.id)
    (hr : x.peer.reader = .reading → y.peer.reader = .reading ∨ ((s.io x.id).task = none ∧ y.peer.reader = .stopping))
    (hb : x.peer.reader = .closing .returned → y.peer.reader = .closing .returned)
    (hw : ∀ m q, x.peer.writer = .got m → y.peer.writer = .writing m q → ∃ b, m.frame = .ok b) :
    Talk.Reachable LeavesEntries f node (talk s' y) := by
  rcases hp with hp | ⟨k, hs⟩
  · exact talk_others h hn hid hp (by rw [hio]) (by rw [hio]) (by rw [hio])
  · have h1 := talk_others (s' := s') (y := x) h hn rfl rfl (by rw [hio]) (by rw [hio]) (by rw [hio])
    have e : talk s' y = { talk s' x with peer := y.peer } := by
      unfold talk
      rw [hid]
    rw [e]
    refine .step h1 (.inner k y.peer rfl hs ?_ hb hw)
    show x.peer.reader = .reading → y.peer.reader = .reading ∨ ((s'.io x.id).task = none ∧ y.peer.reader = .stopping)
    rw [hio]
    exact hr

theorem pool_leaves {s : State E} {k : Lifecycle.Kind} {q : Whole.State (Message E)}
    (hs : Whole.Step Talk.frame ping ask s.pool k q) : LeavesEntries s.node ({ s with pool := q } : State E).node :=
  (C122_others_ok (E := E) (M := Message E) s.node).1 s.pool q k rfl hs

/-- In a step of the pool a connection is still there. -/
theorem comes_of {w w' : Whole.State (Message E)} {k : Lifecycle.Kind} (h : Whole.Reachable Talk.frame ping ask w)
    (hs : Whole.Step Talk.frame ping ask w k w') {x : Whole.Conn (Message E)} (hx : x ∈ w.conns) :
    ∃ y ∈ w'.conns, Whole.Comes Talk.frame x y := by
  obtain ⟨y, hy, h1, -⟩ := conn_stays (Whole.inv_reachable h) hs hx
  rcases Whole.conn_from h hs hy with ⟨-, -, hn, -⟩ | ⟨z, hz, hc⟩
  · exact absurd h1.symm (hn x hx)
  · have := Whole.same_id h hz hx (hc.1.symm.trans h1)
    exact ⟨y, hy, this ▸ hc⟩

theorem inv_pool {s : State E} {k : Lifecycle.Kind} {q : Whole.State (Message E)} (hi : Inv remote chain storage mempool s)
    (hp : s.pool.panicked = false) (hs : Whole.Step Talk.frame ping ask s.pool k q)
    (hr : ∀ x ∈ s.pool.conns, ∀ y ∈ q.conns, y.id = x.id → x.peer.reader = .reading →
      y.peer.reader = .reading ∨ ((s.io x.id).task = none ∧ y.peer.reader = .stopping))
    (hw : ∀ x ∈ s.pool.conns, ∀ y ∈ q.conns, y.id = x.id → ∀ m p, x.peer.writer = .got m →
      y.peer.writer = .writing m p → ∃ b, m.frame = .ok b) :
    Inv remote chain storage mempool { s with pool := q } := by
  have hl := pool_leaves hs
  refine ⟨hi.whole.next hp hs, hi.same, ?_, ?_, ?_, ?_⟩
  · intro y hy
    rcases Whole.conn_from hi.whole hs hy with ⟨h1, h2, -⟩ | ⟨x, hx, h1, h2, h3, h4, h5⟩
    · exact ⟨h2, fun a e => by rw [h1] at e; cases e⟩
    · obtain ⟨g1, g2⟩ := hi.calm x hx
      refine ⟨h5 g1 g2, fun a e => ?_⟩
      rcases h3 with h3 | ⟨k, h3⟩
      · exact g2 a (h3 ▸ e)
      · rcases handling_from h3 e with h | h
        · exact g2 a h
        · rcases hr x hx y hy h1 h with h | ⟨-, h⟩ <;> rw [e] at h <;> cases h
  · have keep : ∀ b ∈ s.pool.bans, ∀ c, b.by_ = some c →
        ∃ x ∈ q.conns, x.id = c ∧ ∃ d, x.peer.reader = .closing d := by
      intro b hb c hc
      obtain ⟨x, hx, h1, d, h2⟩ := hi.bans b hb c hc
      obtain ⟨y, hy, g1, -, g3, g4, -⟩ := comes_of hi.whole hs hx
      refine ⟨y, hy, g1.trans h1, ?_⟩
      rcases g3 with g3 | ⟨k, g3⟩
      · exact ⟨d, by rw [g3]; exact h2⟩
      · exact closing_stays g3 h2 g4
    have hcalm := hi.calm
    intro b hb
    cases hs with
    | banSelf addr i l r x hx hrd ht hp hb => exact absurd hrd ((hcalm x (by rw [hx]; simp)).2 _)
    | banOther addr i l r y by_ hx ht hp hby =>
      rcases List.mem_append.1 hb with hb | hb
      · exact keep b hb
      · intro c hc
        rw [List.mem_singleton.1 hb] at hc
        obtain ⟨-, ⟨z, hz, -, hz2⟩, -⟩ := hby c hc
        exact absurd hz2 ((hcalm z hz).2 _)
    | _ => exact keep b hb
  · intro c hc
    refine hi.unused c fun x hx e => ?_
    obtain ⟨y, hy, g1, -⟩ := comes_of hi.whole hs hx
    exact hc y hy (g1.trans e)
  · intro y hy
    rcases Whole.conn_from hi.whole hs hy with ⟨h1, h2, h3, h4, -⟩ | ⟨x, hx, h1, h2, h3, h4, h5⟩
    · obtain ⟨g1, g2⟩ := hi.unused y.id h3
      refine ⟨({ s with pool := q } : State E).node, hi.same.1, hi.same.2.1, hl.2.2.2 _ h4, ?_⟩
      have e : talk { s with pool := q } y = { Talk.State.new ({ s with pool := q } : State E).node with
          inbox := [] ++ (s.io y.id).arrived, arrived := [] ++ (s.io y.id).arrived } := by
        unfold talk Talk.State.new
        rw [h1]
        dsimp only
        rw [g1, g2]
        rfl
      rw [e]
      exact .step .new (.arrive _ rfl)
    · obtain ⟨node, n1, n2, n3, n4⟩ := hi.talks x hx
      have es : sender remote y = sender remote x := by unfold sender; rw [h1, h2]
      rw [es]
      exact ⟨node, n1, n2, n3, talk_inner n4 hl h1 h3 rfl (hr x hx y hy h1) h4 (hw x hx y hy h1)⟩

/-- The other steps: they change one connection. -/
theorem inv_one {s s' : State E} (hi : Inv remote chain storage mempool s) {l r : List (Whole.Conn (Message E))}
    {x x' : Whole.Conn (Message E)} (hlater : Whole.Later Talk.frame ping ask s.pool s'.pool)
    (hx : s.pool.conns = l ++ x :: r) (hx' : s'.pool.conns = l ++ x' :: r) (hid : x'.id = x.id) (haddr : x'.addr = x.addr)
    (hlock : x'.lock = .before) (hread : ∀ a, x'.peer.reader ≠ .handling a) (hio : ∀ c, c ≠ x.id → s'.io c = s.io c)
    (hleaves : LeavesEntries s.node s'.node)
    (hbans : ∀ b ∈ s'.pool.bans, b ∈ s.pool.bans ∨ b.by_ = none ∨
      (b.by_ = some x.id ∧ ∃ d, x'.peer.reader = .closing d))
    (hclose : ∀ d, x.peer.reader = .closing d → ∃ d', x'.peer.reader = .closing d')
    (htalk : ∀ node, Talk.Reachable LeavesEntries (sender remote x) node (talk s x) →
      Talk.Reachable LeavesEntries (sender remote x) node (talk s' x')) :
    Inv remote chain storage mempool s' := by
  have mem : ∀ z ∈ s'.pool.conns, z = x' ∨ (z ∈ s.pool.conns ∧ z.id ≠ x.id) := by
    intro z hz
    have hn := Whole.ids_nodup hi.whole
    rw [hx', List.mem_append, List.mem_cons] at hz
    rw [hx, List.map_append, List.map_cons, List.nodup_append] at hn
    obtain ⟨-, n2, n3⟩ := hn
    rw [List.nodup_cons] at n2
    rcases hz with hz | rfl | hz
    · refine .inr ⟨by rw [hx]; simp [hz], fun e => ?_⟩
      exact n3 z.id (List.mem_map.2 ⟨z, hz, rfl⟩) x.id (by simp) e
    · exact .inl rfl
    · refine .inr ⟨by rw [hx]; simp [hz], fun e => ?_⟩
      exact n2.1 (List.mem_map.2 ⟨z, hz, e⟩)
  have stays : ∀ z ∈ s.pool.conns, z = x ∨ z ∈ s'.pool.conns := by
    intro z hz
    rw [hx] at hz
    rcases mem_changed (y := x') hz with h | h
    · exact .inl h
    · exact .inr (hx' ▸ h)
  have hxm : x' ∈ s'.pool.conns := by rw [hx']; simp
  refine ⟨hlater.reachable hi.whole, ?_, ?_, ?_, ?_, ?_⟩
  · obtain ⟨h1, h2, h3, -⟩ := hleaves
    exact ⟨h1.trans hi.same.1, h2.trans hi.same.2.1, h3.trans hi.same.2.2⟩
  · intro z hz
    rcases mem z hz with rfl | ⟨hz, -⟩
    · exact ⟨hlock, hread⟩
    · exact hi.calm z hz
  · intro b hb c hc
    rcases hbans b hb with hb | hb | ⟨hb, hd⟩
    · obtain ⟨z, hz, h1, d, h2⟩ := hi.bans b hb c hc
      rcases stays z hz with rfl | hz
      · exact ⟨x', hxm, hid.trans h1, hclose d h2⟩
      · exact ⟨z, hz, h1, d, h2⟩
    · rw [hb] at hc; cases hc
    · rw [hb] at hc; cases hc
      exact ⟨x', hxm, hid, hd⟩
  · intro c hc
    have hne : c ≠ x.id := fun e => hc x' hxm (hid.trans e.symm)
    rw [hio c hne]
    refine hi.unused c fun z hz e => ?_
    rcases stays z hz with rfl | hz
    · exact hne e.symm
    · exact hc z hz e
  · intro z hz
    rcases mem z hz with rfl | ⟨hz, hne⟩
    · obtain ⟨node, n1, n2, n3, n4⟩ := hi.talks x (by rw [hx]; simp)
      have es : sender remote z = sender remote x := by unfold sender; rw [hid, haddr]
      rw [es]
      exact ⟨node, n1, n2, n3, htalk node n4⟩
    · obtain ⟨node, n1, n2, n3, n4⟩ := hi.talks z hz
      exact ⟨node, n1, n2, n3, talk_others n4 hleaves rfl rfl (by rw [hio _ hne]) (by rw [hio _ hne]) (by rw [hio _ hne])⟩

theorem node_handled {s : State E} {l r : List (Whole.Conn (Message E))} {x : Whole.Conn (Message E)}
    {reader : Lifecycle.Reader (Message E)} {w : World} {f : Sender} {m : Message E} :
    (s.handled l r x reader m (processMessage w s.node f m)).node = (processMessage w s.node f m).node := by
  obtain ⟨t, e, -⟩ := process_touches w s.node f m
  unfold State.handled State.node
  dsimp only
  change { chain := (processMessage w s.node f m).node.chain, storage := s.node.storage, mempool := s.node.mempool,
           table := (processMessage w s.node f m).node.table, online := s.node.online } = (processMessage w s.node f m).node
  rw [e]

theorem inv_io {s : State E} (hi : Inv remote chain storage mempool s) {x : Whole.Conn (Message E)}
    (hx : x ∈ s.pool.conns) (io : Reading E)
    (htalk : ∀ node, Talk.Reachable LeavesEntries (sender remote x) node (talk s x) →
      Talk.Reachable LeavesEntries (sender remote x) node (talk { s with io := Function.update s.io x.id io } x)) :
    Inv remote chain storage mempool { s with io := Function.update s.io x.id io } := by
  obtain ⟨l, r, e⟩ := List.append_of_mem hx
  obtain ⟨h1, h2⟩ := hi.calm x hx
  exact inv_one hi .here e e rfl rfl h1 h2 (fun c hc => Function.update_of_ne hc _ _) (leaves_refl _)
    (fun b hb => .inl hb) (fun d hd => ⟨d, hd⟩) htalk

theorem Real.empty {w : World} (h : Real w) : ∀ a, w.resolve "" = some a → a.port = 0 := by
  obtain ⟨r, order, closing, rfl, -⟩ := h
  intro a ha
  cases ha
  rfl

/-- Handling a message, as a run of the pool. -/
theorem process_later {s : State E} (hi : Inv remote chain storage mempool s) (hp : s.pool.panicked = false)
    {l r : List (Whole.Conn (Message E))} {x : Whole.Conn (Message E)} (w : World) (m : Message E)
    (hx : s.pool.conns = l ++ x :: r) (hr : x.peer.reader = .reading)
    (hw : ∀ a, w.resolve "" = some a → a.port = 0) (hl : locks m = true → ¬ s.pool.locked x.addr)
    (he : (processMessage w s.node (sender remote x) m).ended = .done) {a : Lifecycle.Act (Message E)}
    {reader : Lifecycle.Reader (Message E)}
    (ha : a = .nothing ∧ reader = .loop ∨ ∃ m, a = .reply m ∧ reader = .replying m) :
    Whole.Later Talk.frame ping ask s.pool
      (s.handled l r x reader m (processMessage w s.node (sender remote x) m)).pool := by
  have hm : x ∈ s.pool.conns := by rw [hx]; simp
  obtain ⟨c1, c2⟩ := hi.calm x hm
  have hop := Whole.closed_reachable hi.whole x hm
  have hac : a ≠ .close := by rcases ha with ⟨rfl, -⟩ | ⟨_, rfl, -⟩ <;> exact nofun
  have h1 := Whole.deliver_later (frame := Talk.frame) (ping := ping) (ask := ask) hp hx hop c1 hr a
  have fin : ∀ (t : Table) (lk : Whole.AtLock), lk ≠ .waiting → Whole.Later Talk.frame ping ask
      { s.pool with conns := l ++ { x with peer := { x.peer with reader := .handling a } } :: r }
      { s.pool with
        table := t, conns := l ++ { x with peer := { x.peer with reader := .handling a }, lock := lk } :: r } →
      Whole.Later Talk.frame ping ask s.pool
        { s.pool with table := t, conns := l ++ { x with peer := { x.peer with reader := reader } } :: r } := by
    intro t lk hlk h2
    have h3 := (h1.trans h2).trans (Whole.handled_later (frame := Talk.frame) (ping := ping) (ask := ask)
      (w := { s.pool with
        table := t, conns := l ++ { x with peer := { x.peer with reader := .handling a }, lock := lk } :: r })
      (x := { x with peer := { x.peer with reader := .handling a }, lock := lk }) hp rfl hop hlk rfl ha)
    have e : ({ x with peer := { x.peer with reader := reader }, lock := Whole.AtLock.before } : Whole.Conn (Message E)) =
        { x with peer := { x.peer with reader := reader } } := by
      obtain ⟨i, ad, p, wt, lk0⟩ := x
      cases c1; rfl
    rw [← e]
    exact h3
  have hu : UniqueKeys s.node.table := Whole.unique_reachable hi.whole
  show Whole.Later Talk.frame ping ask s.pool { s.pool with
    table := (processMessage w s.node (sender remote x) m).node.table,
    conns := l ++ { x with peer := { x.peer with reader := reader } } :: r }
  rcases done_table w s.node (sender remote x) m hu he with e | ⟨td, height, ⟨hlk, -⟩, e⟩ | ⟨p, -, e⟩
  · rw [e]
    refine fin _ .before nofun ?_
    have e : ({ x with peer := { x.peer with reader := .handling a }, lock := Whole.AtLock.before } : Whole.Conn (Message E)) =
        { x with peer := { x.peer with reader := .handling a } } := by
      obtain ⟨i, ad, p, wt, lk0⟩ := x
      cases c1; rfl
    rw [e]
    exact .here
  · rw [e]
    refine fin _ .after nofun ?_
    exact Whole.record_later (w := { s.pool with conns := l ++ { x with peer := { x.peer with reader := .handling a } } :: r })
      (x := { x with peer := { x.peer with reader := .handling a } }) hp rfl c1 rfl hac (hl hlk) td height
  · rw [e]
    refine fin _ .before nofun ?_
    have e : ({ x with peer := { x.peer with reader := .handling a }, lock := Whole.AtLock.before } : Whole.Conn (Message E)) =
        { x with peer := { x.peer with reader := .handling a } } := by
      obtain ⟨i, ad, p, wt, lk0⟩ := x
      cases c1; rfl
    rw [e]
    exact Whole.adds_later (w := { s.pool with conns := l ++ { x with peer := { x.peer with reader := .handling a } } :: r })
      hp w.resolve hw w.addrString p.peers

theorem inv_step {s s' : State E} (hi : Inv remote chain storage mempool s)
    (hp : s.pool.panicked = false) {k : Lifecycle.Kind} (hs : Step remote k s s') : Inv remote chain storage mempool s' := by
  have dies : Inv remote chain storage mempool { s with dead := true } :=
    ⟨hi.whole, hi.same, hi.calm, hi.bans, hi.unused, hi.talks⟩
  have own : ∀ {x : Whole.Conn (Message E)} {io : Reading E} {s1 : State E}, s1.io = Function.update s.io x.id io →
      ∀ c, c ≠ x.id → s1.io c = s.io c := fun e c hc => by rw [e]; exact Function.update_of_ne hc _ _
  cases hs with
  | pool k q hs hr hw hm => exact inv_pool hi hp hs hr hw
  | arrive c bs =>
    by_cases hc : ∃ x ∈ s.pool.conns, x.id = c
    · obtain ⟨x, hx, rfl⟩ := hc
      refine inv_io hi hx _ fun node h => ?_
      have e : talk { s with io := Function.update s.io x.id { s.io x.id with
          inbox := (s.io x.id).inbox ++ bs, arrived := (s.io x.id).arrived ++ bs } } x =
          { talk s x with inbox := (talk s x).inbox ++ bs, arrived := (talk s x).arrived ++ bs } := by
        unfold talk State.node
        dsimp only
        rw [Function.update_self]
      rw [e]
      exact .step h (.arrive bs rfl)
    · refine ⟨hi.whole, hi.same, hi.calm, hi.bans, ?_, ?_⟩
      · intro d hd
        by_cases e : d = c
        · subst e
          obtain ⟨h1, h2⟩ := hi.unused d hd
          dsimp only
          rw [Function.update_self]
          exact ⟨h1, by dsimp only; rw [h2]⟩
        · dsimp only
          rw [Function.update_of_ne e]
          exact hi.unused d hd
      · intro z hz
        obtain ⟨node, n1, n2, n3, n4⟩ := hi.talks z hz
        have hne : z.id ≠ c := fun e => hc ⟨z, hz, e⟩
        refine ⟨node, n1, n2, n3, talk_others n4 (leaves_refl _) rfl rfl ?_ ?_ ?_⟩ <;>
          (dsimp only; rw [Function.update_of_ne hne])
  | look l' r' j i st h hi' hn hst => exact ⟨hi.whole, hi.same, hi.calm, hi.bans, hi.unused, hi.talks⟩
  | relay l' r' j i l r x h hi' hn hx =>
    have hm : x ∈ s.pool.conns := by rw [hx]; simp
    obtain ⟨c1, c2⟩ := hi.calm x hm
    refine inv_one hi (Whole.Later.here.next hp (.relay s.pool l r x (.block j.block) hx)) hx rfl rfl rfl c1 c2 (fun _ _ => rfl)
      (leaves_refl _) (fun b hb => .inl hb) (fun d hd => ⟨d, hd⟩) fun node h => ?_
    exact talk_inner h (leaves_refl _) rfl (.inr ⟨_, .callSend _ _⟩) rfl (fun h => .inl h) id
      (fun m q h1 h2 => by
        have h2 : x.peer.writer = .writing m q := h2
        rw [h1] at h2; cases h2)
  | skip l r x c rest hx hr ht h =>
    have hm : x ∈ s.pool.conns := by rw [hx]; simp
    obtain ⟨c1, c2⟩ := hi.calm x hm
    have hop := Whole.closed_reachable hi.whole x hm
    have h1 := Whole.deliver_later (frame := Talk.frame) (ping := ping) (ask := ask) hp hx hop c1 hr .nothing
    have h2 := h1.trans (Whole.handled_later (reader := .loop) hp rfl hop (by rw [c1]; exact nofun) rfl (.inl ⟨rfl, rfl⟩))
    have e : ({ x with peer := { x.peer with reader := .loop }, lock := Whole.AtLock.before } : Whole.Conn (Message E)) =
        { x with peer := { x.peer with reader := .loop } } := by
      obtain ⟨i, ad, p, wt, lk0⟩ := x
      cases c1; rfl
    refine inv_one hi (e ▸ h2) hx rfl rfl rfl c1 (fun a => nofun) (own rfl) (leaves_refl _)
      (fun b hb => .inl hb) (fun d hd => by rw [hr] at hd; cases hd) fun node h0 => ?_
    have e : talk { s with
        pool := { s.pool with conns := l ++ { x with peer := { x.peer with reader := .loop } } :: r }
        io := Function.update s.io x.id { s.io x.id with inbox := rest } } { x with peer := { x.peer with reader := .loop } } =
        { talk s x with inbox := rest, peer := { (talk s x).peer with reader := .loop } } := by
      unfold talk State.node
      dsimp only
      rw [Function.update_self]
    rw [e]
    exact .step h0 (.skip c rest rfl hr ht h)
  | read x m c rest hx hr ht h =>
    refine inv_io hi hx _ fun node h0 => ?_
    have e : talk { s with io := Function.update s.io x.id { s.io x.id with inbox := rest, task := some m } } x =
        { talk s x with inbox := rest, task := some m } := by
      unfold talk State.node
      dsimp only
      rw [Function.update_self]
    rw [e]
    exact .step h0 (.read m c rest rfl hr ht h)
  | readerDies => exact dies
  | process l r x w m hx hr ht hs hw hl he ha =>
    have hm : x ∈ s.pool.conns := by rw [hx]; simp
    obtain ⟨c1, c2⟩ := hi.calm x hm
    have hn := node_handled (s := s) (l := l) (r := r) (x := x) (reader := .loop) (w := w) (f := sender remote x) (m := m)
    refine inv_one hi (process_later hi hp w m hx hr hw.empty hl he (.inl ⟨rfl, rfl⟩)) hx rfl rfl rfl c1 (fun a => nofun)
      (own rfl) (by rw [hn]; exact process_leaves w s.node _ m) (fun b hb => .inl hb)
      (fun d hd => by rw [hr] at hd; cases hd) fun node h0 => ?_
    have e : talk (s.handled l r x .loop m (processMessage w s.node (sender remote x) m))
        { x with peer := { x.peer with reader := .loop } } =
        { talk s x with node := (processMessage w (talk s x).node (sender remote x) m).node, task := none,
                        peer := { (talk s x).peer with reader := .loop } } := by
      unfold talk
      dsimp only
      rw [hn]
      unfold State.handled
      dsimp only
      rw [Function.update_self]
    rw [e]
    exact .step h0 (.process w m rfl hr ht he ha)
  | answer l r x w m a hx hr ht hs hw hl he ha =>
    have hm : x ∈ s.pool.conns := by rw [hx]; simp
    obtain ⟨c1, c2⟩ := hi.calm x hm
    have hn := node_handled (s := s) (l := l) (r := r) (x := x) (reader := .replying a) (w := w) (f := sender remote x) (m := m)
    refine inv_one hi (process_later hi hp w m hx hr hw.empty hl he (.inr ⟨a, rfl, rfl⟩)) hx rfl rfl rfl c1 (fun a => nofun)
      (own rfl) (by rw [hn]; exact process_leaves w s.node _ m) (fun b hb => .inl hb)
      (fun d hd => by rw [hr] at hd; cases hd) fun node h0 => ?_
    have e : talk (s.handled l r x (.replying a) m (processMessage w s.node (sender remote x) m))
        { x with peer := { x.peer with reader := .replying a } } =
        { talk s x with node := (processMessage w (talk s x).node (sender remote x) m).node, task := none,
                        peer := { (talk s x).peer with reader := .replying a } } := by
      unfold talk
      dsimp only
      rw [hn]
      unfold State.handled
      dsimp only
      rw [Function.update_self]
    rw [e]
    exact .step h0 (.answer w m a rfl hr ht he ha)
  | ban l r x w m hx hr ht hs he =>
    have hm : x ∈ s.pool.conns := by rw [hx]; simp
    obtain ⟨c1, c2⟩ := hi.calm x hm
    have hop := Whole.closed_reachable hi.whole x hm
    obtain ⟨i, f1, f2, f3⟩ := blocked_table w s.node (sender remote x) m he
    have h1 := Whole.deliver_later (frame := Talk.frame) (ping := ping) (ask := ask) hp hx hop c1 hr .close
    have h2 := h1.next hp (.banSelf _ (remote x.id) i l r { x with peer := { x.peer with reader := .handling .close } } rfl
      rfl f1 f2 (by
        intro b hb e
        obtain ⟨z, hz, g1, d, g2⟩ := hi.bans b hb x.id e
        rw [Whole.same_id hi.whole hz hm g1, hr] at g2
        cases g2))
    have hn : ({ s with
        chain := (processMessage w s.node (sender remote x) m).node.chain
        pool := { s.pool with
          table := (processMessage w s.node (sender remote x) m).node.table
          conns := l ++ { x with peer := { x.peer with reader := .closing .cas } } :: r
          bans := s.pool.bans ++ [⟨some x.id, x.id, none⟩] }
        io := Function.update s.io x.id { s.io x.id with task := none } } : State E).node =
        (processMessage w s.node (sender remote x) m).node := by
      obtain ⟨t, e, -⟩ := process_touches w s.node (sender remote x) m
      rw [e]; rfl
    refine inv_one (x' := { x with peer := { x.peer with reader := .closing .cas } }) hi ?_ hx rfl rfl rfl c1
      (fun a => nofun) (own rfl)
      (by rw [hn]; exact process_leaves w s.node _ m) ?_ (fun d hd => by rw [hr] at hd; cases hd) fun node h0 => ?_
    · dsimp only
      rw [f3]
      exact h2
    · intro b hb
      rcases List.mem_append.1 hb with hb | hb
      · exact .inl hb
      · rw [List.mem_singleton.1 hb]
        exact .inr (.inr ⟨rfl, _, rfl⟩)
    · have e : talk ({ s with
          chain := (processMessage w s.node (sender remote x) m).node.chain
          pool := { s.pool with
            table := (processMessage w s.node (sender remote x) m).node.table
            conns := l ++ { x with peer := { x.peer with reader := .closing .cas } } :: r
            bans := s.pool.bans ++ [⟨some x.id, x.id, none⟩] }
          io := Function.update s.io x.id { s.io x.id with task := none } } : State E)
          { x with peer := { x.peer with reader := .closing .cas } } =
          { talk s x with node := (processMessage w (talk s x).node (sender remote x) m).node, task := none,
                          peer := { (talk s x).peer with reader := .closing .cas } } := by
        unfold talk
        dsimp only
        rw [hn, Function.update_self]
      rw [e]
      exact .step h0 (.ban w m rfl hr ht he)
  | banOther l r x y w m i hx hr ht hs hy he hf hpe hne =>
    have hm : y ∈ s.pool.conns := by rw [hy]; simp
    obtain ⟨c1, c2⟩ := hi.calm y hm
    -- first the pool, then the reading side
    have hl : LeavesEntries s.node ({ s with pool := { s.pool with
        table := s.pool.table.update (remote x.id) (PoolRun.setStatus .banned)
        conns := l ++ y.calls (.disconnect .cas) :: r
        bans := s.pool.bans ++ [⟨none, y.id, some y.peer.threads.length⟩] } } : State E).node :=
      ⟨rfl, rfl, rfl, fun a ha => by
        show a ∈ (s.pool.table.update (remote x.id) (PoolRun.setStatus .banned)).map (·.1)
        rw [update_keys]; exact ha⟩
    have h1 : Inv remote chain storage mempool { s with pool := { s.pool with
        table := s.pool.table.update (remote x.id) (PoolRun.setStatus .banned)
        conns := l ++ y.calls (.disconnect .cas) :: r
        bans := s.pool.bans ++ [⟨none, y.id, some y.peer.threads.length⟩] } } := by
      refine inv_one hi (Whole.Later.here.next hp (.banOther s.pool (remote x.id) i l r y none hy hf hpe
        (fun c hc => by cases hc))) hy rfl rfl rfl c1 c2 (fun _ _ => rfl) hl ?_ (fun d hd => ⟨d, hd⟩) fun node h => ?_
      · intro b hb
        rcases List.mem_append.1 hb with hb | hb
        · exact .inl hb
        · rw [List.mem_singleton.1 hb]
          exact .inr (.inl rfl)
      · exact talk_inner h hl rfl (.inr ⟨_, .callDisconnect _⟩) rfl (fun h => .inl h) id
          (fun m q h1 h2 => by
            have h2 : y.peer.writer = .writing m q := h2
            rw [h1] at h2; cases h2)
    refine inv_io h1 (x := x) ?_ { s.io x.id with stuck := true } fun node h => ?_
    · dsimp only
      rw [hy] at hx
      rcases mem_changed (y := y.calls (.disconnect .cas)) hx with e | h
      · exact absurd (congrArg (·.id) e).symm hne
      · exact h
    · refine talk_others h (leaves_refl _) rfl rfl ?_ ?_ ?_ <;> (dsimp only; rw [Function.update_self])
  | processDies => exact dies
  | writerDies => exact dies

theorem inv_reachable {s : State E} (h : Reachable remote chain storage mempool s) :
    Inv remote chain storage mempool s := by
  induction h with
  | new => exact inv_new
  | next _ _ hp hs ih => exact inv_step ih hp hs

end Gringo.Program
