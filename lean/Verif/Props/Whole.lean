import Verif.Proofs.Whole
import Verif.Props.PoolRun
/-
C57, C64, C78, C79, C80, C105, C119: the pool with every connection modelled goroutine by goroutine.
-/
namespace Gringo.Props
open Gringo.Spec Gringo.P2P Gringo.Whole

variable {M : Type} {frame : M → Bytes} {ping ask : M}

/-- A connection whose goroutine is past `WaitForDisconnect` is being closed. -/
theorem past_flag {x : Conn M} (h : Local frame x) (hp : x.watch.past) : x.peer.flag = true :=
  (Lifecycle.woken_inv h.peer (h.past hp)).1

theorem up_iff {x : Conn M} (h : Local frame x) : x.phase = .up ↔ x.peer.flag = false := by
  have hp := past_flag h
  unfold Conn.phase
  cases hw : x.watch <;> rw [hw] at hp <;> cases hf : x.peer.flag <;> simp_all [Watch.past]

theorem gone_iff (x : Conn M) : x.phase = .gone ↔ x.watch = .gone := by
  unfold Conn.phase
  cases x.watch <;> simp
  all_goals split <;> simp

/-- **C57, the part that holds**, of the goroutines of all connections: at no time are there more than 15 connections
on which the handshake succeeded and on which `Disconnect` was not entered, not even if those are counted whose
place in the pool was not given back yet; and the former are open. -/
theorem C57_goroutines_partial (w : State M) (h : Whole.Reachable frame ping ask w) :
    (w.conns.filter fun x => !x.peer.flag).length ≤ 15 ∧
    (w.conns.filter fun x => decide (x.watch ≠ .gone)).length ≤ 15 ∧
    ∀ x ∈ w.conns, x.peer.flag = false → x.id ∈ w.opened := by
  obtain ⟨hi, s, hr, h⟩ := refines h
  obtain ⟨h1, h2, h3⟩ := C57_partial s hr
  rw [h.links, List.filter_map, List.length_map] at h1 h2
  refine ⟨?_, ?_, ?_⟩
  · refine Nat.le_trans (Nat.le_of_eq ?_) h1
    congr 1
    refine List.filter_congr fun x hx => ?_
    have := up_iff (hi.conns x hx)
    cases hf : x.peer.flag <;> simp_all [Conn.abs]
  · refine Nat.le_trans (Nat.le_of_eq ?_) h2
    congr 1
    refine List.filter_congr fun x hx => ?_
    have := gone_iff x
    simp [Conn.abs, this]
  · intro x hx hf
    have := h3 x.abs (by rw [h.links]; exact List.mem_map.2 ⟨x, hx, rfl⟩) ((up_iff (hi.conns x hx)).2 hf)
    rw [h.opened] at this
    exact this

/-- **C64**, of the goroutines of all connections: at every moment of handling a message, and for all time after, the
address of the connection is in the table. -/
theorem C64_goroutines (w w' : State M) (h : Whole.Reachable frame ping ask w) (h' : Later frame ping ask w w')
    (x : Conn M) (hx : x ∈ w.conns) : x.addr ∈ w.table.map (·.1) ∧ x.addr ∈ w'.table.map (·.1) := by
  obtain ⟨hi, s, hr, hw⟩ := refines h
  have h1 := (PoolRun.inv_reachable hr).known.links x.abs (by rw [hw.links]; exact List.mem_map.2 ⟨x, hx, rfl⟩)
  obtain ⟨s', hr', hw'⟩ := refines_later h h' hw
  have h2 := C64_kept s s' hr' x.addr h1
  rw [hw.table] at h1
  rw [hw'.table] at h2
  exact ⟨h1, h2⟩

/-- **C78, the part that holds**, of the goroutines of all connections. -/
theorem C78_goroutines_partial (w : State M) (h : Whole.Reachable frame ping ask w) :
    (∀ x ∈ w.conns, ∀ y ∈ w.conns, x.peer.flag = false → y.peer.flag = false → x.addr = y.addr → x.id = y.id) ∧
    ∀ x ∈ w.conns, x.peer.flag = false → w.loop ≠ .dialing x.addr ∧ (∀ c, w.loop ≠ .greeting x.addr c) ∧
      ∀ i, w.table.find x.addr = some i → i.peer = some x.id := by
  obtain ⟨hi, s, hr, h⟩ := refines h
  obtain ⟨h1, h2⟩ := C78_one_connection_partial s hr
  have mem : ∀ x ∈ w.conns, x.abs ∈ s.links := fun x hx => by rw [h.links]; exact List.mem_map.2 ⟨x, hx, rfl⟩
  refine ⟨fun x hx y hy hf hg ha => ?_, fun x hx hf => ?_⟩
  · exact h1 _ (mem x hx) _ (mem y hy) ((up_iff (hi.conns x hx)).2 hf) ((up_iff (hi.conns y hy)).2 hg) ha
  · obtain ⟨g1, g2, g3⟩ := h2 _ (mem x hx) ((up_iff (hi.conns x hx)).2 hf)
    rw [h.loop] at g1 g2
    rw [h.table] at g3
    exact ⟨fun e => g1 (by rw [e]; rfl), fun c e => g2 c (by rw [e]; rfl), g3⟩

/-- **C79, the part that holds**, of the goroutines of all connections: when the loop has ended and all goroutines that
close connections have, `Disconnect` was entered on every connection. -/
theorem C79_goroutines_partial (w : State M) (h : Whole.Reachable frame ping ask w) (hl : w.loop = .stopped)
    (hc : ∀ e ∈ w.closers, e.2 = .over) : ∀ x ∈ w.conns, x.peer.flag = true := by
  obtain ⟨hi, s, hr, h⟩ := refines h
  intro x hx
  have := (C79_closed_partial s hr (by rw [h.loop, hl]; rfl) (by
    rw [h.closers]
    intro e he
    obtain ⟨e', h1, rfl⟩ := List.mem_map.1 he
    show e'.2.abs = .over
    rw [hc _ h1]
    rfl) x.abs (by rw [h.links]; exact List.mem_map.2 ⟨x, hx, rfl⟩)).1
  cases hf : x.peer.flag
  · exact absurd ((up_iff (hi.conns x hx)).2 hf) this
  · rfl

/-! ### Connections over time -/

theorem mem_changed {α : Type} {l r : List α} {x y z : α} (h : z ∈ l ++ x :: r) : z = x ∨ z ∈ l ++ y :: r := by
  rcases List.mem_append.1 h with h | h
  · exact .inr (by simp [h])
  rcases List.mem_cons.1 h with h | h
  · exact .inl h
  · exact .inr (by simp [h])

/-- What a step of the whole does to one connection. -/
def Moves (frame : M → Bytes) (x y : Conn M) : Prop :=
  y.id = x.id ∧ y.addr = x.addr ∧ (y.peer = x.peer ∨ ∃ k, Lifecycle.Step frame k x.peer y.peer) ∧
    (x.watch.past → y.watch.past)

theorem conn_stays {w w' : State M} {k : Lifecycle.Kind} (hi : Inv frame w) (hs : Whole.Step frame ping ask w k w') {x : Conn M}
    (hx : x ∈ w.conns) : ∃ y ∈ w'.conns, Moves frame x y := by
  have same : ∃ y ∈ w.conns, Moves frame x y := ⟨x, hx, rfl, rfl, .inl rfl, id⟩
  have rep : ∀ {l r : List (Conn M)} {u v : Conn M}, w.conns = l ++ u :: r → Moves frame u v →
      ∃ y ∈ l ++ v :: r, Moves frame x y := by
    intro l r u v e h
    rw [e] at hx
    rcases mem_changed (y := v) hx with rfl | hx
    · exact ⟨v, by simp, h⟩
    · exact ⟨x, hx, rfl, rfl, .inl rfl, id⟩
  cases hs with
  | register addr c told now n hl => exact ⟨x, by simp [hx], rfl, rfl, .inl rfl, id⟩
  | start addr l r x hl hx p hr hw hp =>
    exact rep hx ⟨rfl, rfl, .inr ⟨_, by rw [hp]; exact .start _ hr hw⟩, id⟩
  | ping addr l r x hl hx => exact rep hx ⟨rfl, rfl, .inr ⟨_, .callSend _ _⟩, id⟩
  | ask addr k m b l r x hl hx hk => exact rep hx ⟨rfl, rfl, .inr ⟨_, .callSend _ _⟩, id⟩
  | spawn addr k m b l r x hl hx hk =>
    refine rep hx ⟨rfl, rfl, .inr ⟨_, .callWait _⟩, fun h => ?_⟩
    rw [hi.unborn x (by rw [hx]; simp) (by rw [hl]; rfl)] at h
    exact h
  | inner l r x hx kind p hk hs hh => exact rep hx ⟨rfl, rfl, .inr ⟨_, hs⟩, id⟩
  | relay l r x m hx => exact rep hx ⟨rfl, rfl, .inr ⟨_, .callSend _ _⟩, id⟩
  | want l r x a hx hr ha hb0 => exact rep hx ⟨rfl, rfl, .inl rfl, id⟩
  | record l r x td height hx hl => exact rep hx ⟨rfl, rfl, .inl rfl, id⟩
  | mark l r x k hx hw hk hl => exact rep hx ⟨rfl, rfl, .inl rfl, fun _ => trivial⟩
  | seeDown l r x hx hw => exact rep hx ⟨rfl, rfl, .inl rfl, fun _ => trivial⟩
  | count l r x n hx hw => exact rep hx ⟨rfl, rfl, .inl rfl, fun _ => trivial⟩
  | drop l r x hx hw => exact rep hx ⟨rfl, rfl, .inl rfl, fun _ => trivial⟩
  | free l r x hx hw hs => exact rep hx ⟨rfl, rfl, .inl rfl, fun _ => trivial⟩
  | banSelf addr i l r x hx hr ht hp hb => exact rep hx ⟨rfl, rfl, .inr ⟨_, .handleClose _ hr⟩, id⟩
  | banOther addr i l r y b hx ht hp hb => exact rep hx ⟨rfl, rfl, .inr ⟨_, .callDisconnect _⟩, id⟩
  | closeCall l r addr i l' r' x hx ht hp hx' => exact rep hx' ⟨rfl, rfl, .inr ⟨_, .callDisconnect _⟩, id⟩
  | _ => exact same

/-! ### C119 -/

/-- **C119.** When the goroutine of a connection has marked its address as disconnected, and so before its place in the pool
is given to another connection, `Disconnect` was entered, and neither handler reads, handles or writes anything. In
every later state of the node the connection still has sent exactly the same bytes. -/
theorem C119_finished (w w' : State M) (h : Whole.Reachable frame ping ask w) (h' : Later frame ping ask w w')
    (x : Conn M) (hx : x ∈ w.conns) (hp : x.watch.past) :
    (x.peer.flag = true ∧ x.peer.quit = 1 ∧ Still x.peer) ∧
    ∃ y ∈ w'.conns, y.id = x.id ∧ y.addr = x.addr ∧ y.watch.past ∧ Still y.peer ∧ y.peer.wire = x.peer.wire ∧
      y.peer.bytesSent = x.peer.bytesSent := by
  have hl := (inv_reachable h).conns x hx
  have hs := woken_still hl.peer (hl.past hp)
  refine ⟨⟨past_flag hl hp, hs⟩, ?_⟩
  induction h' with
  | here => exact ⟨x, hx, rfl, rfl, hp, hs.2, rfl, rfl⟩
  | next h' _ hst ih =>
    obtain ⟨y, hy, y1, y2, y3, y4, y5, y6⟩ := ih
    have hi := inv_reachable (h'.reachable h)
    obtain ⟨z, hz, z1, z2, z3, z4⟩ := conn_stays hi hst hy
    refine ⟨z, hz, z1.trans y1, z2.trans y2, z4 y3, ?_⟩
    rcases z3 with e | ⟨k, hk⟩
    · rw [e]; exact ⟨y4, y5, y6⟩
    · obtain ⟨g1, g2, g3⟩ := still_step hk (past_flag (hi.conns y hy) y3) y4
      exact ⟨g1, g2.trans y5, g3.trans y6⟩

/-! ### C80 -/

/-- **C80, the part that holds**, of the goroutines of all connections: when the handler of a connection has banned its
own peer and won the right to close the connection, then for all time to come its address is not dialled again, the
connection keeps its place, and its read loop hangs. -/
theorem C80_goroutines_partial (w w' : State M) (h : Whole.Reachable frame ping ask w) (h' : Later frame ping ask w w')
    (x : Conn M) (hx : x ∈ w.conns) (hb : SelfClosing x.peer) :
    (w'.loop ≠ .dialing x.addr ∧ ∀ c, w'.loop ≠ .greeting x.addr c) ∧
    ∃ y ∈ w'.conns, y.id = x.id ∧ y.addr = x.addr ∧ SelfClosing y.peer ∧ ¬ y.watch.past := by
  have notPast : ∀ {y : Conn M}, Local frame y → SelfClosing y.peer → ¬ y.watch.past :=
    fun hl hs hp => (Lifecycle.woken_inv hl.peer (hl.past hp)).2 hs
  have keep : ∃ y ∈ w'.conns, y.id = x.id ∧ y.addr = x.addr ∧ SelfClosing y.peer := by
    induction h' with
    | here => exact ⟨x, hx, rfl, rfl, hb⟩
    | next h' _ hst ih =>
      obtain ⟨y, hy, y1, y2, y3⟩ := ih
      have hi := inv_reachable (h'.reachable h)
      obtain ⟨z, hz, z1, z2, z3, -⟩ := conn_stays hi hst hy
      refine ⟨z, hz, z1.trans y1, z2.trans y2, ?_⟩
      rcases z3 with e | ⟨k, hk⟩
      · rw [e]; exact y3
      · exact Lifecycle.selfClosing_step hk (Lifecycle.inv_reachable (hi.conns y hy).peer) y3
  obtain ⟨y, hy, y1, y2, y3⟩ := keep
  obtain ⟨hi, s, hr, hw⟩ := refines (h'.reachable h)
  have hn := notPast (hi.conns y hy) y3
  refine ⟨?_, y, hy, y1, y2, y3, hn⟩
  have hj := PoolRun.inv_reachable hr
  have hpos := PoolRun.holders_pos (s := s) (x := y.abs) (by rw [hw.links]; exact List.mem_map.2 ⟨y, hy, rfl⟩) (by
    show PoolRun.occupies ⟨y.id, y.addr, y.phase, decide (y.lock = .waiting)⟩ = true
    unfold PoolRun.occupies Conn.phase
    cases hwt : y.watch <;> rw [hwt] at hn <;> first | exact absurd trivial hn | (cases y.peer.flag <;> rfl))
  have ea : y.abs.addr = x.addr := y2
  rw [ea] at hpos
  exact ⟨fun e => hpos (hj.single.dialing _ (by rw [hw.loop, e]; rfl)),
    fun c e => hpos (hj.single.greeting _ c (by rw [hw.loop, e]; rfl))⟩

/-! ### Runs that meet the hypotheses -/

/-- The pool has connected to one address and is sending its second message, while the first is not on the wire yet. -/
def Whole.asking (frame : M → Bytes) (ping ask : M) (addr : String) : State M :=
  { State.new M with
    table := [(addr, PoolRun.registered 0 (Time.unix 0) Told.good PeerInfo.fresh)]
    online := [addr]
    connected := 1
    slots := 1
    loop := .asked addr 0 1
    conns := [{
      id := 0, addr := addr, watch := .unborn, lock := .before
      peer := { Lifecycle.Peer.new M with
        wg := 2, reader := .loop, writer := .writing ping (frame ping)
        threads := [.sent ping true, .send ask], accepted := [ping] } }]
    opened := [0]
    next := 1 }

theorem asking_reachable (frame : M → Bytes) (ping ask : M) {resolve : String → Option TCPAddr}
    (hr : ∀ a, resolve "" = some a → a.port = 0) {addr : String} (ha : Admissible resolve addr) :
    Whole.Reachable frame ping ask (Whole.asking frame ping ask addr) := by
  have hne := admissible_ne hr ha
  have h0 := Whole.Reachable.next (.new (frame := frame) (ping := ping) (ask := ask)) rfl (.add _ addr resolve hr)
  have e : P2P.add resolve (State.new M).table addr = [(addr, PeerInfo.fresh)] :=
    (C55_add resolve [] addr).1 ⟨ha, by simp, by simp⟩
  rw [e] at h0
  have h1 := h0.next rfl (.take _ rfl (show 0 < 15 by omega))
  have h2 := h1.next rfl (.choose _ _ _ rfl (.refl _) (.refl _))
  simp only [choice_one addr PeerInfo.fresh (.inl rfl)] at h2
  have h3 := h2.next rfl (.dial _ addr PeerInfo.fresh rfl hne (show (0 : Int) ≤ 15 by omega) (find_one addr _)
    (by rintro (h | h | ⟨c, k, h⟩) <;> cases h) (by decide))
  have h4 := h3.next rfl (.opens _ addr rfl)
  have h5 := h4.next rfl (.see _ addr 0 Told.good rfl rfl)
  have h6 := h5.next rfl (.register _ addr 0 Told.good (Time.unix 0) 0 rfl)
  simp only [update_one] at h6
  let p0 : Lifecycle.Peer M := .new M
  let p1 : Lifecycle.Peer M := { p0 with wg := 2, reader := .loop, writer := .select }
  let p2 : Lifecycle.Peer M := { p1 with threads := [.send ping] }
  let p3 : Lifecycle.Peer M := { p1 with threads := [.sent ping true], writer := .got ping, accepted := [ping] }
  let p4 : Lifecycle.Peer M := { p3 with threads := [.sent ping true, .send ask] }
  let p5 : Lifecycle.Peer M := { p4 with writer := .writing ping (frame ping) }
  have h7 := h6.next rfl (.start _ addr [] [] ⟨0, addr, p0, .unborn, .before⟩ rfl rfl p1 rfl rfl rfl)
  have h8 := h7.next rfl (.ping _ addr [] [] ⟨0, addr, p1, .unborn, .before⟩ rfl rfl)
  have h9 := h8.next rfl (.inner _ [] [] ⟨0, addr, p2, .unborn, .before⟩ rfl .own p3 (by simp)
    (.sendTaken _ [] [] ping rfl rfl) (fun _ => rfl))
  have h10 := h9.next rfl (.ask _ addr 0 ping true [] [] ⟨0, addr, p3, .unborn, .before⟩ rfl rfl rfl)
  have h11 := h10.next rfl (.inner _ [] [] ⟨0, addr, p4, .unborn, .before⟩ rfl .own p5 (by simp)
    (.gotWrite _ ping rfl rfl) (fun _ => rfl))
  exact h11

/-- The pool gets into a state with one connection only, in which the loop, the peer and the goroutine of the
connection are where given. -/
def One (frame : M → Bytes) (ping ask : M) (addr : String) (lp : Loop) (p : Lifecycle.Peer M) (wt : Watch) : Prop :=
  ∃ w, Whole.Reachable frame ping ask w ∧ w.panicked = false ∧ w.conns = [⟨0, addr, p, wt, .before⟩] ∧ w.loop = lp ∧
    w.closers = [] ∧ w.bans = [] ∧ w.quit = false ∧ ∃ i, w.table = [(addr, i)] ∧ i.peer = some 0

theorem One.inner {addr : String} {lp : Loop} {p q : Lifecycle.Peer M} {wt : Watch} {k : Lifecycle.Kind}
    (h : One frame ping ask addr lp p wt) (hk : k ≠ .call) (hs : Lifecycle.Step frame k p q)
    (hr : p.reader ≠ .handling .close ∧ p.reader ≠ .closing .returned) : One frame ping ask addr lp q wt := by
  obtain ⟨w, h1, h2, h3, h4, h5, h6, h7⟩ := h
  refine ⟨_, h1.next h2 (.inner w [] [] _ h3 k q hk hs ?_), h2, by simp, h4, h5, h6, h7⟩
  rintro (h | h | h)
  · cases h
  · exact absurd h hr.1
  · exact absurd h hr.2

theorem One.spawn {addr : String} {p : Lifecycle.Peer M} {wt : Watch} {k : Nat} {m : M} {b : Bool}
    (h : One frame ping ask addr (.asked addr 0 k) p wt) (hk : p.threads[k]? = some (.sent m b)) :
    One frame ping ask addr .sleeping { p with threads := p.threads ++ [.wait] } (.waiting p.threads.length) := by
  obtain ⟨w, g1, g2, g3, g4, g5, g6, g7⟩ := h
  exact ⟨_, g1.next g2 (.spawn w addr k m b [] [] _ g4 g3 hk), g2, rfl, rfl, g5, g6, g7⟩

theorem asking_one (frame : M → Bytes) (ping ask : M) {resolve : String → Option TCPAddr}
    (hr : ∀ a, resolve "" = some a → a.port = 0) {addr : String} (ha : Admissible resolve addr) :
    One frame ping ask addr (.asked addr 0 1) { Lifecycle.Peer.new M with
        wg := 2, reader := .loop, writer := .writing ping (frame ping)
        threads := [.sent ping true, .send ask], accepted := [ping] } .unborn :=
  ⟨_, asking_reachable frame ping ask hr ha, rfl, rfl, rfl, rfl, rfl, rfl, _, rfl, rfl⟩

/-- The remote side closes the connection, and the goroutine that waits for this marks the address. -/
theorem marked_one (frame : M → Bytes) (ping ask : M) (hf : frame ping ≠ []) {resolve : String → Option TCPAddr}
    (hr : ∀ a, resolve "" = some a → a.port = 0) {addr : String} (ha : Admissible resolve addr) :
    One frame ping ask addr .sleeping ⟨true, 1, 0, 0, false, .leaving .closing, .leaving .cas,
      [.sent ping true, .sent ask false, .woken], [ping], [], [], 0⟩ .marked := by
  let p (f : Bool) (q g : Nat) (rd : Lifecycle.Reader M) (wr : Lifecycle.Writer M) (ts : List (Lifecycle.Thread M)) :
      Lifecycle.Peer M :=
    ⟨f, q, 0, g, false, rd, wr, .sent ping true :: ts, [ping], [], [], 0⟩
  let wr : Lifecycle.Writer M := .writing ping (frame ping)
  have h0 : One frame ping ask addr (.asked addr 0 1) (p false 0 2 .loop wr [.send ask]) .unborn :=
    asking_one frame ping ask hr ha
  have h1 : One frame ping ask addr (.asked addr 0 1) (p false 0 2 .reading wr [.send ask]) .unborn :=
    h0.inner (k := .own) (by simp) (.loopGo _ rfl rfl) (by simp [p])
  have h2 : One frame ping ask addr (.asked addr 0 1) (p false 0 2 .stopping wr [.send ask]) .unborn :=
    h1.inner (k := .remote) (by simp) (.readFail _ rfl) (by simp [p])
  have h3 : One frame ping ask addr (.asked addr 0 1) (p false 0 1 (.leaving .cas) wr [.send ask]) .unborn :=
    h2.inner (k := .own) (by simp) (.readerDone _ rfl) (by simp [p])
  have h4 : One frame ping ask addr (.asked addr 0 1) (p true 0 1 (.leaving .won) wr [.send ask]) .unborn :=
    h3.inner (k := .own) (by simp) (.readerLeave _ _ _ _ rfl (.win _ rfl)) (by simp [p])
  have h5 : One frame ping ask addr (.asked addr 0 1) (p true 1 1 (.leaving .closing) wr [.send ask]) .unborn :=
    h4.inner (k := .own) (by simp) (.readerLeave _ _ _ _ rfl (.closeQuit _)) (by simp [p])
  have h6 : One frame ping ask addr (.asked addr 0 1) (p true 1 1 (.leaving .closing) wr [.sent ask false]) .unborn :=
    h5.inner (k := .own) (by simp) (.sendQuit _ [.sent ping true] [] ask rfl Nat.one_pos) (by simp [p])
  have h7 : One frame ping ask addr .sleeping (p true 1 1 (.leaving .closing) wr [.sent ask false, .wait]) (.waiting 2) :=
    h6.spawn (m := ask) (b := false) rfl
  have h8 : One frame ping ask addr .sleeping (p true 1 1 (.leaving .closing) .stopping [.sent ask false, .wait])
      (.waiting 2) := h7.inner (k := .remote) (by simp) (.writeFail _ ping (frame ping) rfl hf) (by simp [p])
  have h9 : One frame ping ask addr .sleeping (p true 1 0 (.leaving .closing) (.leaving .cas) [.sent ask false, .wait])
      (.waiting 2) := h8.inner (k := .own) (by simp) (.writerDone _ rfl) (by simp [p])
  have h10 : One frame ping ask addr .sleeping
      (p true 1 0 (.leaving .closing) (.leaving .cas) [.sent ask false, .waitGroup]) (.waiting 2) :=
    h9.inner (k := .own) (by simp) (.waitQuit _ [.sent ping true, .sent ask false] [] rfl Nat.one_pos) (by simp [p])
  have h11 : One frame ping ask addr .sleeping
      (p true 1 0 (.leaving .closing) (.leaving .cas) [.sent ask false, .woken]) (.waiting 2) :=
    h10.inner (k := .own) (by simp) (.waitEnd _ [.sent ping true, .sent ask false] [] rfl rfl) (by simp [p])
  obtain ⟨w, g1, g2, g3, g4, g5, g6, gq, i, g7, g8⟩ := h11
  refine ⟨_, g1.next g2 (.mark w [] [] _ 2 g3 rfl rfl ?_), g2, rfl, g4, g5, g6, gq, PoolRun.setStatus .disconnected i, ?_, g8⟩
  · rintro (h | h | ⟨c, k, h⟩)
    · rw [g4] at h; cases h
    · rw [g5] at h; cases h
    · rw [g5] at h; cases h
  · show w.table.update addr _ = _
    rw [g7, update_one]

/-- `C119_finished` applies. -/
example (frame : M → Bytes) (ping ask : M) (hf : frame ping ≠ []) {resolve : String → Option TCPAddr}
    (hr : ∀ a, resolve "" = some a → a.port = 0) {addr : String} (ha : Admissible resolve addr) :
    ∃ w, Whole.Reachable frame ping ask w ∧ ∃ x ∈ w.conns, x.addr = addr ∧ x.watch.past := by
  obtain ⟨w, g1, -, g3, -⟩ := marked_one frame ping ask hf hr ha
  exact ⟨w, g1, ⟨0, addr, _, .marked, .before⟩, by rw [g3]; exact List.mem_cons_self, rfl, trivial⟩

/-- `C79_goroutines_partial` applies: the pool is stopped, and its goroutine closes the connection once more. -/
theorem stopped_one (frame : M → Bytes) (ping ask : M) (hf : frame ping ≠ []) {resolve : String → Option TCPAddr}
    (hr : ∀ a, resolve "" = some a → a.port = 0) {addr : String} (ha : Admissible resolve addr) :
    ∃ w : State M, Whole.Reachable frame ping ask w ∧ w.loop = .stopped ∧ w.closers = [(addr, .over)] ∧
      w.conns.length = 1 ∧ (∀ x ∈ w.conns, x.peer.flag = true) ∧ w.panicked = false ∧
      ∀ x ∈ w.conns, x.peer.reader = .leaving .closing := by
  obtain ⟨w, g1, g2, g3, g4, g5, g6, gq, i, g7, g8⟩ := marked_one frame ping ask hf hr ha
  have h0 := g1.next g2 (.wake w g4)
  have h1 := h0.next g2 (.stop _)
  have h2 := h1.next gq (.quitting _ rfl rfl)
  have h3 := h2.next gq (.closeLock _ [] [] addr (by simp [g7]) (by
    rintro (h | h | ⟨c, k, h⟩)
    · cases h
    · simp [g7] at h
    · simp [g7] at h))
  have h4 := h3.next gq (.closeCall _ [] [] addr i [] [] _ rfl (by rw [g7]; exact find_one addr i) g8 g3)
  have h5 := h4.next gq (.inner _ [] [] _ rfl .own _ (by simp)
    (.threadDisc _ _ [.sent ping true, .sent ask false, .woken] [] _ _ rfl (.lose _ rfl)) (fun _ => rfl))
  have h6 := h5.next gq (.closeDone _ [] [] addr 3 ⟨0, addr, ⟨true, 1, 0, 0, false, .leaving .closing, .leaving .cas,
    [.sent ping true, .sent ask false, .woken, .disconnect .returned], [ping], [], [], 0⟩, .marked, .before⟩ rfl
    List.mem_cons_self rfl)
  refine ⟨_, h6, rfl, rfl, rfl, C79_goroutines_partial _ h6 rfl ?_, gq, ?_⟩
  · intro e he
    rw [List.mem_singleton.1 he]
  · intro x hx
    have e := List.mem_singleton.1 hx
    rw [e]; rfl

/-- `C80_goroutines_partial` applies: a message for which the handler bans its peer. -/
theorem self_closing_one (frame : M → Bytes) (ping ask : M) {resolve : String → Option TCPAddr}
    (hr : ∀ a, resolve "" = some a → a.port = 0) {addr : String} (ha : Admissible resolve addr) :
    ∃ w, Whole.Reachable frame ping ask w ∧ ∃ x ∈ w.conns, x.addr = addr ∧ SelfClosing x.peer := by
  have h1 := (asking_one frame ping ask hr ha).inner (by simp) (.loopGo _ rfl rfl) (by simp)
  have h2 := h1.inner (by simp) (.deliver _ .close rfl) (by simp)
  obtain ⟨w, g1, g2, g3, g4, g5, g6, -, i, g7, g8⟩ := h2
  have h3 := g1.next g2 (.banSelf w addr i [] [] _ g3 rfl (by rw [g7]; exact find_one addr i) g8
    (fun b h => by rw [g6] at h; cases h))
  have h4 := h3.next g2 (.inner _ [] [] _ rfl .own _ (by simp) (.closingStep _ _ _ _ rfl (.win _ rfl))
    (by rintro (h | h | h) <;> cases h))
  exact ⟨_, h4, _, List.mem_cons_self, rfl, .inl rfl⟩

/-! ### C105 -/

/-- Runs during which a property holds of every state. -/
inductive While (frame : M → Bytes) (ping ask : M) (P : State M → Prop) (w : State M) : State M → Prop
  | here : While frame ping ask P w w
  | next {w' w'' : State M} {k : Lifecycle.Kind} : While frame ping ask P w w' → w'.panicked = false → Whole.Step frame ping ask w' k w'' →
      P w'' → While frame ping ask P w w''

/-- Connection `c` takes no byte, and this node has not begun to close it. -/
def TakesNothing (c : Nat) (w : State M) : Prop :=
  ∀ x ∈ w.conns, x.id = c → x.peer.wire = [] ∧ x.peer.flag = false

theorem getElem?_replaced {α : Type} {l r : List α} {a b t : α} {k : Nat} (h : (l ++ a :: r)[k]? = some t) (hn : t ≠ a) :
    (l ++ b :: r)[k]? = some t := by
  rcases Nat.lt_trichotomy k l.length with hk | hk | hk
  · rw [List.getElem?_append_left hk] at h ⊢; exact h
  · subst hk; simp at h; exact absurd h.symm hn
  · rw [List.getElem?_append_right (by omega)] at h ⊢
    obtain ⟨j, hj⟩ : ∃ j, k - l.length = j + 1 := ⟨k - l.length - 1, by omega⟩
    rw [hj] at h ⊢
    simpa using h

/-- The connection is in the middle of its first message and the second one waits. -/
structure Stuck (frame : M → Bytes) (ping ask : M) (p : Lifecycle.Peer M) : Prop where
  writer : p.writer = .writing ping (frame ping) ∨ p.writer = .stopping ∨ ∃ d, p.writer = .leaving d
  call : p.threads[1]? = some (.send ask)

theorem stuck_step (hf : frame ping ≠ []) {k : Lifecycle.Kind} {p q : Lifecycle.Peer M}
    (hs : Lifecycle.Step frame k p q) (hq : p.quit = 0) (h : Stuck frame ping ask p) (hw : p.wire = [] ∧ q.wire = []) :
    Stuck frame ping ask q := by
  obtain ⟨h1, h2⟩ := h
  have keep : ∀ {d d' : Lifecycle.Disc} {s0 : Lifecycle.Peer M}, Lifecycle.DiscStep d p d' s0 →
      s0.writer = p.writer ∧ s0.threads = p.threads := by
    intro d d' s0 hd; cases hd <;> exact ⟨rfl, rfl⟩
  have app : ∀ t : Lifecycle.Thread M, (p.threads ++ [t])[1]? = some (.send ask) := fun t => by
    rw [List.getElem?_append_left (List.getElem?_eq_some_iff.1 h2).1]; exact h2
  have ns : p.writer ≠ .select := by rintro e; rw [e] at h1; simp at h1
  cases hs with
  | start _ _ hwr => rw [hwr] at h1; simp at h1
  | callDisconnect => exact ⟨h1, app _⟩
  | callSend => exact ⟨h1, app _⟩
  | callWait => exact ⟨h1, app _⟩
  | replyTaken _ m h hwr => exact absurd hwr ns
  | closingStep _ s0 d d' h hd => obtain ⟨e1, e2⟩ := keep hd; exact ⟨by rw [e1]; exact h1, by rw [e2]; exact h2⟩
  | readerLeave _ s0 d d' h hd => obtain ⟨e1, e2⟩ := keep hd; exact ⟨by rw [e1]; exact h1, by rw [e2]; exact h2⟩
  | writerLeave _ s0 d d' h hd => obtain ⟨e1, e2⟩ := keep hd; exact ⟨.inr (.inr ⟨_, rfl⟩), by rw [e2]; exact h2⟩
  | gotDrop _ m h _ => rw [h] at h1; simp at h1
  | gotWrite _ m h _ => rw [h] at h1; simp at h1
  | chunk _ m a b h hp hc =>
    have := hw.2
    simp only [hw.1, List.nil_append] at this
    exact absurd this hp
  | writeFail _ m q h hq => exact ⟨.inr (.inl rfl), h2⟩
  | writeClosed _ m q h hq hc => exact ⟨.inr (.inl rfl), h2⟩
  | writeDone _ m h =>
    rw [h] at h1
    rcases h1 with e | e | ⟨d, e⟩
    · injection e with _ e; exact absurd e.symm hf
    · cases e
    · cases e
  | selectQuit _ h _ => exact absurd h ns
  | writerDone _ h => exact ⟨.inr (.inr ⟨_, rfl⟩), h2⟩
  | threadDisc _ s0 l r d d' h hd =>
    rw [h] at h2
    obtain ⟨e1, -⟩ := keep hd
    exact ⟨by rw [e1]; exact h1, getElem?_replaced h2 (by simp)⟩
  | sendQuit _ l r m h hq' => rw [hq] at hq'; cases hq'
  | sendTaken _ l r m h hwr => exact absurd hwr ns
  | waitQuit _ l r h hq' => rw [hq] at hq'; cases hq'
  | waitEnd _ l r h hg => rw [h] at h2; exact ⟨h1, getElem?_replaced h2 (by simp)⟩
  | _ => exact ⟨h1, h2⟩

/-- **C105 is false of the code** also after the handshake. `connectPeer` sends two messages and waits until the write
handler takes them. Once a remote peer does not take the first one, the loop waits in the second for as long as
this goes on: no other address is dialled, and `Stop` does not end it. This holds whatever all other goroutines do. -/
theorem C105_refuted_unread (frame : M → Bytes) (ping ask : M) (hf : frame ping ≠ [])
    {resolve : String → Option TCPAddr} (hr : ∀ a, resolve "" = some a → a.port = 0) {addr : String}
    (ha : Admissible resolve addr) :
    ∃ w, Whole.Reachable frame ping ask w ∧ w.panicked = false ∧ TakesNothing 0 w ∧
      ∀ w', While frame ping ask (TakesNothing 0) w w' → w'.loop = .asked addr 0 1 := by
  refine ⟨_, asking_reachable frame ping ask hr ha, rfl, ?_, ?_⟩
  · intro x hx _
    rw [List.mem_singleton.1 hx]
    exact ⟨rfl, rfl⟩
  intro w' h'
  suffices h : Whole.Reachable frame ping ask w' ∧ w'.loop = .asked addr 0 1 ∧
      ∃ x ∈ w'.conns, x.id = 0 ∧ (x.peer.wire = [] ∧ x.peer.flag = false) ∧ Stuck frame ping ask x.peer from h.2.1
  induction h' with
  | here =>
    exact ⟨asking_reachable frame ping ask hr ha, rfl, _, List.mem_singleton.2 rfl, rfl, ⟨rfl, rfl⟩, .inl rfl, rfl⟩
  | @next w' w'' k _ hp hs hP ih =>
    obtain ⟨g1, g2, x, hx, gx, ⟨gw, gf⟩, gs⟩ := ih
    obtain ⟨hi, s, hrs, hw⟩ := refines g1
    have hq : x.peer.quit = 0 := by
      have := (Lifecycle.inv_reachable (hi.conns x hx).peer).quit
      rw [gf] at this
      simp at this
      omega
    obtain ⟨y, hy, y1, y2, y3, -⟩ := conn_stays hi hs hx
    have py := hP y hy (y1.trans gx)
    refine ⟨g1.next hp hs, ?_, y, hy, y1.trans gx, py, ?_⟩
    · -- the loop moves on only when the call has returned
      have uniq : ∀ z ∈ w'.conns, z.id = 0 → z = x := by
        intro z hz ez
        have hn := (PoolRun.inv_reachable hrs).conns.nodup
        rw [hw.links, List.map_map] at hn
        exact List.inj_on_of_nodup_map hn hz hx (ez.trans gx.symm)
      cases hs with
      | spawn a k m b l r z hl hz hk =>
        rw [g2] at hl
        injection hl with e1 e2 e3
        subst e3
        have := uniq z (by rw [hz]; simp) e2.symm
        rw [this] at hk
        unfold Conn.call at hk
        rw [gs.call] at hk
        cases hk
      | _ => simp_all
    · rcases y3 with e | ⟨k, hk⟩
      · rw [e]; exact gs
      · exact stuck_step hf hk hq gs ⟨gw, py.1⟩

end Gringo.Props
