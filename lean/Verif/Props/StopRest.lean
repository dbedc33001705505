import Verif.Props.FullWitness
/-
C131: what `Stop` leaves behind.
-/
namespace Gringo.Props
open Gringo.Spec Gringo.P2P Gringo.Program

variable {E : Env}

/-- **C131, what `Stop` leaves.** `Stop` was called, the loop has ended, no goroutine has panicked, and the program has come
to rest. Then every connection is over: its place was given back, its socket was closed, once, and all its goroutines have
ended; unless its read loop is in `Ban`, or the read loop and a goroutine of `Stop` wait for each other. And every
goroutine of `Stop` has ended, unless it waits for such a connection to its address. -/
theorem C131_left_partial (remote : Nat → String) (chain : Chain E) (storage : Storage E)
    (mempool : Option (Transaction E → Out Unit)) (s : Program.State E)
    (h : Program.Reachable remote chain storage mempool s) (hd : s.dead = false) (hp : s.pool.panicked = false)
    (hrest : ProgramAtRest remote s) (hl : s.pool.loop = .stopped) :
    (∀ x ∈ s.pool.conns, Over x ∨ InBan s x ∨ HeldByStop s x) ∧
    ∀ a e, (a, e) ∈ s.pool.closers → e = .over ∨
      ∃ x ∈ s.pool.conns, x.addr = a ∧ (InBan s x ∨ HeldByStop s x) := by
  refine ⟨fun x hx => Program.closed_rest h hd hp hrest hx (Program.stopped_rest h hd hp hrest hl hx), fun a e he => ?_⟩
  refine (Program.closer_waits h hd hp hrest he).imp id ?_
  rintro ⟨x, hx, h1, -, h2⟩
  exact ⟨x, hx, h1, h2.imp .inr id⟩

/-- **C131 is false of the code: they wait for ever.** Once a read loop and a goroutine of `Stop` wait for each other, the
goroutine never ends, whatever comes in and whatever is called, unless the process ends; and the connection is never
over. -/
theorem C131_for_ever (remote : Nat → String) (chain : Chain E) (storage : Storage E)
    (mempool : Option (Transaction E → Out Unit)) (s : Program.State E)
    (h : Program.Reachable remote chain storage mempool s) (x : Whole.Conn (Message E)) (hx : x ∈ s.pool.conns)
    (hs : HeldByStop s x) (s' : Program.State E) (hr : Program.RunWhile remote (fun _ => True) s s') :
    (∃ k, (x.addr, .closing x.id k) ∈ s'.pool.closers) ∧ ∃ y ∈ s'.pool.conns, y.id = x.id ∧ y.addr = x.addr ∧ ¬ Over y := by
  obtain ⟨h1, ⟨m, h2, h3⟩, k, h4, h5⟩ := hs
  have hj : Program.Jam s x.id k := ⟨x, hx, rfl, h4, h5, .inl ⟨h1, m, h2, .inl ((Program.locks_iff m).2 h3)⟩⟩
  have key : Program.Reachable remote chain storage mempool s' ∧ Program.Jam s' x.id k ∧
      ∃ y ∈ s'.pool.conns, y.id = x.id ∧ y.addr = x.addr := by
    induction hr with
    | refl => exact ⟨h, hj, x, hx, rfl, rfl⟩
    | next hr hd hp hs _ ih =>
      obtain ⟨i1, i2, y, i3, i4, i5⟩ := ih
      have hi := Program.inv_reachable i1
      obtain ⟨z, hz, z1, z2, -⟩ := Program.conns_step hi hs i3
      exact ⟨i1.next hd hp hs, Program.jam_step hi hs i2, z, hz, z1.trans i4, z2.trans i5⟩
  obtain ⟨hr', ⟨y, hy, y1, y2, y3, y4⟩, z, hz, z1, z2⟩ := key
  obtain rfl := Whole.same_id (Program.inv_reachable hr').whole hz hy (z1.trans y1.symm)
  rw [z2] at y2
  refine ⟨⟨k, y2⟩, z, hz, y1, z2, fun e => ?_⟩
  rcases e.2.2.1 with e | e
  · rcases y4 with ⟨e', -⟩ | ⟨d, e'⟩ <;> rw [e'] at e <;> cases e
  · rcases y4 with ⟨e', -⟩ | ⟨d, e'⟩ <;> rw [e'] at e <;> cases e

/-- **C131 is false of the code: any message that was just read will do.** Whenever the loop is between two turns, and a
connection that is in the table of addresses and was not closed has just read a ping, a pong or a block, then `Stop`, if
it is called now for the first time, may come to wait for ever for that connection. -/
theorem C131_refuted (remote : Nat → String) (chain : Chain E) (storage : Storage E)
    (mempool : Option (Transaction E → Out Unit)) (s : Program.State E)
    (h : Program.Reachable remote chain storage mempool s) (hd : s.dead = false) (hp : s.pool.panicked = false)
    (hl : s.pool.loop = .select) (hq : s.pool.quit = false) (x : Whole.Conn (Message E)) (hx : x ∈ s.pool.conns)
    (hf : x.peer.flag = false) (hr : x.peer.reader = .reading) (m : Message E) (ht : (s.io x.id).task = some m)
    (hm : Tidings m) (i : PeerInfo) (hi : s.pool.table.find x.addr = some i) (hpe : i.peer = some x.id) :
    ∃ s' y, Program.RunWhile remote (fun _ => True) s s' ∧ s'.dead = false ∧ s'.pool.panicked = false ∧
      s'.pool.loop = .stopped ∧ y ∈ s'.pool.conns ∧ y.id = x.id ∧ y.addr = x.addr ∧ HeldByStop s' y := by
  obtain ⟨s', y, h1, h2, h3, h4, -, h6, h7, h8, h9, -⟩ := Program.held_run h hd hp hl hq hx hf hr ht hm hi hpe
  exact ⟨s', y, h1, h2, h3, h4, h6, h7, h8, h9⟩

/-- All three apply: a node that has just read a ping is stopped, and comes to rest. -/
example (w : World) (hw : Program.Real w) : (∃ (s : Program.State Toy.env) (x : Whole.Conn (Message Toy.env)) (i : PeerInfo),
      Program.Reachable oneSetup.remote toyNode.chain toyNode.storage none s ∧ s.dead = false ∧ s.pool.panicked = false ∧
      s.pool.loop = .select ∧ s.pool.quit = false ∧ x ∈ s.pool.conns ∧ x.peer.flag = false ∧ x.peer.reader = .reading ∧
      (s.io x.id).task = some (.ping ⟨8, 9⟩) ∧ Tidings (.ping ⟨8, 9⟩ : Message Toy.env) ∧
      s.pool.table.find x.addr = some i ∧ i.peer = some x.id) ∧
    ∃ (s : Program.State Toy.env) (x : Whole.Conn (Message Toy.env)),
    Program.Reachable oneSetup.remote toyNode.chain toyNode.storage none s ∧ s.dead = false ∧ s.pool.panicked = false ∧
    ProgramAtRest oneSetup.remote s ∧ s.pool.loop = .stopped ∧ x ∈ s.pool.conns ∧ HeldByStop s x := by
  obtain ⟨-, -, s, x, t1, t2, t3, ⟨t4, t4', t4'', b1, b2, b3⟩, t5, t6, t7, t8, t9, t10, -, t12, t13, t14, -, -, i, t15, t16, -⟩ :=
    greeted_run toyNode.chain toyNode.storage none _ (Full.closed toyNode_head) w hw (by decide) pingFrame rfl
  have h0 := (Full.inv_reachable toyNode_head t1).alive t2
  have hx : x ∈ s.prog.pool.conns := by rw [t6]; simp
  have h1 := h0.next t2 t3 (.arrive 0 (frameBytes 3 (be64 8 ++ be64 9)))
  have hread := readStep_good Toy.env (by decide) (pingFrame : GoodFrame Toy.env).type pingFrame.body pingFrame.msg
    pingFrame.size pingFrame.carries []
  rw [List.append_nil] at hread
  have h2 := h1.next t2 t3 (.read x (.ping ⟨8, 9⟩) _ [] hx t12 (by
    dsimp only
    rw [t7, Function.update_self]; exact t13) (by
    dsimp only
    rw [t7, Function.update_self]
    dsimp only
    rw [t14]
    exact hread))
  refine ⟨⟨_, x, i, h2, t2, t3, t4, t4', hx, t8, t12, by dsimp only; rw [Function.update_self], .inl ⟨_, rfl⟩, by rw [t4'']; exact t15,
    by rw [t7]; exact t16⟩, ?_⟩
  obtain ⟨s', y, g1, g2, g3, g4, ⟨l, r, g5, g5'⟩, g6, g7, g8, g9, g10, g11, g12, g13⟩ := Program.held_run h2 t2 t3 t4 t4' hx t8 t12
    (by dsimp only; rw [Function.update_self]) (.inl ⟨_, rfl⟩) (by rw [t4'']; exact t15) (by rw [t7]; exact t16)
  obtain ⟨k1, ⟨m, k2, -⟩, k, k3, k4⟩ := g9
  have hc : s'.pool.conns = [y] := by
    have g5 : s.prog.pool.conns = l ++ x :: r := g5
    rw [t6] at g5
    cases l with
    | nil => cases g5; exact g5'
    | cons => simp at g5
  have hcl : s'.pool.closers = [(y.addr, .closing y.id k)] := by
    obtain ⟨e, he⟩ := List.length_eq_one_iff.1 (g13.trans b3)
    rw [he, List.mem_singleton] at k3
    rw [he, k3]
  obtain ⟨t, r1, r2, r3, r4, -, -, r5, z, p, n, r6, r7, r8, r9, r10⟩ := Program.alone_rest (g1.reachable h2).1 g2 g3
    ⟨g10.trans b1, g11.trans b2, g4, y, ⟨8, 9⟩, k, hc, by rw [g12, g7]; dsimp only; rw [Function.update_self], k1, hcl, k4⟩
  exact ⟨t, z, r1, r2, r3, r4, r5, by rw [r6]; simp, r8, ⟨_, r7, .inl ⟨_, rfl⟩⟩, n, by rw [r9]; simp, r10⟩

end Gringo.Props
