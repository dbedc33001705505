import Verif.Props.Program
import Verif.Props.Stall
import Verif.Proofs.ProgramEnds
import Verif.Proofs.Pile
/-
A run of Model/Program.lean for C124: a block comes in on one connection and is sent on another one.
-/
namespace Gringo.Props
open Gringo.Spec Gringo.P2P Gringo.Program

variable {E : Env}

/-! ### Steps of the pool as steps of the program -/

section
variable {remote : Nat → String} {chain : Chain E} {storage : Storage E} {mempool : Option (Transaction E → Out Unit)}

/-- No connection changes. -/
theorem Program.lift (s : Program.State E) (h : Program.Reachable remote chain storage mempool s) (hd : s.dead = false)
    (hp : s.pool.panicked = false) {k : Lifecycle.Kind} {q : Whole.State (Message E)}
    (hs : Whole.Step Talk.frame ping ask s.pool k q) (hc : q.conns = s.pool.conns) :
    Program.Reachable remote chain storage mempool { s with pool := q } := by
  have same : ∀ x ∈ s.pool.conns, ∀ y ∈ q.conns, y.id = x.id → y = x := fun x hx y hy e =>
    Whole.same_id (inv_reachable h).whole (hc ▸ hy) hx e
  refine h.next hd hp (.pool k q hs ?_ ?_ ?_)
  · intro x hx y hy e hr; rw [same x hx y hy e]; exact .inl hr
  · intro x hx y hy e m p h1 h2; rw [same x hx y hy e, h1] at h2; cases h2
  · intro _ x hx y hy e; rw [same x hx y hy e]

/-- A new connection. -/
theorem Program.liftNew (s : Program.State E) (h : Program.Reachable remote chain storage mempool s) (hd : s.dead = false)
    (hp : s.pool.panicked = false) {k : Lifecycle.Kind} {q : Whole.State (Message E)}
    (hs : Whole.Step Talk.frame ping ask s.pool k q) (z : Whole.Conn (Message E)) (hc : q.conns = s.pool.conns ++ [z])
    (hz : ∀ x ∈ s.pool.conns, x.id ≠ z.id) : Program.Reachable remote chain storage mempool { s with pool := q } := by
  have same : ∀ x ∈ s.pool.conns, ∀ y ∈ q.conns, y.id = x.id → y = x := fun x hx y hy e => by
    rw [hc] at hy
    rcases List.mem_append.1 hy with hy | hy
    · exact Whole.same_id (inv_reachable h).whole hy hx e
    · rw [List.mem_singleton.1 hy] at e; exact absurd e.symm (hz x hx)
  refine h.next hd hp (.pool k q hs ?_ ?_ ?_)
  · intro x hx y hy e hr; rw [same x hx y hy e]; exact .inl hr
  · intro x hx y hy e m p h1 h2; rw [same x hx y hy e, h1] at h2; cases h2
  · intro _ x hx y hy e; rw [same x hx y hy e]

/-- One connection changes. -/
theorem Program.step1 (s : Program.State E) (h : Program.Reachable remote chain storage mempool s) {k : Lifecycle.Kind} {q : Whole.State (Message E)}
    (hs : Whole.Step Talk.frame ping ask s.pool k q) (l r : List (Whole.Conn (Message E))) (x x' : Whole.Conn (Message E))
    (hx : s.pool.conns = l ++ x :: r) (hc : q.conns = l ++ x' :: r) (hid : x'.id = x.id)
    (hr : x.peer.reader = .reading → x'.peer.reader = .reading)
    (hw : ∀ m p, x.peer.writer = .got m → x'.peer.writer = .writing m p → ∃ b, m.frame = .ok b)
    (hm : q.loop = s.pool.loop → handed x' = handed x) :
    Program.Step remote k s { s with pool := q } := by
  have hw0 := (inv_reachable h).whole
  have same : ∀ z ∈ s.pool.conns, ∀ y ∈ q.conns, y.id = z.id → (z = x ∧ y = x') ∨ y = z := fun z hz y hy e => by
    rw [hc] at hy
    rcases Whole.mem_replaced (x := x) hy with hy | hy
    · exact .inl ⟨Whole.same_id hw0 hz (by rw [hx]; simp) (by rw [← e, hy, hid]), hy⟩
    · exact .inr (Whole.same_id hw0 (by rw [hx]; exact hy) hz e)
  refine .pool k q hs ?_ ?_ ?_
  · intro z hz y hy e h1
    rcases same z hz y hy e with ⟨rfl, rfl⟩ | rfl
    · exact .inl (hr h1)
    · exact .inl h1
  · intro z hz y hy e m p h1 h2
    rcases same z hz y hy e with ⟨rfl, rfl⟩ | rfl
    · exact hw m p h1 h2
    · rw [h1] at h2; cases h2
  · intro hl z hz y hy e
    rcases same z hz y hy e with ⟨rfl, rfl⟩ | rfl
    · exact hm hl
    · rfl

theorem Program.lift1 (s : Program.State E) (h : Program.Reachable remote chain storage mempool s) (hd : s.dead = false)
    (hp : s.pool.panicked = false) {k : Lifecycle.Kind} {q : Whole.State (Message E)}
    (hs : Whole.Step Talk.frame ping ask s.pool k q) (l r : List (Whole.Conn (Message E))) (x x' : Whole.Conn (Message E))
    (hx : s.pool.conns = l ++ x :: r) (hc : q.conns = l ++ x' :: r) (hid : x'.id = x.id)
    (hr : x.peer.reader = .reading → x'.peer.reader = .reading)
    (hw : ∀ m p, x.peer.writer = .got m → x'.peer.writer = .writing m p → ∃ b, m.frame = .ok b)
    (hm : q.loop = s.pool.loop → handed x' = handed x) :
    Program.Reachable remote chain storage mempool { s with pool := q } :=
  h.next hd hp (Program.step1 s h hs l r x x' hx hc hid hr hw hm)

theorem Program.begins {P : Program.State E → Prop} {s : Program.State E} (h : Program.Reachable remote chain storage mempool s)
    (hP : P s) : Program.Reachable remote chain storage mempool s ∧ Program.RunWhile remote P s s := ⟨h, .refl hP⟩

/-- One more step. -/
theorem Program.both {P : Program.State E → Prop} {s0 s s' : Program.State E}
    (h : Program.Reachable remote chain storage mempool s ∧ Program.RunWhile remote P s0 s) (hd : s.dead = false)
    (hp : s.pool.panicked = false) (hs : Program.Step remote k s s') (hP : P s') :
    Program.Reachable remote chain storage mempool s' ∧ Program.RunWhile remote P s0 s' :=
  ⟨h.1.next hd hp hs, h.2.next hd hp hs hP⟩

/-- One more step of the goroutines of a connection. -/
theorem Program.inner1 {P : Program.State E → Prop} {s0 s : Program.State E}
    (h : Program.Reachable remote chain storage mempool s ∧ Program.RunWhile remote P s0 s) (hd : s.dead = false)
    (hp : s.pool.panicked = false) (l r : List (Whole.Conn (Message E))) (x : Whole.Conn (Message E))
    (hx : s.pool.conns = l ++ x :: r) (hl : x.lock = .before) (k : Lifecycle.Kind) (hk : k ≠ .call)
    (p : Lifecycle.Peer (Message E)) (hs : Lifecycle.Step Talk.frame k x.peer p) (hc : p.conn = 0)
    (hr : x.peer.reader = .reading → p.reader = .reading) (hh : x.held → p.reader = x.peer.reader)
    (hw : ∀ m q, x.peer.writer = .got m → p.writer = .writing m q → ∃ b, m.frame = .ok b)
    (hm : handed { x with peer := p } = handed x)
    (hP : ∀ cs, P { s with pool := { s.pool with conns := cs } }) :
    Program.Reachable remote chain storage mempool
      { s with pool := { s.pool with conns := l ++ { x with peer := p } :: r } } ∧
    Program.RunWhile remote P s0 { s with pool := { s.pool with conns := l ++ { x with peer := p } :: r } } := by
  have st : Whole.Step Talk.frame ping ask s.pool k { s.pool with conns := l ++ { x with peer := p } :: r } := by
    have st := Whole.Step.inner (ping := ping) (ask := ask) s.pool l r x hx k p hk hs hh
    rw [hc] at st
    have e : (if p.reader.handles = true then x.lock else .before) = x.lock := by rw [hl]; simp
    rw [e] at st
    exact st
  exact Program.both h hd hp (Program.step1 s h.1 st l r x { x with peer := p } hx rfl rfl hr hw (fun _ => hm)) (hP _)

/-- A message is written. -/
theorem Program.written {P : Program.State E → Prop} {s0 s : Program.State E}
    (h : Program.Reachable remote chain storage mempool s ∧ Program.RunWhile remote P s0 s) (hd : s.dead = false)
    (hp : s.pool.panicked = false) (l r : List (Whole.Conn (Message E))) (x : Whole.Conn (Message E)) (m : Message E)
    (hx : s.pool.conns = l ++ x :: r) (hl : x.lock = .before) (hw : x.peer.writer = .got m) (hf : x.peer.flag = false)
    (hc : x.peer.conn = 0) (hb : ∃ b, m.frame = .ok b)
    (hP : ∀ cs, P { s with pool := { s.pool with conns := cs } }) :
    Program.Reachable remote chain storage mempool
      { s with pool := { s.pool with conns := l ++ { x with peer := { x.peer with
        writer := .select, wire := x.peer.wire ++ Talk.frame m,
        bytesSent := x.peer.bytesSent + UInt64.ofNat (Talk.frame m).length } } :: r } } ∧
    Program.RunWhile remote P s0
      { s with pool := { s.pool with conns := l ++ { x with peer := { x.peer with
        writer := .select, wire := x.peer.wire ++ Talk.frame m,
        bytesSent := x.peer.bytesSent + UInt64.ofNat (Talk.frame m).length } } :: r } } := by
  have h1 := Program.inner1 h hd hp l r x hx hl .own (by simp) { x.peer with writer := .writing m (Talk.frame m) }
    (.gotWrite _ m hw hf) hc id (fun _ => rfl) (fun m' _ e _ => by rw [hw] at e; cases e; exact hb) rfl hP
  have h2 := Program.inner1 h1 hd hp l r _ rfl hl .remote (by simp)
    { x.peer with writer := .writing m [], wire := x.peer.wire ++ Talk.frame m }
    (.chunk _ m (Talk.frame m) [] (by rw [List.append_nil]) (Talk.frame_ne m) hc) hc id (fun _ => rfl)
    (fun _ _ e _ => by cases e) rfl hP
  exact Program.inner1 h2 hd hp l r _ rfl hl .own (by simp) _ (.writeDone _ m rfl) hc id (fun _ => rfl)
    (fun _ _ e _ => by cases e) rfl hP

end

/-! ### The run -/

/-- Two addresses that resolve. -/
def twoHosts (a : String) : Option TCPAddr :=
  if a = "10.0.0.1:3414" then some ⟨[10, 0, 0, 1], 3414⟩ else if a = "10.0.0.2:3414" then some ⟨[10, 0, 0, 2], 3414⟩ else none

def hostOf (c : Nat) : String := if c = 0 then "10.0.0.1:3414" else "10.0.0.2:3414"

/-- The record of the second address has a smaller height. -/
def SecondBehind (b : Block E) (s : Program.State E) : Prop :=
  ∀ i, s.pool.table.find "10.0.0.2:3414" = some i → i.height.toNat < b.header.height.toNat

/-- Two connections; a block that the node accepts comes in on the first one, and is the first message of those accepted for
sending on the second one. -/
theorem relayed_run (chain : Chain E) (storage : Storage E) (mempool : Option (Transaction E → Out Unit)) (w : World)
    (hw : Program.Real w)
    (hmem : 20000000 ≤ E.maxAlloc) (f : GoodFrame E) (b : Block E) (hf : f.msg = some (.block b))
    (hb : (chain.processBlock storage b).1 = .ok ()) (hh : b.header.height = chain.height) (h0 : 0 < b.header.height) :
    ∃ (s : Program.State E) (x y : Whole.Conn (Message E)),
      Program.Reachable hostOf chain storage mempool s ∧ s.pool.conns = [x, y] ∧ s.dead = false ∧
      x.peer.accepted = [.ping ⟨1, 1⟩, .getPeerAddrs ⟨7⟩] ∧ y.peer.accepted = [.block b] ∧
      (s.io x.id).arrived = frameBytes f.type f.body ∧ (s.io y.id).arrived = [] ∧
      (∀ z ∈ s.pool.conns, hostOf z.id = z.addr) ∧
      ∃ s0 s1 : Program.State E, Program.Reachable hostOf chain storage mempool s0 ∧ s0.dead = false ∧
        s0.pool.panicked = false ∧ Program.Step hostOf .own s0 s1 ∧ (s0.io x.id).task = some (.block b) ∧
        (s1.io x.id).task = none ∧ s0.pool.online = [y.addr, x.addr] ∧ y.addr = "10.0.0.2:3414" ∧
        Program.RunWhile hostOf (SecondBehind b) s1 s ∧
        ((∃ v, (Message.block b).frame = .ok v) → ∃ t, Program.Reachable hostOf chain storage mempool t ∧
          Program.RunWhile hostOf (SecondBehind b) s1 t ∧ t.dead = false ∧ t.pool.panicked = false ∧ t.pool.closers = [] ∧
          ProgramAtRest hostOf t ∧ ∃ x' y', t.pool.conns = [x', y'] ∧ x'.peer.flag = false ∧ y'.peer.flag = false ∧
            (t.io x'.id).arrived = frameBytes f.type f.body ∧ y'.addr = "10.0.0.2:3414" ∧
            y'.peer.accepted = [.block b, ping, ask] ∧ Program.Ready t x' y' b ∧ y'.peer.writer = .select ∧
            waiting y' = []) := by
  let a0 := "10.0.0.1:3414"
  let a1 := "10.0.0.2:3414"
  let fp : Bytes := Talk.frame (ping : Message E)
  let told : PoolRun.Told := ⟨ProtocolVersion, 1, CapFullNode⟩
  have hr : ∀ a, twoHosts "" = some a → a.port = 0 := by intro a h; rw [(by decide +kernel : twoHosts "" = none)] at h; cases h
  let P : Lifecycle.Peer (Message E) := .new (Message E)
  let reg (c : Nat) := PoolRun.registered c (Time.unix 0) told PeerInfo.fresh
  let T0 : Table := [(a0, PeerInfo.fresh), (a1, PeerInfo.fresh)]
  let T1 : Table := [(a0, reg 0), (a1, PeerInfo.fresh)]
  let T2 : Table := [(a0, reg 0), (a1, reg 1)]
  let st (t : Table) (on : List String) (n : Int) (sl : Nat) (lp : Whole.Loop) (cs : List (Whole.Conn (Message E))) (op : List Nat)
      (nx : Nat) : Program.State E :=
    { (Program.State.new chain storage mempool) with pool := ⟨t, on, n, sl, lp, cs, op, nx, false, [], [], false⟩ }
  let R (s : Program.State E) : Prop := Program.Reachable hostOf chain storage mempool s
  have e0 : R (st [] [] 0 0 .select [] [] 0) := .new
  have e1 : R (st [(a0, PeerInfo.fresh)] [] 0 0 .select [] [] 0) := Program.lift _ e0 rfl rfl (.add _ a0 twoHosts hr) rfl
  have e2 : R (st T0 [] 0 0 .select [] [] 0) := Program.lift _ e1 rfl rfl (.add _ a1 twoHosts hr) rfl
  have e3 : R (st T0 [] 0 1 .choosing [] [] 0) := Program.lift _ e2 rfl rfl (.take _ rfl (show 0 < 15 by decide)) rfl
  have e4 : R (st T0 [] 0 1 (.connecting a0) [] [] 0) :=
    Program.lift _ e3 rfl rfl (.choose _ T0 T0 rfl (.refl _) (.refl _)) rfl
  have free : ∀ {t on n sl lp cs op nx a}, Whole.Loop.holds lp = none → ¬ (st t on n sl lp cs op nx).pool.locked a := by
    rintro t on n sl lp cs op nx a hl (h | h | ⟨c, k, h⟩)
    · have h : lp.holds = some a := h
      rw [hl] at h; cases h
    · cases h
    · cases h
  have e5 : R (st T0 [] 0 1 (.dialing a0) [] [] 0) :=
    Program.lift _ e4 rfl rfl (.dial _ a0 PeerInfo.fresh rfl (by decide) (show (0 : Int) ≤ 15 by decide) (show T0.find a0 = _ by decide +kernel) (free rfl) (by decide)) rfl
  have e6 : R (st T0 [] 0 1 (.greeting a0 0) [] [0] 1) := Program.lift _ e5 rfl rfl (.opens _ a0 rfl) rfl
  have e7 : R (st T0 [] 0 1 (.counting a0 0 told 0) [] [0] 1) :=
    Program.lift _ e6 rfl rfl (.see _ a0 0 told rfl rfl) rfl
  let c (p : Lifecycle.Peer (Message E)) (wt : Whole.Watch) : Whole.Conn (Message E) := ⟨0, a0, p, wt, .before⟩
  let d (p : Lifecycle.Peer (Message E)) : Whole.Conn (Message E) := ⟨1, a1, p, .unborn, .before⟩
  have e8 : R (st T1 [a0] 1 1 (.starting a0 0) [c P .unborn] [0] 1) :=
    Program.liftNew _ e7 rfl rfl (.register _ a0 0 told (Time.unix 0) 0 rfl) (c P .unborn) rfl (fun _ h => by cases h)
  let P1 : Lifecycle.Peer (Message E) := { P with wg := 2, reader := .loop, writer := .select }
  have e9 : R (st T1 [a0] 1 1 (.pinging a0 0) [c P1 .unborn] [0] 1) :=
    Program.lift1 _ e8 rfl rfl (.start _ a0 [] [] (c P .unborn) rfl rfl P1 rfl rfl rfl) [] [] (c P .unborn) (c P1 .unborn) rfl rfl rfl
      (fun h => by cases h) (fun _ _ h => by cases h) (fun h => by cases h)
  let P2 : Lifecycle.Peer (Message E) := { P1 with threads := [.send ping] }
  have e10 : R (st T1 [a0] 1 1 (.pinged a0 0 0) [c P2 .unborn] [0] 1) :=
    Program.lift1 _ e9 rfl rfl (.ping _ a0 [] [] (c P1 .unborn) rfl rfl) [] [] (c P1 .unborn) (c P2 .unborn) rfl rfl rfl
      (fun h => by cases h) (fun _ _ h => by cases h) (fun h => by cases h)
  let P3 : Lifecycle.Peer (Message E) := { P2 with threads := [.sent ping true], writer := .got ping, accepted := [ping] }
  have e11 : R (st T1 [a0] 1 1 (.pinged a0 0 0) [c P3 .unborn] [0] 1) :=
    Program.lift1 _ e10 rfl rfl (.inner _ [] [] (c P2 .unborn) rfl .own P3 (by simp) (.sendTaken _ [] [] ping rfl rfl) (fun _ => rfl))
      [] [] (c P2 .unborn) (c P3 .unborn) rfl rfl rfl (fun h => by cases h) (fun _ _ h => by cases h) (fun _ => rfl)
  let P4 : Lifecycle.Peer (Message E) := { P3 with threads := [.sent ping true, .send ask] }
  have e12 : R (st T1 [a0] 1 1 (.asked a0 0 1) [c P4 .unborn] [0] 1) :=
    Program.lift1 _ e11 rfl rfl (.ask _ a0 0 ping true [] [] (c P3 .unborn) rfl rfl rfl) [] [] (c P3 .unborn) (c P4 .unborn) rfl rfl rfl
      (fun h => by cases h) (fun _ _ _ h => by cases h) (fun h => by cases h)
  let P5 : Lifecycle.Peer (Message E) := { P4 with writer := .writing ping (fp) }
  have e13 : R (st T1 [a0] 1 1 (.asked a0 0 1) [c P5 .unborn] [0] 1) :=
    Program.lift1 _ e12 rfl rfl (.inner _ [] [] (c P4 .unborn) rfl .own P5 (by simp) (.gotWrite _ ping rfl rfl) (fun _ => rfl))
      [] [] (c P4 .unborn) (c P5 .unborn) rfl rfl rfl (fun h => by cases h) (fun m _ h _ => by cases h; exact ⟨_, rfl⟩) (fun _ => rfl)
  let P6 : Lifecycle.Peer (Message E) := { P5 with writer := .writing ping [], wire := fp }
  have e14 : R (st T1 [a0] 1 1 (.asked a0 0 1) [c P6 .unborn] [0] 1) :=
    Program.lift1 _ e13 rfl rfl (.inner _ [] [] (c P5 .unborn) rfl .remote P6 (by simp)
      (.chunk _ ping (fp) [] (by rw [List.append_nil]) (Talk.frame_ne _) rfl) (fun _ => rfl))
      [] [] (c P5 .unborn) (c P6 .unborn) rfl rfl rfl (fun h => by cases h) (fun m _ h _ => by cases h) (fun _ => rfl)
  let P7 : Lifecycle.Peer (Message E) := { P6 with writer := .select, bytesSent := 0 + UInt64.ofNat fp.length }
  have e15 : R (st T1 [a0] 1 1 (.asked a0 0 1) [c P7 .unborn] [0] 1) :=
    Program.lift1 _ e14 rfl rfl (.inner _ [] [] (c P6 .unborn) rfl .own P7 (by simp) (.writeDone _ ping rfl) (fun _ => rfl))
      [] [] (c P6 .unborn) (c P7 .unborn) rfl rfl rfl (fun h => by cases h) (fun m _ h _ => by cases h) (fun _ => rfl)
  let P8 : Lifecycle.Peer (Message E) := { P7 with threads := [.sent ping true, .sent ask true], writer := .got ask, accepted := [ping, ask] }
  have e16 : R (st T1 [a0] 1 1 (.asked a0 0 1) [c P8 .unborn] [0] 1) :=
    Program.lift1 _ e15 rfl rfl (.inner _ [] [] (c P7 .unborn) rfl .own P8 (by simp) (.sendTaken _ [.sent ping true] [] ask rfl rfl) (fun _ => rfl))
      [] [] (c P7 .unborn) (c P8 .unborn) rfl rfl rfl (fun h => by cases h) (fun m _ h _ => by cases h) (fun _ => rfl)
  let P9 : Lifecycle.Peer (Message E) := { P8 with threads := [.sent ping true, .sent ask true, .wait] }
  have e17 : R (st T1 [a0] 1 1 .sleeping [c P9 (.waiting 2)] [0] 1) :=
    Program.lift1 _ e16 rfl rfl (.spawn _ a0 1 ask true [] [] (c P8 .unborn) rfl rfl rfl) [] [] (c P8 .unborn) (c P9 (.waiting 2)) rfl rfl rfl
      (fun h => by cases h) (fun _ _ _ h => by cases h) (fun h => by cases h)
  have e18 : R (st T1 [a0] 1 1 .select [c P9 (.waiting 2)] [0] 1) := Program.lift _ e17 rfl rfl (.wake _ rfl) rfl
  have e19 : R (st T1 [a0] 1 2 .choosing [c P9 (.waiting 2)] [0] 1) := Program.lift _ e18 rfl rfl (.take _ rfl (show 1 < 15 by decide)) rfl
  have e20 : R (st T1 [a0] 1 2 (.connecting a1) [c P9 (.waiting 2)] [0] 1) :=
    Program.lift _ e19 rfl rfl (.choose _ T1 T1 rfl (.refl _) (.refl _)) rfl
  have e21 : R (st T1 [a0] 1 2 (.dialing a1) [c P9 (.waiting 2)] [0] 1) :=
    Program.lift _ e20 rfl rfl (.dial _ a1 PeerInfo.fresh rfl (by decide) (show (1 : Int) ≤ 15 by decide) (show T1.find a1 = _ by decide +kernel) (free rfl) (by decide)) rfl
  have e22 : R (st T1 [a0] 1 2 (.greeting a1 1) [c P9 (.waiting 2)] [1, 0] 2) := Program.lift _ e21 rfl rfl (.opens _ a1 rfl) rfl
  have e23 : R (st T1 [a0] 1 2 (.counting a1 1 told 1) [c P9 (.waiting 2)] [1, 0] 2) :=
    Program.lift _ e22 rfl rfl (.see _ a1 1 told rfl rfl) rfl
  have e24 : R (st T2 [a1, a0] 2 2 (.starting a1 1) [c P9 (.waiting 2), d P] [1, 0] 2) :=
    Program.liftNew _ e23 rfl rfl (.register _ a1 1 told (Time.unix 0) 1 rfl) (d P) rfl
      (fun x h => by rw [List.mem_singleton.1 h]; exact Nat.zero_ne_one)
  have e25 : R (st T2 [a1, a0] 2 2 (.pinging a1 1) [c P9 (.waiting 2), d P1] [1, 0] 2) :=
    Program.lift1 _ e24 rfl rfl (.start _ a1 [c P9 (.waiting 2)] [] (d P) rfl rfl P1 rfl rfl rfl) [c P9 (.waiting 2)] [] (d P) (d P1)
      rfl rfl rfl (fun h => by cases h) (fun _ _ h => by cases h) (fun h => by cases h)
  have e26 : R (st T2 [a1, a0] 2 2 (.pinged a1 1 0) [c P9 (.waiting 2), d P2] [1, 0] 2) :=
    Program.lift1 _ e25 rfl rfl (.ping _ a1 [c P9 (.waiting 2)] [] (d P1) rfl rfl) [c P9 (.waiting 2)] [] (d P1) (d P2)
      rfl rfl rfl (fun h => by cases h) (fun _ _ h => by cases h) (fun h => by cases h)
  let P10 : Lifecycle.Peer (Message E) := { P9 with reader := .reading }
  have e27 : R (st T2 [a1, a0] 2 2 (.pinged a1 1 0) [c P10 (.waiting 2), d P2] [1, 0] 2) :=
    Program.lift1 _ e26 rfl rfl (.inner _ [] [d P2] (c P9 (.waiting 2)) rfl .own P10 (by simp) (.loopGo _ rfl rfl)
      (by rintro (h | h | h) <;> cases h))
      [] [d P2] (c P9 (.waiting 2)) (c P10 (.waiting 2)) rfl rfl rfl (fun h => by cases h) (fun m _ h h' => by cases h') (fun _ => rfl)
  let io28 : Reading E := ⟨frameBytes f.type f.body, none, false, frameBytes f.type f.body⟩
  let io29 : Reading E := ⟨[], some (.block b), false, frameBytes f.type f.body⟩
  let s28 : Program.State E :=
    { st T2 [a1, a0] 2 2 (.pinged a1 1 0) [c P10 (.waiting 2), d P2] [1, 0] 2 with
      io := Function.update (Program.State.new chain storage mempool).io 0 io28 }
  let s29 : Program.State E := { s28 with io := Function.update s28.io 0 io29 }
  have e28 : R s28 := Program.Reachable.next e27 rfl rfl (.arrive 0 (frameBytes f.type f.body))
  have hread := readStep_good E hmem f.type f.body f.msg f.size f.carries []
  rw [List.append_nil, hf] at hread
  have e29 : R s29 := Program.Reachable.next e28 rfl rfl
    (.read (c P10 (.waiting 2)) (.block b) _ _ (by exact List.mem_cons_self) rfl rfl hread)
  have known : Known s29.node (sender hostOf (c P10 (.waiting 2))) := by
    show a0 ∈ T2.map (·.1)
    decide +kernel
  have hp : processMessage w s29.node (sender hostOf (c P10 (.waiting 2))) (.block b) =
      { node := { s29.node with table := T2.update a0 (blockRecord b) }
        effects := (relayTargets (T2.update a0 (blockRecord b)) [a1, a0] b.header.height
          b.header.totalDifficulty).map fun x => .relay x.1 x.2 b
        ended := .done } := by
    have hb' : (s29.node.chain.processBlock s29.node.storage b).1 = .ok () := hb
    rw [process_known w s29.node _ known]
    simp only [handle, orBan, hb']
    have : (s29.node.chain.processBlock s29.node.storage b).2 = s29.node.chain := rfl
    have hh' : b.header.height = s29.node.chain.height := hh
    rw [this, if_pos hh']
    rfl
  have noAnswer : ∀ l : List (String × Nat), Talk.answer (l.map fun x => Effect.relay x.1 x.2 b) = none := by
    intro l; induction l with
    | nil => rfl
    | cons a l ih => exact ih
  have st30 : Program.Step hostOf .own s29 _ := (.process [] [d P2] (c P10 (.waiting 2)) w (.block b) rfl rfl
    rfl rfl hw
    (fun _ => by
      rintro (h | h | ⟨c, k, h⟩)
      · have h : some a1 = some a0 := h
        exact absurd h (by decide)
      · cases h
      · cases h)
    (by rw [hp]) (by rw [hp]; exact noAnswer _))
  have e30 := Program.Reachable.next e29 rfl rfl st30
  have hst : started s29.pool.online (processMessage w s29.node (sender hostOf (c P10 (.waiting 2))) (.block b)).node.chain
      (.block b) = [⟨a1, b, .height⟩, ⟨a0, b, .height⟩] := by
    rw [hp]
    have hh' : b.header.height = s29.node.chain.height := hh
    simp only [started]
    rw [if_pos hh']
    rfl
  unfold State.handled at e30 st30
  rw [hst, hp] at e30 st30
  have h31 : (T2.update a0 (blockRecord b)).find a1 = some (reg 1) := by rfl
  have low : ∀ {s : Program.State E}, s.pool.table = T2.update a0 (blockRecord b) → SecondBehind b s := by
    intro s e i hf
    rw [e, h31] at hf
    cases hf
    exact UInt64.lt_iff_toNat_lt.1 h0
  have r30 := Program.begins e30 (low rfl)
  have r31 := Program.both r30 rfl rfl (.look [] [⟨a0, b, .height⟩] ⟨a1, b, .height⟩ (reg 1) .peer rfl h31
    (by
      have : (reg 1).height < b.header.height := h0
      show some (if (reg 1).height < b.header.height then _ else _) = _
      rw [if_pos this]) nofun) (low rfl)
  have r32 := Program.both r31 rfl rfl (.relay [] [⟨a0, b, .height⟩] ⟨a1, b, .peer⟩ (reg 1)
    [c { P10 with reader := .loop } (.waiting 2)] [] (d P2) rfl h31 rfl rfl) (low rfl)
  let P11 : Lifecycle.Peer (Message E) := { P2 with threads := [.send ping, .send (.block b)] }
  let P12 : Lifecycle.Peer (Message E) :=
    { P2 with threads := [.send ping, .sent (.block b) true], writer := .got (.block b), accepted := [.block b] }
  have r33 := Program.both r32 rfl rfl (Program.step1 _ r32.1
    (.inner _ [c { P10 with reader := .loop } (.waiting 2)] [] (d P11) rfl .own P12 (by simp)
    (.sendTaken _ [.send ping] [] (.block b) rfl rfl) (fun _ => rfl)) [c { P10 with reader := .loop } (.waiting 2)] [] (d P11) (d P12)
    rfl rfl rfl (fun h => by cases h) (fun m _ h _ => by cases h) (fun _ => rfl)) (low rfl)
  refine ⟨_, c { P10 with reader := .loop } (.waiting 2), d P12, r33.1, rfl, rfl, rfl, rfl, rfl, rfl, ?_,
    s29, _, e29, rfl, rfl, st30, rfl, rfl, rfl, rfl, r33.2, ?_⟩
  · intro z hz
    have hz : z ∈ [c { P10 with reader := .loop } (.waiting 2), d P12] := hz
    simp only [List.mem_cons, List.not_mem_nil, or_false] at hz
    rcases hz with rfl | rfl <;> rfl
  intro hfr
  have hbr : ∀ m : Message E, m = ping ∨ m = ask → ∃ v, m.frame = .ok v := by rintro m (rfl | rfl) <;> exact ⟨_, rfl⟩
  have low' : ∀ {s : Program.State E}, s.pool.table = T2.update a0 (blockRecord b) →
      ∀ cs, SecondBehind b { s with pool := { s.pool with conns := cs } } := fun e cs => low e
  have nh : ∀ {x : Whole.Conn (Message E)}, x.lock = .before → x.peer.reader = .loop → ¬ x.held := by
    rintro x h1 h2 (h | h | h)
    · rw [h1] at h; cases h
    · rw [h2] at h; cases h
    · rw [h2] at h; cases h
  -- the first connection
  let Q0 : Lifecycle.Peer (Message E) := { P10 with reader := .loop }
  let fa : Bytes := Talk.frame (ask : Message E)
  let fb : Bytes := Talk.frame (.block b : Message E)
  let n0 : UInt64 := 0 + UInt64.ofNat fp.length
  let Q1 : Lifecycle.Peer (Message E) := { Q0 with writer := .select, wire := fp ++ fa, bytesSent := n0 + UInt64.ofNat fa.length }
  let Q2 : Lifecycle.Peer (Message E) := { Q1 with reader := .reading }
  have r34 := Program.written r33 rfl rfl [] [d P12] (c Q0 (.waiting 2)) ask rfl rfl rfl rfl rfl (hbr _ (.inr rfl)) (low' rfl)
  have r35 := Program.inner1 r34 rfl rfl [] [d P12] (c Q1 (.waiting 2)) rfl rfl .own (by simp) Q2 (.loopGo _ rfl rfl) rfl
    (fun h => by cases h) (fun h => absurd h (nh rfl rfl)) (fun _ _ h => by cases h) rfl (low' rfl)
  -- the second connection
  let x' := c Q2 (.waiting 2)
  let D1 : Lifecycle.Peer (Message E) := { P12 with writer := .select, wire := [] ++ fb, bytesSent := 0 + UInt64.ofNat fb.length }
  let D2 : Lifecycle.Peer (Message E) :=
    { D1 with threads := [.sent ping true, .sent (.block b) true], writer := .got ping, accepted := [.block b, ping] }
  let D3 : Lifecycle.Peer (Message E) :=
    { D2 with writer := .select, wire := D1.wire ++ fp, bytesSent := D1.bytesSent + UInt64.ofNat fp.length }
  let D4 : Lifecycle.Peer (Message E) := { D3 with threads := [.sent ping true, .sent (.block b) true, .send ask] }
  let D5 : Lifecycle.Peer (Message E) :=
    { D4 with
      threads := [.sent ping true, .sent (.block b) true, .sent ask true], writer := .got ask, accepted := [.block b, ping, ask] }
  let D6 : Lifecycle.Peer (Message E) :=
    { D5 with writer := .select, wire := D3.wire ++ fa, bytesSent := D3.bytesSent + UInt64.ofNat fa.length }
  let D7 : Lifecycle.Peer (Message E) := { D6 with threads := [.sent ping true, .sent (.block b) true, .sent ask true, .wait] }
  let D8 : Lifecycle.Peer (Message E) := { D7 with reader := .reading }
  have r36 := Program.written r35 rfl rfl [x'] [] (d P12) (.block b) rfl rfl rfl rfl rfl hfr (low' rfl)
  have r37 := Program.inner1 r36 rfl rfl [x'] [] (d D1) rfl rfl .own (by simp) D2 (.sendTaken _ [] [.sent (.block b) true] ping rfl rfl)
    rfl (fun h => by cases h) (fun _ => rfl) (fun _ _ h => by cases h) rfl (low' rfl)
  have r38 := Program.written r37 rfl rfl [x'] [] (d D2) ping rfl rfl rfl rfl rfl (hbr _ (.inl rfl)) (low' rfl)
  have r39 := Program.both r38 rfl rfl (Program.step1 _ r38.1 (.ask _ a1 0 ping true [x'] [] (d D3) rfl rfl rfl) [x'] [] (d D3) (d D4)
    rfl rfl rfl (fun h => by cases h) (fun _ _ _ h => by cases h) (fun h => by cases h)) (low rfl)
  have r40 := Program.inner1 r39 rfl rfl [x'] [] (d D4) rfl rfl .own (by simp) D5
    (.sendTaken _ [.sent ping true, .sent (.block b) true] [] ask rfl rfl)
    rfl (fun h => by cases h) (fun _ => rfl) (fun _ _ h => by cases h) rfl (low' rfl)
  have r41 := Program.written r40 rfl rfl [x'] [] (d D5) ask rfl rfl rfl rfl rfl (hbr _ (.inr rfl)) (low' rfl)
  let dw (p : Lifecycle.Peer (Message E)) : Whole.Conn (Message E) := ⟨1, a1, p, .waiting 3, .before⟩
  have r42 := Program.both r41 rfl rfl (Program.step1 _ r41.1 (.spawn _ a1 2 ask true [x'] [] (d D6) rfl rfl rfl) [x'] [] (d D6) (dw D7)
    rfl rfl rfl (fun h => by cases h) (fun _ _ _ h => by cases h) (fun h => by cases h)) (low rfl)
  have r43 := Program.inner1 r42 rfl rfl [x'] [] (dw D7) rfl rfl .own (by simp) D8 (.loopGo _ rfl rfl) rfl
    (fun h => by cases h) (fun h => absurd h (nh rfl rfl)) (fun _ _ h => by cases h) rfl (low' rfl)
  have r44 := Program.both r43 rfl rfl (Program.pool_same (inv_reachable r43.1) (.wake _ rfl) rfl) (low rfl)
  -- the goroutine for the first connection
  have h45 : (T2.update a0 (blockRecord b)).find a0 = some (blockRecord b (reg 0)) := by rfl
  have hrec : blockRecord b (reg 0) =
      { reg 0 with totalDifficulty := b.header.totalDifficulty, height := b.header.height } := by
    unfold blockRecord
    rw [if_pos (.inr h0)]
  have r45 := Program.both r44 rfl rfl (.look [⟨a1, b, .sent 1⟩] [] ⟨a0, b, .height⟩ _ .weight rfl h45
    (by rw [hrec]; simp [Job.next, Relay.Job.next]) nofun) (low rfl)
  have r46 := Program.both r45 rfl rfl (.look [⟨a1, b, .sent 1⟩] [] ⟨a0, b, .weight⟩ _ .known rfl h45
    (by rw [hrec]; simp [Job.next, Relay.Job.next]) nofun) (low rfl)
  refine ⟨_, r46.1, r46.2, rfl, rfl, rfl, ?_, x', dw D8, rfl, rfl, rfl, rfl, rfl, rfl,
    ⟨by exact List.mem_cons_self, by exact List.mem_cons_of_mem _ List.mem_cons_self,
      by show ("10.0.0.1:3414" : String) ≠ "10.0.0.2:3414"; decide, ⟨rfl, rfl, rfl, rfl, rfl⟩, ?_,
      by exact List.mem_cons_self, _, h31, rfl, h0⟩, rfl, rfl⟩
  rotate_left
  · rintro (h | h | ⟨c, k, h⟩)
    · cases h
    · cases h
    · cases h
  have he : ∃ what, readStep E [] = .stop (.exit what) := ⟨_, rfl⟩
  refine Program.quiet_rest rfl rfl rfl (fun j hj => ?_) (fun z hz => ?_)
  · have hj : j ∈ [(⟨a1, b, .sent 1⟩ : Job E), ⟨a0, b, .known⟩] := hj
    simp only [List.mem_cons, List.not_mem_nil, or_false] at hj
    rcases hj with rfl | rfl
    · exact .inr (.inr ⟨_, rfl⟩)
    · exact .inl rfl
  · have hz : z ∈ [x', dw D8] := hz
    simp only [List.mem_cons, List.not_mem_nil, or_false] at hz
    rcases hz with rfl | rfl
    · refine ⟨rfl, rfl, fun t ht => ?_, rfl, rfl, ⟨_, rfl⟩, rfl, rfl, he⟩
      have ht : t ∈ [Lifecycle.Thread.sent ping true, .sent ask true, .wait] := ht
      simp only [List.mem_cons, List.not_mem_nil, or_false] at ht
      rcases ht with rfl | rfl | rfl
      · exact .inr ⟨_, _, rfl⟩
      · exact .inr ⟨_, _, rfl⟩
      · exact .inl rfl
    · refine ⟨rfl, rfl, fun t ht => ?_, rfl, rfl, ⟨_, rfl⟩, rfl, rfl, he⟩
      have ht : t ∈ [Lifecycle.Thread.sent ping true, .sent (.block b) true, .sent ask true, .wait] := ht
      simp only [List.mem_cons, List.not_mem_nil, or_false] at ht
      rcases ht with rfl | rfl | rfl | rfl
      · exact .inr ⟨_, _, rfl⟩
      · exact .inr ⟨_, _, rfl⟩
      · exact .inr ⟨_, _, rfl⟩
      · exact .inl rfl

/-- A block on the wire, and a node that has it as its head. -/
theorem sample_relay : ∃ (f : GoodFrame Toy.env) (b : Block Toy.env) (chain : Chain Toy.env), f.msg = some (.block b) ∧
    HasHash chain.head toyHash ∧ (chain.processBlock (sqlStorage _) b).1 = .ok () ∧ b.header.height = chain.height ∧
    0 < b.header.height ∧ ∃ v, (Message.block b).frame = .ok v := by
  obtain ⟨t1, -, -⟩ := toyHash_ok
  obtain ⟨v, b', h1, h2, h3, -⟩ := C14_block_roundtrip Toy.env Toy.OKPoint (fun _ => True)
    Toy.pointCodec Toy.prfCodec Toy.sortOK (by norm_num) (by norm_num) sampleBlock sampleHeader_wf
    (by intro i hi; simp [sampleBlock] at hi; rcases hi with rfl | rfl <;> rfl)
    (by intro o ho; simp [sampleBlock] at ho; subst ho; exact ⟨⟨by norm_num, by norm_num⟩, trivial, by simp⟩)
    (by intro k hk; simp [sampleBlock] at hk; subst hk; exact ⟨⟨by norm_num, by norm_num⟩, rfl⟩)
    (by simp [sampleBlock]) (by simp [sampleBlock]) (by simp [sampleBlock])
  have hl : v.length ≤ 20000000 := by
    have : (match sampleBlock.bytes with | .ok v => v.length | _ => 0) ≤ 20000000 := by decide +kernel
    rw [h1] at this
    exact this
  have hread : Block.read Toy.env v = (.ok b', []) := by simpa using h2 []
  have hb : b'.hash = .ok toyHash := by
    show b'.header.hash Toy.env = _
    rw [h3]; exact t1
  refine ⟨⟨11, v, some (.block b'), hl, .block v [] b' hread⟩, b', ⟨testnet1 _, b', b'.header.height, 0⟩, rfl, hb, ?_, rfl, ?_, ?_⟩
  · unfold Chain.processBlock
    simp only [hb, Out.bind_ok]
    rw [if_pos trivial]; rfl
  · rw [h3]; decide
  · have : (match sampleBlock.bytes with
        | .ok v => match (Block.read Toy.env v).1 with
          | .ok b => match (Message.block b).frame with
            | .ok _ => true
            | _ => false
          | _ => false
        | _ => false) = true := by decide +kernel
    rw [h1] at this
    dsimp only at this
    rw [hread] at this
    dsimp only at this
    split at this
    · exact ⟨_, ‹_›⟩
    · cases this

/-- `C124_what_a_peer_sees`, `C61_program_partial` and `C124_parts` apply, and what they say of a block that is sent
without being asked for is not said in vain. -/
example (w : World) (hw : Program.Real w) :
    ∃ (b : Block Toy.env) (chain : Chain Toy.env) (s : Program.State Toy.env) (x y : Whole.Conn (Message Toy.env)),
      HasHash chain.head toyHash ∧ Program.Reachable hostOf chain (sqlStorage _) none s ∧ s.pool.conns = [x, y] ∧
      (∀ z ∈ s.pool.conns, hostOf z.id = z.addr) ∧ y.peer.accepted = [.block b] ∧ (s.io y.id).arrived = [] ∧
      CameIn hostOf s b := by
  obtain ⟨f, b, chain, hf, hc, hb, hh, h0, -⟩ := sample_relay
  obtain ⟨s, x, y, h1, h2, -, -, h3, h4, h5, h6, -⟩ := relayed_run chain (sqlStorage _) none w hw (by decide) f b hf hb hh h0
  refine ⟨b, chain, s, x, y, hc, h1, h2, h6, h3, h5, x, by rw [h2]; simp, [f], ?_, ?_, ?_, ?_⟩
  · rw [h4]; simp [streamOf]
  · simp [messagesOf, hf]
  · rw [(C124_parts _ _ _ _ s h1).2.1]; exact hh
  · obtain ⟨-, e1, e2, -⟩ := C124_parts _ _ _ _ s h1
    rw [e1, e2]; exact .inl hb

end Gringo.Props
