import Verif.Props.FullRest
import Verif.Props.ProgramWitness
import Verif.Props.Addresses
import Verif.Spec.Survive
/-
A run of Model/Full.lean for C128: a connection is opened, the peer answers the hand with a shake and a ping in one go, and
the node comes to rest.
-/
namespace Gringo.Props
open Gringo.Spec Gringo.P2P Gringo.Program

variable {E : Env}

section
variable {u : Full.Setup} {chain : Chain E} {storage : Storage E} {mempool : Option (Transaction E → Out Unit)}
  {nonces : NonceList} {headHash : Bytes} {R : Full.State E → Prop}

/-- A set of states that is closed under the steps, where calls from outside may be restricted to those of `Add`. -/
structure Full.Closed (u : Full.Setup) (chain : Chain E) (storage : Storage E) (mempool : Option (Transaction E → Out Unit))
    (nonces : NonceList) (headHash : Bytes) (R : Full.State E → Prop) : Prop where
  head : HasHash chain.head headHash
  new : R (.new chain storage mempool nonces)
  sub : ∀ s, R s → Full.Reachable u chain storage mempool nonces s
  next : ∀ {s s' : Full.State E} {k : Lifecycle.Kind}, R s → s.prog.dead = false → s.prog.pool.panicked = false →
    Full.Step u k s s' → (hc : k = .call → Adds s s' := by simp) → R s'

theorem Full.Closed.inv (C : Full.Closed u chain storage mempool nonces headHash R) {s : Full.State E} (h : R s) :
    Full.Inv u chain storage mempool nonces s :=
  Full.inv_reachable C.head (C.sub s h)

/-- All states the program can get into. -/
theorem Full.closed (hh : HasHash chain.head headHash) : Full.Closed u chain storage mempool nonces headHash
    (Full.Reachable u chain storage mempool nonces (E := E)) :=
  ⟨hh, .new, fun _ h => h, fun h hd hp hs _ => h.next hd hp hs⟩

/-- No connection changes. -/
theorem Full.lift (hh : Full.Closed u chain storage mempool nonces headHash R) {s : Full.State E} (h : R s)
    (hd : s.prog.dead = false) (hp : s.prog.pool.panicked = false) {k : Lifecycle.Kind} {q : Whole.State (Message E)}
    (hs : Whole.Step Talk.frame ping ask s.prog.pool k q) (hc : q.conns = s.prog.pool.conns)
    (hg : q.loop = s.prog.pool.loop ∨ (Full.greets s.prog.pool.loop = false ∧ Full.greets q.loop = false))
    (hk : k ≠ .call := by simp) :
    R { s with prog := { s.prog with pool := q } } :=
  hh.next h hd hp (.prog k _ (Program.pool_same (Program.inv_reachable ((hh.inv h).alive hd)) hs hc)
    (fun _ => rfl) hg) (fun e => absurd e hk)

/-- One connection changes. -/
theorem Full.lift1 (hh : Full.Closed u chain storage mempool nonces headHash R) {s : Full.State E} (h : R s)
    (hd : s.prog.dead = false) (hp : s.prog.pool.panicked = false) {k : Lifecycle.Kind} {q : Whole.State (Message E)}
    (hs : Whole.Step Talk.frame ping ask s.prog.pool k q) (x x' : Whole.Conn (Message E))
    (hx : s.prog.pool.conns = [x]) (hc : q.conns = [x']) (hid : x'.id = x.id)
    (hr : x.peer.reader = .reading → x'.peer.reader = .reading)
    (hw : ∀ m p, x.peer.writer = .got m → x'.peer.writer = .writing m p → ∃ b, m.frame = .ok b)
    (hm : q.loop = s.prog.pool.loop → handed x' = handed x)
    (hg : q.loop = s.prog.pool.loop ∨ (Full.greets s.prog.pool.loop = false ∧ Full.greets q.loop = false))
    (hk : k ≠ .call := by simp) :
    R { s with prog := { s.prog with pool := q } } :=
  hh.next h hd hp (.prog k _ (Program.step1 s.prog ((hh.inv h).alive hd) hs [] [] x x' hx hc hid hr hw hm)
    (fun _ => rfl) hg) (fun e => absurd e hk)

/-- One more step of the goroutines of the only connection. -/
theorem Full.inner1 (hh : Full.Closed u chain storage mempool nonces headHash R) {s : Full.State E} (h : R s)
    (hd : s.prog.dead = false) (hp : s.prog.pool.panicked = false) (x : Whole.Conn (Message E))
    (hx : s.prog.pool.conns = [x]) (hl : x.lock = .before) (k : Lifecycle.Kind) (hk : k ≠ .call)
    (p : Lifecycle.Peer (Message E)) (hs : Lifecycle.Step Talk.frame k x.peer p) (hc : p.conn = 0)
    (hr : x.peer.reader = .reading → p.reader = .reading) (hheld : x.held → p.reader = x.peer.reader)
    (hw : ∀ m q, x.peer.writer = .got m → p.writer = .writing m q → ∃ b, m.frame = .ok b)
    (hm : handed { x with peer := p } = handed x) :
    R
      { s with prog := { s.prog with pool := { s.prog.pool with conns := [{ x with peer := p }] } } } := by
  have st : Whole.Step Talk.frame ping ask s.prog.pool k { s.prog.pool with conns := [{ x with peer := p }] } := by
    have st := Whole.Step.inner (ping := ping) (ask := ask) s.prog.pool [] [] x hx k p hk hs hheld
    rw [hc] at st
    have e : (if p.reader.handles = true then x.lock else .before) = x.lock := by rw [hl]; simp
    rw [e] at st
    exact st
  exact Full.lift1 hh h hd hp st x { x with peer := p } hx rfl rfl hr hw (fun _ => hm) (.inl rfl) hk

/-- A message is written. -/
theorem Full.written (hh : Full.Closed u chain storage mempool nonces headHash R) {s : Full.State E} (h : R s)
    (hd : s.prog.dead = false) (hp : s.prog.pool.panicked = false) (x : Whole.Conn (Message E)) (m : Message E)
    (hx : s.prog.pool.conns = [x]) (hl : x.lock = .before) (hw : x.peer.writer = .got m) (hf : x.peer.flag = false)
    (hc : x.peer.conn = 0) (hb : ∃ b, m.frame = .ok b) :
    R
      { s with prog := { s.prog with pool := { s.prog.pool with conns := [{ x with peer := { x.peer with
        writer := .select, wire := x.peer.wire ++ Talk.frame m,
        bytesSent := x.peer.bytesSent + UInt64.ofNat (Talk.frame m).length } }] } } } := by
  have h1 := Full.inner1 hh h hd hp x hx hl .own (by simp) { x.peer with writer := .writing m (Talk.frame m) }
    (.gotWrite _ m hw hf) hc id (fun _ => rfl) (fun m' _ e _ => by rw [hw] at e; cases e; exact hb) rfl
  have h2 := Full.inner1 hh h1 hd hp _ rfl hl .remote (by simp)
    { x.peer with writer := .writing m [], wire := x.peer.wire ++ Talk.frame m }
    (.chunk _ m (Talk.frame m) [] (by rw [List.append_nil]) (Talk.frame_ne m) hc) hc id (fun _ => rfl)
    (fun _ _ e _ => by cases e) rfl
  exact Full.inner1 hh h2 hd hp _ rfl hl .own (by simp) _ (.writeDone _ m rfl) hc id (fun _ => rfl)
    (fun _ _ e _ => by cases e) rfl

/-- At rest, when no handshake is going on. -/
theorem Full.rest_of (hh : Full.Closed u chain storage mempool nonces headHash R) {s : Full.State E} (h : R s)
    (hg : Full.greets s.prog.pool.loop = false) (hr : ProgramAtRest u.remote s.prog) : FullAtRest u s := by
  intro s' hs
  rcases Full.work_cases (hh.inv h) hs with ⟨h1, -⟩ | ⟨a, c, e, -⟩
  · exact hr _ h1
  · rw [e] at hg; cases hg

end

/-! ### The run -/

/-- Every connection is to 10.0.0.1:3414. -/
def oneSetup : Full.Setup where
  receiver := fun _ => ⟨[10, 0, 0, 1], 3414⟩
  addrString := fun _ => "10.0.0.1:3414"
  genesis := List.replicate 32 9

/-- A hundred nonces. -/
def someNonces : NonceList := ⟨0, (List.range 100).map fun n => UInt64.ofNat (n + 1000)⟩

def aShake : Shake := ⟨1, 7, 5, [97], List.replicate 32 3⟩

theorem add_first : add (fun t : String => Net.resolve noNames t.toList) [] "10.0.0.1:3414" = [("10.0.0.1:3414", PeerInfo.fresh)] := by
  have e : written 10 0 0 1 3414 = "10.0.0.1:3414" := by decide
  have ha := (admissible_written noNames id (fun _ => false) 10 0 0 1 3414).2 ⟨by decide, by decide⟩
  rw [e] at ha
  exact (C55_add _ [] _).1 ⟨ha, by simp, by simp⟩

/-- The states of a handshake with one peer: before the shake has come in, and at rest after the shake and a ping. -/
theorem greeted_run (chain : Chain E) (storage : Storage E) (mempool : Option (Transaction E → Out Unit)) (headHash : Bytes)
    {R : Full.State E → Prop} (hh : Full.Closed oneSetup chain storage mempool someNonces headHash R) (w : World) (hw : Program.Real w)
    (hmem : 20000000 ≤ E.maxAlloc) (f : GoodFrame E) (hf : f.msg = some (.ping ⟨8, 9⟩)) :
    (∃ s : Full.State E, R s ∧
      s.prog.dead = false ∧ s.prog.pool.panicked = false ∧ FullAtRest oneSetup s ∧
      s.prog.pool.loop = .greeting "10.0.0.1:3414" 0 ∧ (sentOn s 0).length = 102 ∧
      (s.sockets 0).written = (s.sockets 0).hand.length ∧ (s.sockets 0).shake = none ∧ cameOn s 0 = []) ∧
    (∃ (s : Full.State E) (x : Whole.Conn (Message E)) (m : Message E) (q : Bytes) (i : PeerInfo),
      R s ∧ s.prog.dead = false ∧ s.prog.pool.panicked = false ∧ x ∈ s.prog.pool.conns ∧ x.id = 0 ∧ x.peer.flag = false ∧
      x.peer.reader = .reading ∧ x.peer.writer = .writing m q ∧ q ≠ [] ∧ (s.prog.io 0).task = none ∧
      (s.prog.io 0).inbox = [] ∧ (s.prog.io 0).stuck = false ∧ s.prog.pool.table.find "10.0.0.1:3414" = some i ∧
      i.peer = some 0) ∧
    ∃ (s : Full.State E) (x : Whole.Conn (Message E)),
      R s ∧ s.prog.dead = false ∧ s.prog.pool.panicked = false ∧
      (s.prog.pool.loop = .select ∧ s.prog.pool.quit = false ∧ x.addr = "10.0.0.1:3414" ∧ s.prog.pool.bans = [] ∧
        s.prog.jobs = [] ∧ s.prog.pool.table.length = 1) ∧
      FullAtRest oneSetup s ∧ s.prog.pool.conns = [x] ∧ x.id = 0 ∧ x.peer.flag = false ∧
      ¬ InBan s.prog x ∧ cameOn s 0 = frameBytes 2 (shakeBody aShake) ++ frameBytes f.type f.body ∧
      s.prog.pool.next = 1 ∧ x.peer.reader = .reading ∧ (s.prog.io 0).task = none ∧ (s.prog.io 0).inbox = [] ∧ (s.sockets 0).shake = some aShake ∧
      x.peer.accepted = [.ping ⟨1, 1⟩, .getPeerAddrs ⟨7⟩, .pong ⟨chain.totalDifficulty, chain.height⟩] ∧
      ∃ i, s.prog.pool.table.find "10.0.0.1:3414" = some i ∧ i.peer = some 0 ∧ i.capabilities = 7 ∧
        i.totalDifficulty = 8 ∧ i.height = 9 := by
  let a0 := "10.0.0.1:3414"
  let fp : Bytes := Talk.frame (ping : Message E)
  let fa : Bytes := Talk.frame (ask : Message E)
  let pong : Message E := .pong ⟨chain.totalDifficulty, chain.height⟩
  let tl : PoolRun.Told := Full.told aShake
  let F : Bytes := frameBytes 2 (shakeBody aShake)
  let G : Bytes := frameBytes f.type f.body
  let one : String → Option TCPAddr := fun t => Net.resolve noNames t.toList
  have hr : ∀ a, one "" = some a → a.port = 0 := by intro a h; cases h; rfl
  have hadd : add one [] a0 = [(a0, PeerInfo.fresh)] := add_first
  let P : Lifecycle.Peer (Message E) := .new (Message E)
  let rg := PoolRun.registered 0 (Time.unix 0) tl PeerInfo.fresh
  let T0 : Table := [(a0, PeerInfo.fresh)]
  let T1 : Table := [(a0, rg)]
  let s0 : Full.State E := .new chain storage mempool someNonces
  obtain ⟨data, hdata⟩ : ∃ data, (ownHand 1001 (oneSetup.receiver 0) oneSetup.genesis).bytes = .ok data := ⟨_, by rfl⟩
  let H : Bytes := (writeMessage MsgTypeHand data).1
  have hH : H.length = 102 := by
    have : H = handFrame 1001 [10, 0, 0, 1] 3414 (List.replicate 32 9) := own_hand_frame 1001 rfl 3414 rfl hdata
    rw [this]; decide +kernel
  let N : NonceList := { someNonces with idx := 1 }
  let st (nn : NonceList) (so : Full.Socket) (io : Reading E) (t : Table) (on : List String) (n : Int) (sl : Nat) (lp : Whole.Loop)
      (cs : List (Whole.Conn (Message E))) (op : List Nat) (nx : Nat) : Full.State E :=
    { s0 with
      prog := { s0.prog with pool := ⟨t, on, n, sl, lp, cs, op, nx, false, [], [], false⟩, io := Function.update s0.prog.io 0 io }
      nonces := nn
      sockets := Function.update s0.sockets 0 so }
  let so0 : Full.Socket := { hand := [], written := 0, came := [], shake := none }
  let so1 : Full.Socket := { so0 with hand := H }
  let so2 : Full.Socket := { so1 with written := H.length }
  let so3 : Full.Socket := { so2 with came := F ++ G }
  let so4 : Full.Socket := { so3 with shake := some aShake }
  let io0 : Reading E := { inbox := [], task := none, stuck := false, arrived := [] }
  let io1 : Reading E := { io0 with inbox := G, arrived := G }
  let io2 : Reading E := { io1 with inbox := [], task := some (.ping ⟨8, 9⟩) }
  let io3 : Reading E := { io1 with inbox := [] }
  have e0 : R (st someNonces so0 io0 [] [] 0 0 .select [] [] 0) := by
    have : st someNonces so0 io0 [] [] 0 0 .select [] [] 0 = s0 := by
      simp only [st]
      rw [show Function.update s0.prog.io 0 io0 = s0.prog.io from Function.update_eq_self 0 _,
        show Function.update s0.sockets 0 so0 = s0.sockets from Function.update_eq_self 0 _]
      rfl
    rw [this]
    exact hh.new
  have e1 : R (st someNonces so0 io0 T0 [] 0 0 .select [] [] 0) :=
    hh.next e0 rfl rfl (.prog .call _ (Program.pool_same (Program.inv_reachable ((hh.inv e0).alive rfl))
      (by
        have := Whole.Step.add (frame := Talk.frame) (ping := ping) (ask := ask) (st someNonces so0 io0 [] [] 0 0 .select [] [] 0).prog.pool a0 one hr
        rw [show add one _ a0 = T0 from hadd] at this
        exact this) rfl) (fun _ => rfl) (.inl rfl))
      (fun _ => ⟨noNames, 10, 0, 0, 1, 3414, by
        rw [show s!"{(10 : UInt8).toNat}.{(0 : UInt8).toNat}.{(0 : UInt8).toNat}.{(1 : UInt8).toNat}:{(3414 : UInt16).toNat}" = a0 by decide]
        exact congrArg (fun t => ({ s0.prog.pool with table := t } : Whole.State (Message E))) hadd.symm⟩)
  have e3 : R (st someNonces so0 io0 T0 [] 0 1 .choosing [] [] 0) :=
    Full.lift hh e1 rfl rfl (.take _ rfl (show 0 < 15 by decide)) rfl (.inr ⟨rfl, rfl⟩)
  have e4 : R (st someNonces so0 io0 T0 [] 0 1 (.connecting a0) [] [] 0) :=
    Full.lift hh e3 rfl rfl (.choose _ T0 T0 rfl (.refl _) (.refl _)) rfl (.inr ⟨rfl, rfl⟩)
  have free : ∀ {nn so io t on n sl lp cs op nx a}, Whole.Loop.holds lp = none →
      ¬ (st nn so io t on n sl lp cs op nx).prog.pool.locked a := by
    rintro nn so io t on n sl lp cs op nx a hl (h | h | ⟨c, k, h⟩)
    · have h : lp.holds = some a := h
      rw [hl] at h; cases h
    · cases h
    · cases h
  have e5 : R (st someNonces so0 io0 T0 [] 0 1 (.dialing a0) [] [] 0) :=
    Full.lift hh e4 rfl rfl (.dial _ a0 PeerInfo.fresh rfl (by decide) (show (0 : Int) ≤ 15 by decide)
      (show T0.find a0 = _ by decide +kernel) (free rfl) (by decide)) rfl (.inr ⟨rfl, rfl⟩)
  have upS : ∀ (a b : Full.Socket), Function.update (Function.update s0.sockets 0 a) 0 b = Function.update s0.sockets 0 b :=
    fun a b => Function.update_idem ..
  have upI : ∀ (a b : Reading E), Function.update (Function.update s0.prog.io 0 a) 0 b = Function.update s0.prog.io 0 b :=
    fun a b => Function.update_idem ..
  have atS : ∀ a : Full.Socket, Function.update s0.sockets 0 a 0 = a := fun a => Function.update_self ..
  have atI : ∀ a : Reading E, Function.update s0.prog.io 0 a 0 = a := fun a => Function.update_self ..
  have e6 : R (st N so1 io0 T0 [] 0 1 (.greeting a0 0) [] [0] 1) := by
    have := hh.next e5 rfl rfl (.opens a0 1001 N data rfl (show someNonces.next = .ok (1001, ⟨1, someNonces.list⟩) by decide +kernel) hdata)
    dsimp only [st] at this
    rw [upS, atS] at this
    exact this
  have e7 : R (st N so2 io0 T0 [] 0 1 (.greeting a0 0) [] [0] 1) := by
    have := hh.next e6 rfl rfl (.writes a0 0 H.length rfl (by
      show (Function.update s0.sockets 0 so1 0).written < _
      rw [atS, hH]; show 0 < 102; decide) (by
      show _ ≤ (Function.update s0.sockets 0 so1 0).hand.length
      rw [atS]))
    dsimp only [st] at this
    rw [upS, atS] at this
    exact this
  have e8 : R (st N so3 io0 T0 [] 0 1 (.greeting a0 0) [] [0] 1) := by
    have := hh.next e7 rfl rfl (.early 0 (F ++ G) (show 0 < 1 by decide) (by
      show (Function.update s0.sockets 0 so2 0).shake = none
      rw [atS]))
    dsimp only [st] at this
    rw [upS, atS] at this
    exact this
  have e9 : R (st N so4 io1 T0 [] 0 1 (.counting a0 0 tl 0) [] [0] 1) := by
    obtain ⟨-, hrd⟩ := C23_shake_roundtrip E aShake rfl rfl (by decide) (by
      show 1 ≤ E.maxAlloc
      omega)
    have hb : aShake.bytes = shakeBody aShake := (Full.shakeBody_eq (by decide)).symm
    obtain ⟨-, -, n, -, hrm⟩ := C03_roundtrip MsgTypeShake (Shake.read E) aShake.bytes _ hrd (by decide +kernel)
    have hrm := hrm G
    rw [write_eq_frame _ _ (by decide +kernel), hb] at hrm
    have hrm : Full.readShake E (F ++ G) = (.ok (aShake, n), G) := hrm
    have := hh.next e8 rfl rfl (.shake a0 0 aShake n G rfl (by
      show (Function.update s0.sockets 0 so3 0).written = (Function.update s0.sockets 0 so3 0).hand.length
      rw [atS]) (by
      show Full.readShake E (Function.update s0.sockets 0 so3 0).came = _
      rw [atS]; exact hrm) rfl)
    dsimp only [st] at this
    rw [upS, atS, upI, atI] at this
    exact this
  let c (p : Lifecycle.Peer (Message E)) (wt : Whole.Watch) : Whole.Conn (Message E) := ⟨0, a0, p, wt, .before⟩
  have e10 : R (st N so4 io1 T1 [a0] 1 1 (.starting a0 0) [c P .unborn] [0] 1) :=
    hh.next e9 rfl rfl (.prog .own _ (.pool .own _ (.register _ a0 0 tl (Time.unix 0) 0 rfl) (fun _ h => by cases h)
      (fun _ h => by cases h) (fun _ _ h => by cases h)) (fun _ => rfl) (.inr ⟨rfl, rfl⟩))
  let P1 : Lifecycle.Peer (Message E) := { P with wg := 2, reader := .loop, writer := .select }
  have e11 : R (st N so4 io1 T1 [a0] 1 1 (.pinging a0 0) [c P1 .unborn] [0] 1) :=
    Full.lift1 hh e10 rfl rfl (.start _ a0 [] [] (c P .unborn) rfl rfl P1 rfl rfl rfl) (c P .unborn) (c P1 .unborn) rfl rfl rfl
      (fun h => by cases h) (fun _ _ h => by cases h) (fun h => by cases h) (.inr ⟨rfl, rfl⟩)
  let P2 : Lifecycle.Peer (Message E) := { P1 with threads := [.send ping] }
  have e12 : R (st N so4 io1 T1 [a0] 1 1 (.pinged a0 0 0) [c P2 .unborn] [0] 1) :=
    Full.lift1 hh e11 rfl rfl (.ping _ a0 [] [] (c P1 .unborn) rfl rfl) (c P1 .unborn) (c P2 .unborn) rfl rfl rfl
      (fun h => by cases h) (fun _ _ h => by cases h) (fun h => by cases h) (.inr ⟨rfl, rfl⟩)
  let P3 : Lifecycle.Peer (Message E) := { P2 with threads := [.sent ping true], writer := .got ping, accepted := [ping] }
  have e13 : R (st N so4 io1 T1 [a0] 1 1 (.pinged a0 0 0) [c P3 .unborn] [0] 1) :=
    Full.inner1 hh e12 rfl rfl (c P2 .unborn) rfl rfl .own (by simp) P3 (.sendTaken _ [] [] ping rfl rfl) rfl
      (fun h => by cases h) (fun _ => rfl) (fun _ _ h => by cases h) rfl
  let P4 : Lifecycle.Peer (Message E) := { P3 with writer := .select, wire := [] ++ fp, bytesSent := 0 + UInt64.ofNat fp.length }
  have e14 : R (st N so4 io1 T1 [a0] 1 1 (.pinged a0 0 0) [c P4 .unborn] [0] 1) :=
    Full.written hh e13 rfl rfl (c P3 .unborn) ping rfl rfl rfl rfl rfl ⟨_, rfl⟩
  let P5 : Lifecycle.Peer (Message E) := { P4 with threads := [.sent ping true, .send ask] }
  have e15 : R (st N so4 io1 T1 [a0] 1 1 (.asked a0 0 1) [c P5 .unborn] [0] 1) :=
    Full.lift1 hh e14 rfl rfl (.ask _ a0 0 ping true [] [] (c P4 .unborn) rfl rfl rfl) (c P4 .unborn) (c P5 .unborn) rfl rfl rfl
      (fun h => by cases h) (fun _ _ h => by cases h) (fun h => by cases h) (.inr ⟨rfl, rfl⟩)
  let P6 : Lifecycle.Peer (Message E) :=
    { P5 with threads := [.sent ping true, .sent ask true], writer := .got ask, accepted := [ping, ask] }
  have e16 : R (st N so4 io1 T1 [a0] 1 1 (.asked a0 0 1) [c P6 .unborn] [0] 1) :=
    Full.inner1 hh e15 rfl rfl (c P5 .unborn) rfl rfl .own (by simp) P6 (.sendTaken _ [.sent ping true] [] ask rfl rfl) rfl
      (fun h => by cases h) (fun _ => rfl) (fun _ _ h => by cases h) rfl
  let P7 : Lifecycle.Peer (Message E) :=
    { P6 with writer := .select, wire := P4.wire ++ fa, bytesSent := P4.bytesSent + UInt64.ofNat fa.length }
  have e17 : R (st N so4 io1 T1 [a0] 1 1 (.asked a0 0 1) [c P7 .unborn] [0] 1) :=
    Full.written hh e16 rfl rfl (c P6 .unborn) ask rfl rfl rfl rfl rfl ⟨_, rfl⟩
  let P8 : Lifecycle.Peer (Message E) := { P7 with threads := [.sent ping true, .sent ask true, .wait] }
  have e18 : R (st N so4 io1 T1 [a0] 1 1 .sleeping [c P8 (.waiting 2)] [0] 1) :=
    Full.lift1 hh e17 rfl rfl (.spawn _ a0 1 ask true [] [] (c P7 .unborn) rfl rfl rfl) (c P7 .unborn) (c P8 (.waiting 2)) rfl rfl rfl
      (fun h => by cases h) (fun _ _ h => by cases h) (fun h => by cases h) (.inr ⟨rfl, rfl⟩)
  have e19 : R (st N so4 io1 T1 [a0] 1 1 .select [c P8 (.waiting 2)] [0] 1) :=
    Full.lift hh e18 rfl rfl (.wake _ rfl) rfl (.inr ⟨rfl, rfl⟩)
  have nh : ∀ {x : Whole.Conn (Message E)}, x.lock = .before → x.peer.reader = .loop → ¬ x.held := by
    rintro x h1 h2 (h | h | h)
    · rw [h1] at h; cases h
    · rw [h2] at h; cases h
    · rw [h2] at h; cases h
  let P9 : Lifecycle.Peer (Message E) := { P8 with reader := .reading }
  have e20 : R (st N so4 io1 T1 [a0] 1 1 .select [c P9 (.waiting 2)] [0] 1) :=
    Full.inner1 hh e19 rfl rfl (c P8 (.waiting 2)) rfl rfl .own (by simp) P9 (.loopGo _ rfl rfl) rfl
      (fun h => by cases h) (fun h => absurd h (nh rfl rfl)) (fun _ _ h => by cases h) rfl
  have hread := readStep_good E hmem f.type f.body f.msg f.size f.carries []
  rw [List.append_nil, hf] at hread
  have upArr : ∀ (a b : Reading E), b.arrived = a.arrived → ∀ d,
      (Function.update (Function.update s0.prog.io 0 a) 0 b d).arrived = (Function.update s0.prog.io 0 a d).arrived := by
    intro a b e d
    by_cases hd : d = 0
    · subst hd; rw [Function.update_self, Function.update_self]; exact e
    · rw [Function.update_of_ne hd]
  have e21 : R (st N so4 io2 T1 [a0] 1 1 .select [c P9 (.waiting 2)] [0] 1) := by
    have hst : Program.Step oneSetup.remote .own (st N so4 io1 T1 [a0] 1 1 .select [c P9 (.waiting 2)] [0] 1).prog _ :=
      .read (c P9 (.waiting 2)) (.ping ⟨8, 9⟩) _ _ List.mem_cons_self rfl (by
        show (Function.update s0.prog.io 0 io1 0).task = none
        rw [atI]) (by
        show readStep E (Function.update s0.prog.io 0 io1 0).inbox = _
        rw [atI]; exact hread)
    have := hh.next e20 rfl rfl (.prog .own _ hst (Full.own_arrived hst) (.inl rfl))
    dsimp only [st] at this
    rw [upI, atI] at this
    exact this
  let T2 : Table := [(a0, { rg with totalDifficulty := 8, height := 9 })]
  let s21 := st N so4 io2 T1 [a0] 1 1 .select [c P9 (.waiting 2)] [0] 1
  let snd := sender oneSetup.remote (c P9 (.waiting 2))
  have known : Known s21.prog.node snd := by
    show a0 ∈ T1.map (·.1)
    exact List.mem_singleton.2 rfl
  have hp : processMessage w s21.prog.node snd (.ping ⟨8, 9⟩) =
      { node := { s21.prog.node with table := T2 }, effects := [.reply (.pong ⟨chain.totalDifficulty, chain.height⟩)], ended := .done } := by
    rw [process_known w s21.prog.node _ known]
    rfl
  let P10 : Lifecycle.Peer (Message E) := { P9 with reader := .replying pong }
  have e22 : R (st N so4 io3 T2 [a0] 1 1 .select [c P10 (.waiting 2)] [0] 1) := by
    have hst : Program.Step oneSetup.remote .own s21.prog _ :=
      .answer [] [] (c P9 (.waiting 2)) w (.ping ⟨8, 9⟩) pong rfl rfl (by
        show (Function.update s0.prog.io 0 io2 0).task = _
        rw [atI]) (by
        show (Function.update s0.prog.io 0 io2 0).stuck = _
        rw [atI]) hw (fun _ => free rfl) (by rw [hp]) (by rw [hp]; rfl)
    have := hh.next e21 rfl rfl (.prog .own _ hst (Full.own_arrived hst) (.inl rfl))
    unfold Program.State.handled at this
    rw [hp] at this
    dsimp only [s21, st] at this
    rw [upI, atI] at this
    exact this
  let P11 : Lifecycle.Peer (Message E) := { P10 with reader := .loop, writer := .got pong, accepted := [ping, ask, pong], replies := [pong] }
  have e23 : R (st N so4 io3 T2 [a0] 1 1 .select [c P11 (.waiting 2)] [0] 1) :=
    Full.inner1 hh e22 rfl rfl (c P10 (.waiting 2)) rfl rfl .own (by simp) P11 (.replyTaken _ pong rfl rfl) rfl
      (fun h => by cases h) (by rintro (h | h | h) <;> cases h) (fun _ _ h => by cases h) rfl
  let P11b : Lifecycle.Peer (Message E) := { P11 with writer := .writing pong (Talk.frame pong) }
  have e23b : R (st N so4 io3 T2 [a0] 1 1 .select [c P11b (.waiting 2)] [0] 1) :=
    Full.inner1 hh e23 rfl rfl (c P11 (.waiting 2)) rfl rfl .own (by simp) P11b (.gotWrite _ pong rfl rfl) rfl
      (fun h => by cases h) (fun h => absurd h (nh rfl rfl)) (fun m' _ e _ => by cases e; exact ⟨_, rfl⟩) rfl
  let P11c : Lifecycle.Peer (Message E) := { P11b with reader := .reading }
  have e23c : R (st N so4 io3 T2 [a0] 1 1 .select [c P11c (.waiting 2)] [0] 1) :=
    Full.inner1 hh e23b rfl rfl (c P11b (.waiting 2)) rfl rfl .own (by simp) P11c (.loopGo _ rfl rfl) rfl
      (fun h => by cases h) (fun h => absurd h (nh rfl rfl)) (fun _ _ h => by cases h) rfl
  let P12 : Lifecycle.Peer (Message E) :=
    { P11 with writer := .select, wire := P7.wire ++ Talk.frame pong, bytesSent := P7.bytesSent + UInt64.ofNat (Talk.frame pong).length }
  have e24 : R (st N so4 io3 T2 [a0] 1 1 .select [c P12 (.waiting 2)] [0] 1) :=
    Full.written hh e23 rfl rfl (c P11 (.waiting 2)) pong rfl rfl rfl rfl rfl ⟨_, rfl⟩
  let P13 : Lifecycle.Peer (Message E) := { P12 with reader := .reading }
  have e25 : R (st N so4 io3 T2 [a0] 1 1 .select [c P13 (.waiting 2)] [0] 1) :=
    Full.inner1 hh e24 rfl rfl (c P12 (.waiting 2)) rfl rfl .own (by simp) P13 (.loopGo _ rfl rfl) rfl
      (fun h => by cases h) (fun h => absurd h (nh rfl rfl)) (fun _ _ h => by cases h) rfl
  refine ⟨⟨_, e7, rfl, rfl, ?_, rfl, ?_, ?_, ?_, ?_⟩,
    ⟨_, c P11c (.waiting 2), pong, Talk.frame pong, { rg with totalDifficulty := 8, height := 9 }, e23c, rfl, rfl,
      List.mem_cons_self, rfl, rfl, rfl, rfl, Talk.frame_ne pong, ?_, ?_, ?_, rfl, rfl⟩, _, c P13 (.waiting 2), e25, rfl, rfl, ?_, Full.rest_of hh e25 rfl ?_, rfl, rfl, rfl, ?_, ?_, rfl, rfl, ?_, ?_, ?_,
    rfl, ?_⟩
  · intro s' hs
    rcases Full.work_cases (hh.inv e7) hs with ⟨h1, -⟩ | ⟨a, d, e, h2⟩
    · exact Full.silent_rest (a := a0) (c := 0) rfl rfl rfl rfl rfl _ h1
    · have e : Whole.Loop.greeting a0 0 = .greeting a d := e
      cases e
      rcases h2 with ⟨-, h2, h3, h4⟩ | ⟨h2, -⟩
      · rw [h2] at h4
        have h3 : (Function.update s0.sockets 0 so2 0).written < _ := h3
        have h4 : _ ≤ (Function.update s0.sockets 0 so2 0).hand.length := h4
        rw [atS] at h3 h4
        exact absurd (Nat.lt_of_lt_of_le h3 h4) (Nat.lt_irrefl _)
      · refine absurd ?_ (h2 "EOF")
        show (Full.readShake E (Function.update s0.sockets 0 so2 0).came).1 = _
        rw [atS]
        rfl
  · show (((Function.update s0.sockets 0 so2 0).hand.take (Function.update s0.sockets 0 so2 0).written) ++ []).length = 102
    rw [atS, List.append_nil, List.take_length]
    exact hH
  · show (Function.update s0.sockets 0 so2 0).written = (Function.update s0.sockets 0 so2 0).hand.length
    rw [atS]
  · show (Function.update s0.sockets 0 so2 0).shake = none
    rw [atS]
  · show (Function.update s0.sockets 0 so2 0).came = []
    rw [atS]
  · show (Function.update s0.prog.io 0 io3 0).task = none
    rw [atI]
  · show (Function.update s0.prog.io 0 io3 0).inbox = []
    rw [atI]
  · show (Function.update s0.prog.io 0 io3 0).stuck = false
    rw [atI]
  · exact ⟨rfl, rfl, rfl, rfl, rfl, rfl⟩
  · refine Program.quiet_rest rfl rfl rfl (fun j hj => by cases hj) (fun z hz => ?_)
    rw [List.mem_singleton.1 (show z ∈ [c P13 (.waiting 2)] from hz)]
    refine ⟨rfl, rfl, fun t ht => ?_, rfl, rfl, ⟨_, rfl⟩, rfl, ?_, ?_⟩
    · have ht : t ∈ [Lifecycle.Thread.sent ping true, .sent ask true, .wait] := ht
      simp only [List.mem_cons, List.not_mem_nil, or_false] at ht
      rcases ht with rfl | rfl | rfl
      · exact .inr ⟨_, _, rfl⟩
      · exact .inr ⟨_, _, rfl⟩
      · exact .inl rfl
    · show (Function.update s0.prog.io 0 io3 0).task = none
      rw [atI]
    · show ∃ what, readStep E (Function.update s0.prog.io 0 io3 0).inbox = _
      rw [atI]
      exact ⟨_, rfl⟩
  · rintro (h | h)
    · cases h
    · have h : (Function.update s0.prog.io 0 io3 0).stuck = true := h
      rw [atI] at h
      cases h
  · show (Function.update s0.sockets 0 so4 0).came = _
    rw [atS]
  · show (Function.update s0.prog.io 0 io3 0).task = none
    rw [atI]
  · show (Function.update s0.prog.io 0 io3 0).inbox = []
    rw [atI]
  · show (Function.update s0.sockets 0 so4 0).shake = some aShake
    rw [atS]
  · exact ⟨{ rg with totalDifficulty := 8, height := 9 }, rfl, rfl, rfl, rfl, rfl⟩

/-- A ping on the wire. -/
def pingFrame : GoodFrame E := ⟨3, be64 8 ++ be64 9, some (.ping ⟨8, 9⟩), by decide +kernel, .ping _ [] ⟨8, 9⟩ (by rfl)⟩

/-- `C128_first_bytes`, `C128_conversation`, `C128_record`, `C128_ends`, `C128_handshake_at_rest` and `C128_at_rest` apply,
and what they say is not said in vain. -/
example (w : World) (hw : Program.Real w) :
    (∃ s : Full.State Toy.env, Full.Reachable oneSetup toyNode.chain toyNode.storage none someNonces s ∧
      FullAtRest oneSetup s ∧ s.prog.pool.loop = .greeting "10.0.0.1:3414" 0 ∧
      ∃ nonce ∈ someNonces.list, sentOn s 0 = handFrame nonce [10, 0, 0, 1] 3414 oneSetup.genesis) ∧
    ∃ (s : Full.State Toy.env) (x : Whole.Conn (Message Toy.env)),
      Full.Reachable oneSetup toyNode.chain toyNode.storage none someNonces s ∧ FullAtRest oneSetup s ∧
      s.prog.pool.conns = [x] ∧ x.peer.accepted = [.ping ⟨1, 1⟩, .getPeerAddrs ⟨7⟩, .pong ⟨10, 0⟩] ∧
      (∃ nonce ∈ someNonces.list, ∃ wire, sentOn s 0 = handFrame nonce [10, 0, 0, 1] 3414 oneSetup.genesis ++ wire ∧
        AllWritten x.peer.accepted wire) ∧
      Said s "10.0.0.1:3414" 8 9 := by
  obtain ⟨⟨s, h1, h2, h3, h4, h5, -⟩, -, t, x, t1, t2, t3, -, t5, t6, t7, t8, -, -, -, -, -, -, -, t9, i, t10, t11, -, t12, t13⟩ :=
    greeted_run toyNode.chain toyNode.storage none _ (Full.closed toyNode_head) w hw (by decide) pingFrame rfl
  refine ⟨⟨s, h1, h4, h5, ?_⟩, t, x, t1, t5, t6, t9, ?_, ?_⟩
  · exact (C128_handshake_at_rest (by decide) oneSetup _ _ _ _ _ toyNode_head s h1 h2 h3 h4 _ 0 h5 [10, 0, 0, 1] rfl 3414 rfl
      rfl).1
  · have := (C128_at_rest (by decide) oneSetup _ _ _ _ _ toyNode_head t t1 t2 t3 t5 x (by rw [t6]; simp) [10, 0, 0, 1] rfl 3414
      rfl rfl).2 t8
    rw [t7] at this
    obtain ⟨nonce, hn, wire, g1, g2, -⟩ := this
    exact ⟨nonce, hn, wire, g1, g2⟩
  · rcases C128_record oneSetup _ _ _ _ _ toyNode_head t t1 _ i t10 with ⟨e, -⟩ | ⟨-, h⟩
    · rw [t11] at e; cases e
    · rw [t12, t13] at h; exact h

end Gringo.Props
