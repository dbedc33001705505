import Verif.Props.Reason
import Verif.Proofs.ProgramRelay
/-
C152: whether a node notices that a peer has fallen silent.
-/
namespace Gringo.Props
open Gringo.Spec Gringo.P2P Gringo.Lifecycle

variable {E : Env}

/-- The message is a ping. -/
def isPing : Message E → Bool
  | .ping _ => true
  | _ => false

theorem pings_of_hellos (l : List (Message E)) : l.filter isPing = (l.filter isHello).filter isPing := by
  rw [List.filter_filter]
  congr 1
  funext m
  cases m <;> rfl

/-- **C152 is false of the code.** Take any run in which a connection is in use at the beginning, nobody is banned, the
node is not stopped and neither the peer nor the network ends the connection. Let it be as long as one likes, and let
anything come in on the connection, or nothing at all. In the end the connection is still in use, and at most one ping was ever sent
on it. -/
theorem C152_refuted (remote : Nat → String) (chain : Chain E) (storage : Storage E)
    (mempool : Option (Transaction E → Out Unit)) (headHash : Bytes) (hh : HasHash chain.head headHash)
    (s t : Program.State E) (x : Whole.Conn (Message E)) (hx : x ∈ s.pool.conns) (hu : InUse x.peer)
    (hr : Relation.ReflTransGen (Undisturbed remote x.id) s t) (h : Program.Reachable remote chain storage mempool t) :
    ∃ y ∈ t.pool.conns, y.id = x.id ∧ y.addr = x.addr ∧ InUse y.peer ∧
      WrittenTo y.peer.accepted y.peer.wire ∧ (y.peer.accepted.filter isPing).length ≤ 1 := by
  obtain ⟨y, hy, e1, e2, e3⟩ := C151 remote s t x hx hu hr
  obtain ⟨c1, c2, -⟩ := C124_what_a_peer_sees remote chain storage mempool headHash hh t h y hy
  refine ⟨y, hy, e1, e2, e3, c1, ?_⟩
  rw [pings_of_hellos]
  exact (c2.filter isPing).length_le

/-- **C152, the part that holds.** Whenever the loop of the pool is between two connections, every connection that was
not disconnected has been sent a ping, exactly one. Missing: that it is sent again, and that anything follows when it is
not answered, which are false (`C152_refuted`). -/
theorem C152_once_partial (remote : Nat → String) (chain : Chain E) (storage : Storage E)
    (mempool : Option (Transaction E → Out Unit)) (headHash : Bytes) (hh : HasHash chain.head headHash)
    (s : Program.State E) (h : Program.Reachable remote chain storage mempool s) (hl : s.pool.loop = .select)
    (x : Whole.Conn (Message E)) (hx : x ∈ s.pool.conns) (hf : x.peer.flag = false) :
    x.peer.accepted.filter isPing = [.ping ⟨1, 1⟩] := by
  have g := (Program.sent_reachable hh h).conns x hx
  have hst := g.staged
  rw [show Program.stage s.pool.loop x.id = .done by rw [hl]; rfl] at hst
  rw [pings_of_hellos, g.taken]
  obtain ⟨b, hb⟩ := hst
  have hm : .sent Program.ping b ∈ x.peer.threads := by
    refine List.mem_of_mem_filter (p := Program.helloThread) ?_
    rcases hb with hb | ⟨b', hb⟩ <;> rw [hb] <;> exact List.mem_cons_self
  cases b with
  | false =>
    have hp := ((Whole.inv_reachable (Program.inv_reachable h).whole).conns x hx).peer
    rw [Program.call_done hp hm] at hf
    cases hf
  | true =>
    rcases hb with hb | ⟨b', hb⟩
    · rw [hb]; rfl
    · rw [hb]; cases b' <;> rfl

/-- A step of the pool that changes no connection. -/
theorem undisturbed_pool {remote : Nat → String} {chain : Chain E} {storage : Storage E}
    {mempool : Option (Transaction E → Out Unit)} (s : Program.State E)
    (h : Program.Reachable remote chain storage mempool s) (c : Nat) {q : Whole.State (Message E)}
    (hs : Whole.Step Talk.frame Program.ping Program.ask s.pool .own q) (hc : q.conns = s.pool.conns) (hb : q.bans = [])
    (hcl : q.closers = []) : Undisturbed remote c s { s with pool := q } := by
  have same : ∀ x ∈ s.pool.conns, ∀ y ∈ q.conns, y.id = x.id → y = x := fun x hx y hy e =>
    Whole.same_id (Program.inv_reachable h).whole (hc ▸ hy) hx e
  refine ⟨.own, .pool .own q hs ?_ ?_ ?_, hb, hcl, fun h => by cases h.1⟩
  · intro x hx y hy e hr; rw [same x hx y hy e]; exact .inl hr
  · intro x hx y hy e m p h1 h2; rw [same x hx y hy e, h1] at h2; cases h2
  · intro _ x hx y hy e; rw [same x hx y hy e]

open Gringo.Program in
/-- A connection is opened and the peer is sent the ping. It never says anything. The loop of the pool makes another
turn, finds nobody else to connect to, and all is as before. -/
theorem silent_run (chain : Chain E) (storage : Storage E) (mempool : Option (Transaction E → Out Unit)) :
    ∃ (s t : Program.State E) (x : Whole.Conn (Message E)), Program.Reachable hostOf chain storage mempool s ∧
      s.pool.loop = .select ∧ x ∈ s.pool.conns ∧ x.peer.flag = false ∧ InUse x.peer ∧
      Relation.ReflTransGen (Undisturbed hostOf x.id) s t ∧ Program.Reachable hostOf chain storage mempool t ∧
      t.pool.loop = .select ∧ t.pool.slots = s.pool.slots + 1 ∧ (t.io x.id).arrived = [] := by
  let a0 := "10.0.0.1:3414"
  let fp : Bytes := Talk.frame (Program.ping : Message E)
  let told : PoolRun.Told := ⟨ProtocolVersion, 1, CapFullNode⟩
  have hr : ∀ a, twoHosts "" = some a → a.port = 0 := by intro a h; rw [(by decide +kernel : twoHosts "" = none)] at h; cases h
  let P : Lifecycle.Peer (Message E) := .new (Message E)
  let T0 : Table := [(a0, PeerInfo.fresh)]
  let T1 : Table := [(a0, PoolRun.registered 0 (Time.unix 0) told PeerInfo.fresh)]
  let st (t : Table) (on : List String) (n : Int) (sl : Nat) (lp : Whole.Loop) (cs : List (Whole.Conn (Message E))) (op : List Nat)
      (nx : Nat) : Program.State E :=
    { (Program.State.new chain storage mempool) with pool := ⟨t, on, n, sl, lp, cs, op, nx, false, [], [], false⟩ }
  let R (s : Program.State E) : Prop := Program.Reachable hostOf chain storage mempool s
  have e0 : R (st [] [] 0 0 .select [] [] 0) := .new
  have e1 : R (st T0 [] 0 0 .select [] [] 0) := Program.lift _ e0 rfl rfl (.add _ a0 twoHosts hr) rfl
  have e3 : R (st T0 [] 0 1 .choosing [] [] 0) := Program.lift _ e1 rfl rfl (.take _ rfl (show 0 < 15 by decide)) rfl
  have e4 : R (st T0 [] 0 1 (.connecting a0) [] [] 0) :=
    Program.lift _ e3 rfl rfl (.choose _ T0 T0 rfl (.refl _) (.refl _)) rfl
  have free : ∀ {t on n sl lp cs op nx a}, Whole.Loop.holds lp = none → ¬ (st t on n sl lp cs op nx).pool.locked a := by
    rintro t on n sl lp cs op nx a hl (h | h | ⟨c, k, h⟩)
    · have h : lp.holds = some a := h
      rw [hl] at h; cases h
    · cases h
    · cases h
  have e5 : R (st T0 [] 0 1 (.dialing a0) [] [] 0) :=
    Program.lift _ e4 rfl rfl (.dial _ a0 PeerInfo.fresh rfl (by decide) (show (0 : Int) ≤ 15 by decide) (show T0.find a0 = _ by decide +kernel) (free rfl) (by decide)) rfl
  have e6 : R (st T0 [] 0 1 (.greeting a0 0) [] [0] 1) := Program.lift _ e5 rfl rfl (.opens _ a0 rfl) rfl
  have e7 : R (st T0 [] 0 1 (.counting a0 0 told 0) [] [0] 1) :=
    Program.lift _ e6 rfl rfl (.see _ a0 0 told rfl rfl) rfl
  let c (p : Lifecycle.Peer (Message E)) (wt : Whole.Watch) : Whole.Conn (Message E) := ⟨0, a0, p, wt, .before⟩
  have e8 : R (st T1 [a0] 1 1 (.starting a0 0) [c P .unborn] [0] 1) :=
    Program.liftNew _ e7 rfl rfl (.register _ a0 0 told (Time.unix 0) 0 rfl) (c P .unborn) rfl (fun _ h => by cases h)
  let P1 : Lifecycle.Peer (Message E) := { P with wg := 2, reader := .loop, writer := .select }
  have e9 : R (st T1 [a0] 1 1 (.pinging a0 0) [c P1 .unborn] [0] 1) :=
    Program.lift1 _ e8 rfl rfl (.start _ a0 [] [] (c P .unborn) rfl rfl P1 rfl rfl rfl) [] [] (c P .unborn) (c P1 .unborn) rfl rfl rfl
      (fun h => by cases h) (fun _ _ h => by cases h) (fun h => by cases h)
  let P2 : Lifecycle.Peer (Message E) := { P1 with threads := [.send ping] }
  have e10 : R (st T1 [a0] 1 1 (.pinged a0 0 0) [c P2 .unborn] [0] 1) :=
    Program.lift1 _ e9 rfl rfl (.ping _ a0 [] [] (c P1 .unborn) rfl rfl) [] [] (c P1 .unborn) (c P2 .unborn) rfl rfl rfl
      (fun h => by cases h) (fun _ _ h => by cases h) (fun h => by cases h)
  let P3 : Lifecycle.Peer (Message E) := { P2 with threads := [.sent ping true], writer := .got ping, accepted := [ping] }
  have e11 : R (st T1 [a0] 1 1 (.pinged a0 0 0) [c P3 .unborn] [0] 1) :=
    Program.lift1 _ e10 rfl rfl (.inner _ [] [] (c P2 .unborn) rfl .own P3 (by simp) (.sendTaken _ [] [] ping rfl rfl) (fun _ => rfl))
      [] [] (c P2 .unborn) (c P3 .unborn) rfl rfl rfl (fun h => by cases h) (fun _ _ h => by cases h) (fun _ => rfl)
  let P4 : Lifecycle.Peer (Message E) := { P3 with threads := [.sent ping true, .send ask] }
  have e12 : R (st T1 [a0] 1 1 (.asked a0 0 1) [c P4 .unborn] [0] 1) :=
    Program.lift1 _ e11 rfl rfl (.ask _ a0 0 ping true [] [] (c P3 .unborn) rfl rfl rfl) [] [] (c P3 .unborn) (c P4 .unborn) rfl rfl rfl
      (fun h => by cases h) (fun _ _ _ h => by cases h) (fun h => by cases h)
  let P5 : Lifecycle.Peer (Message E) := { P4 with writer := .writing ping (fp) }
  have e13 : R (st T1 [a0] 1 1 (.asked a0 0 1) [c P5 .unborn] [0] 1) :=
    Program.lift1 _ e12 rfl rfl (.inner _ [] [] (c P4 .unborn) rfl .own P5 (by simp) (.gotWrite _ ping rfl rfl) (fun _ => rfl))
      [] [] (c P4 .unborn) (c P5 .unborn) rfl rfl rfl (fun h => by cases h) (fun m _ h _ => by cases h; exact ⟨_, rfl⟩) (fun _ => rfl)
  let P6 : Lifecycle.Peer (Message E) := { P5 with writer := .writing ping [], wire := fp }
  have e14 : R (st T1 [a0] 1 1 (.asked a0 0 1) [c P6 .unborn] [0] 1) :=
    Program.lift1 _ e13 rfl rfl (.inner _ [] [] (c P5 .unborn) rfl .remote P6 (by simp)
      (.chunk _ ping (fp) [] (by rw [List.append_nil]) (Talk.frame_ne _) rfl) (fun _ => rfl))
      [] [] (c P5 .unborn) (c P6 .unborn) rfl rfl rfl (fun h => by cases h) (fun m _ h _ => by cases h) (fun _ => rfl)
  let P7 : Lifecycle.Peer (Message E) := { P6 with writer := .select, bytesSent := 0 + UInt64.ofNat fp.length }
  have e15 : R (st T1 [a0] 1 1 (.asked a0 0 1) [c P7 .unborn] [0] 1) :=
    Program.lift1 _ e14 rfl rfl (.inner _ [] [] (c P6 .unborn) rfl .own P7 (by simp) (.writeDone _ ping rfl) (fun _ => rfl))
      [] [] (c P6 .unborn) (c P7 .unborn) rfl rfl rfl (fun h => by cases h) (fun m _ h _ => by cases h) (fun _ => rfl)
  let P8 : Lifecycle.Peer (Message E) := { P7 with threads := [.sent ping true, .sent ask true], writer := .got ask, accepted := [ping, ask] }
  have e16 : R (st T1 [a0] 1 1 (.asked a0 0 1) [c P8 .unborn] [0] 1) :=
    Program.lift1 _ e15 rfl rfl (.inner _ [] [] (c P7 .unborn) rfl .own P8 (by simp) (.sendTaken _ [.sent ping true] [] ask rfl rfl) (fun _ => rfl))
      [] [] (c P7 .unborn) (c P8 .unborn) rfl rfl rfl (fun h => by cases h) (fun m _ h _ => by cases h) (fun _ => rfl)
  let P9 : Lifecycle.Peer (Message E) := { P8 with threads := [.sent ping true, .sent ask true, .wait] }
  have e17 : R (st T1 [a0] 1 1 .sleeping [c P9 (.waiting 2)] [0] 1) :=
    Program.lift1 _ e16 rfl rfl (.spawn _ a0 1 ask true [] [] (c P8 .unborn) rfl rfl rfl) [] [] (c P8 .unborn) (c P9 (.waiting 2)) rfl rfl rfl
      (fun h => by cases h) (fun _ _ _ h => by cases h) (fun h => by cases h)
  have e18 : R (st T1 [a0] 1 1 .select [c P9 (.waiting 2)] [0] 1) := Program.lift _ e17 rfl rfl (.wake _ rfl) rfl
  have e19 : R (st T1 [a0] 1 2 .choosing [c P9 (.waiting 2)] [0] 1) := Program.lift _ e18 rfl rfl (.take _ rfl (show 1 < 15 by decide)) rfl
  have e20 : R (st T1 [a0] 1 2 (.connecting "") [c P9 (.waiting 2)] [0] 1) :=
    Program.lift _ e19 rfl rfl (.choose _ T1 T1 rfl (.refl _) (.refl _)) rfl
  have e21 : R (st T1 [a0] 1 2 .sleeping [c P9 (.waiting 2)] [0] 1) := Program.lift _ e20 rfl rfl (.nothing _ rfl) rfl
  have e22 : R (st T1 [a0] 1 2 .select [c P9 (.waiting 2)] [0] 1) := Program.lift _ e21 rfl rfl (.wake _ rfl) rfl
  refine ⟨_, _, c P9 (.waiting 2), e18, rfl, List.mem_singleton.2 rfl, rfl,
    ⟨rfl, rfl, rfl, .inr (.inl rfl), .inr (.inr (.inl ⟨ask, rfl⟩)), fun d h => by simp [c, P9] at h⟩, ?_, e22, rfl, rfl, rfl⟩
  have u1 : Undisturbed hostOf 0 _ (st T1 [a0] 1 2 .choosing [c P9 (.waiting 2)] [0] 1) :=
    undisturbed_pool _ e18 0 (.take _ rfl (show 1 < 15 by decide)) rfl rfl rfl
  have u2 : Undisturbed hostOf 0 _ (st T1 [a0] 1 2 (.connecting "") [c P9 (.waiting 2)] [0] 1) :=
    undisturbed_pool _ e19 0 (.choose _ T1 T1 rfl (.refl _) (.refl _)) rfl rfl rfl
  have u3 : Undisturbed hostOf 0 _ (st T1 [a0] 1 2 .sleeping [c P9 (.waiting 2)] [0] 1) :=
    undisturbed_pool _ e20 0 (.nothing _ rfl) rfl rfl rfl
  have u4 : Undisturbed hostOf 0 _ (st T1 [a0] 1 2 .select [c P9 (.waiting 2)] [0] 1) :=
    undisturbed_pool _ e21 0 (.wake _ rfl) rfl rfl rfl
  exact (((Relation.ReflTransGen.single u1).tail u2).tail u3).tail u4

/-- `C152_refuted` and `C152_once_partial` apply to it. -/
example : ∃ (chain : Chain Toy.env) (s t : Program.State Toy.env) (x y : Whole.Conn (Message Toy.env)),
    HasHash chain.head toyHash ∧ Program.Reachable hostOf chain (sqlStorage _) none t ∧ x ∈ s.pool.conns ∧
    Relation.ReflTransGen (Undisturbed hostOf x.id) s t ∧ (t.io x.id).arrived = [] ∧ t.pool.slots = s.pool.slots + 1 ∧
    y ∈ t.pool.conns ∧ y.id = x.id ∧ InUse y.peer ∧ y.peer.accepted.filter isPing = [.ping ⟨1, 1⟩] := by
  obtain ⟨-, -, chain, -, hc, -⟩ := sample_relay
  obtain ⟨s, t, x, h1, h2, h3, h4, h5, h6, h7, h8, h9, h10⟩ := silent_run chain (sqlStorage _) none
  obtain ⟨y, g1, g2, -, g3, -⟩ := C152_refuted hostOf chain (sqlStorage _) none toyHash hc s t x h3 h5 h6 h7
  exact ⟨chain, s, t, x, y, hc, h7, h3, h6, h10, h9, g1, g2, g3,
    C152_once_partial hostOf chain (sqlStorage _) none toyHash hc t h7 h8 y g1 g3.flag⟩

end Gringo.Props
