import Verif.Proofs.ProgramRelay
import Verif.Props.ProgramCount
/-
C126: a block that the node accepts is sent on to every peer that is behind.
-/
namespace Gringo.Props
open Gringo.Spec Gringo.P2P

variable {E : Env}

/-- **C126.** A block with the height of the chain came in on some connection and the node accepts it. Look at the step
with which its handling ends, at an address that is connected at that moment, and at any run from there on in which
the height in the record of that address stays below that of the block, or the total difficulty does. Then at the end
of the run
* a goroutine for this address and this block can go on, whatever the rest of the program is doing, and has at most three
  reads to do, or
* `SendBlock` has been called with this block on a connection to that address; the call is waiting for the write handler, or
  the block was accepted for sending, or the connection was closed before. -/
theorem C126_sent_on (remote : Nat → String) (chain : Chain E) (storage : Storage E)
    (mempool : Option (Transaction E → Out Unit)) (s s' t : Program.State E)
    (h : Program.Reachable remote chain storage mempool s) (hd : s.dead = false) (hp : s.pool.panicked = false)
    (k : Lifecycle.Kind) (hs : Program.Step remote k s s') (c : Nat) (b : Block E)
    (h0 : (s.io c).task = some (.block b)) (h1 : (s'.io c).task = none)
    (hok : (chain.processBlock storage b).1 = .ok ()) (hh : b.header.height = chain.height)
    (a : String) (ha : a ∈ s.pool.online) (P : Program.State E → Prop)
    (hP : (∀ t, P t → ∀ i, t.pool.table.find a = some i → i.height.toNat < b.header.height.toNat) ∨
      (∀ t, P t → ∀ i, t.pool.table.find a = some i → i.totalDifficulty.toNat < b.header.totalDifficulty.toNat))
    (hr : Program.RunWhile remote P s' t) :
    (∃ (l r : List (Program.Job E)) (j : Program.Job E) (t' : Program.State E) (st : Relay.Stage),
      t.jobs = l ++ j :: r ∧ j.addr = a ∧ j.block = b ∧ Program.Step remote .own t t' ∧
      t'.jobs = l ++ { j with stage := st } :: r ∧
      ((j.stage = .height ∧ (st = .weight ∨ st = .peer)) ∨ (j.stage = .weight ∧ st = .peer) ∨
        (j.stage = .peer ∧ ∃ c, st = .sent c))) ∨
    (∃ y ∈ t.pool.conns, y.addr = a ∧
      (.send (.block b) ∈ y.peer.threads ∨ .block b ∈ y.peer.accepted ∨
        (.sent (.block b) false ∈ y.peer.threads ∧ y.peer.flag = true))) := by
  have hi := Program.inv_reachable h
  have hi' := Program.inv_reachable (h.next hd hp hs)
  rw [← hi.same.1, ← hi.same.2.1] at hok
  rw [← hi.same.1] at hh
  let light : Prop := ∀ t, P t → ∀ i, t.pool.table.find a = some i → i.totalDifficulty.toNat < b.header.totalDifficulty.toNat
  have start : Program.OnIts s' a b light := by
    refine ⟨?_, ⟨a, b, .height⟩, Program.handled_starts hi hs hok hh h0 h1 ha, rfl, rfl, nofun, nofun, nofun, nofun⟩
    obtain ⟨-, p, hr, hwr⟩ := Whole.refines hi.whole
    obtain ⟨x, hx, e, -⟩ := (PoolRun.inv_reachable hr).online.sub a (by rw [hwr.online]; exact ha)
    rw [hwr.links] at hx
    obtain ⟨z, hz, rfl⟩ := List.mem_map.1 hx
    obtain ⟨y, hy, -, e', -⟩ := Program.conns_step hi hs hz
    exact ⟨y, hy, e'.trans e⟩
  have key : Program.OnIts t a b light := by
    have base := h.next hd hp hs
    clear hs h1 h0
    induction hr with
    | refl => exact start
    | next hr hd hp hs hPt ih =>
      obtain ⟨q1, q2⟩ := hr.reachable base
      refine Program.onits_step (Program.inv_reachable q1) (Program.inv_reachable (q1.next hd hp hs)) hs ih
        (fun i hi => ?_) (fun hl => hl _ q2)
      exact hP.imp (fun h => h _ q2 i hi) id
  obtain ⟨hr', hPt⟩ := hr.reachable (h.next hd hp hs)
  have hit := Program.inv_reachable hr'
  obtain ⟨⟨x, hx, hxa⟩, j, hj, j1, j2, j3, j4, j5, j6⟩ := key
  have go : j.stage = .height ∨ j.stage = .weight ∨ j.stage = .peer → _ := Program.goes_on hit hx hj (j1.trans hxa.symm)
    (fun hw i hf => by
      rw [j1] at hf
      rw [j2]
      exact UInt64.lt_iff_toNat_lt.2 (j5 hw t hPt i hf))
  have fin : (j.stage = .height ∨ j.stage = .weight ∨ j.stage = .peer) →
      (∃ (l r : List (Program.Job E)) (j : Program.Job E) (t' : Program.State E) (st : Relay.Stage),
        t.jobs = l ++ j :: r ∧ j.addr = a ∧ j.block = b ∧ Program.Step remote .own t t' ∧
        t'.jobs = l ++ { j with stage := st } :: r ∧
        ((j.stage = .height ∧ (st = .weight ∨ st = .peer)) ∨ (j.stage = .weight ∧ st = .peer) ∨
          (j.stage = .peer ∧ ∃ c, st = .sent c))) := fun hst => by
    obtain ⟨l, r, t', st, e1, e2, e3, e4⟩ := go hst
    exact ⟨l, r, j, t', st, e1, j1, j2, e2, e3, e4⟩
  cases hst : j.stage with
  | height => exact .inl (fin (.inl hst))
  | weight => exact .inl (fin (.inr (.inl hst)))
  | peer => exact .inl (fin (.inr (.inr hst)))
  | known => exact absurd hst j3
  | noPeer => exact absurd hst j4
  | sent c =>
    obtain ⟨y, hy, e, hm⟩ := j6 c hst
    refine .inr ⟨y, hy, e, ?_⟩
    obtain ⟨th, hth, hm⟩ := List.mem_flatMap.1 hm
    have hpr := ((Whole.inv_reachable hit.whole).conns y hy).peer
    cases th with
    | send m => rw [List.mem_singleton.1 hm]; exact .inl hth
    | sent m ok =>
      rw [List.mem_singleton.1 hm]
      cases ok with
      | false => exact .inr (.inr ⟨hth, Program.call_done hpr hth⟩)
      | true =>
        refine .inr (.inl ((C68_order Talk.frame_ne hpr).2.mem_iff.1 (List.mem_append_left _ ?_)))
        exact List.mem_flatMap.2 ⟨_, hth, by simp [takenFrom]⟩
    | _ => cases hm

/-- A run to which C126 applies: the block comes in on the first connection, the second one is behind. -/
example (w : World) (hw : Program.Real w) :
    ∃ (b : Block Toy.env) (chain : Chain Toy.env) (s s' t : Program.State Toy.env) (c : Nat) (a : String),
      Program.Reachable hostOf chain (sqlStorage _) none s ∧ s.dead = false ∧ s.pool.panicked = false ∧
      Program.Step hostOf .own s s' ∧ (s.io c).task = some (.block b) ∧ (s'.io c).task = none ∧
      (chain.processBlock (sqlStorage _) b).1 = .ok () ∧ b.header.height = chain.height ∧ a ∈ s.pool.online ∧
      Program.RunWhile hostOf (fun t => ∀ i, t.pool.table.find a = some i → i.height.toNat < b.header.height.toNat) s' t ∧
      ∃ y ∈ t.pool.conns, y.addr = a ∧ .block b ∈ y.peer.accepted := by
  obtain ⟨f, b, chain, hf, hc, hb, hh, h0, -⟩ := sample_relay
  obtain ⟨t, x, y, -, h2, -, -, h3, -, -, -, s, s', g1, g2, g3, g4, g5, g6, g7, g8, g9, -⟩ :=
    relayed_run chain (sqlStorage _) none w hw (by decide) f b hf hb hh h0
  refine ⟨b, chain, s, s', t, x.id, y.addr, g1, g2, g3, g4, g5, g6, hb, hh, by rw [g7]; simp, ?_, y, by rw [h2]; simp, rfl,
    by rw [h3]; simp⟩
  rw [g8]
  exact g9

end Gringo.Props
