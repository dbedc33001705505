import Verif.Proofs.ProgramEnds
import Verif.Proofs.StopRest
import Verif.Props.ProgramRelay
/-
C127: the whole node gets done with everything that came in.
-/
namespace Gringo.Props
open Gringo.Spec Gringo.P2P

variable {E : Env}

/-- **C127, it ends.** Whatever the whole program is doing: if nothing more comes from outside, the connections take what
is written and the loop of the pool begins no further turn, there is no schedule in which the work goes on for ever,
and from every state work leads to rest. -/
theorem C127_ends (remote : Nat → String) (chain : Chain E) (storage : Storage E)
    (mempool : Option (Transaction E → Out Unit)) (s : Program.State E)
    (h : Program.Reachable remote chain storage mempool s) :
    (¬ ∃ run : Nat → Program.State E, run 0 = s ∧ ∀ i, ProgramWorks remote (run i) (run (i + 1))) ∧
    ∃ s', Relation.ReflTransGen (ProgramWorks remote) s s' ∧ ProgramAtRest remote s' := by
  have acc := Program.works_acc h
  clear h
  refine ⟨?_, ?_⟩
  · induction acc with
    | intro s _ ih =>
      rintro ⟨run, e, hr⟩
      exact ih (run 1) (e ▸ hr 0) ⟨fun i => run (i + 1), rfl, fun i => hr (i + 1)⟩
  · induction acc with
    | intro s _ ih =>
      by_cases h : ProgramAtRest remote s
      · exact ⟨s, .refl, h⟩
      · obtain ⟨s1, h1⟩ := not_forall.1 h
        have h1 := not_not.1 h1
        obtain ⟨s', h2, h3⟩ := ih s1 h1
        exact ⟨s', h2.head h1, h3⟩

/-- **C127, everything is answered.** Look at the whole program when it has nothing more to do until something comes from outside or the loop of
the pool begins another turn. Unless the process has ended:
* a connection that was closed is over, with all its goroutines, or its read loop is in `Ban`, or the read loop and a
  goroutine of `Stop` wait for each other;
* on any other connection everything that was accepted for sending has been written, in whole frames, and no call of
  `WriteMessage` waits. Unless its read loop is in `Ban`, the bytes that came in begin with frames all of which were
  handled, what is left is no complete well-formed frame, and the answers to these frames were all written;
* every goroutine of `PropagateBlock` has ended. -/
theorem C127_at_rest (hmem : 20000000 ≤ E.maxAlloc) (remote : Nat → String) (chain : Chain E) (storage : Storage E)
    (mempool : Option (Transaction E → Out Unit)) (headHash : Bytes) (hh : HasHash chain.head headHash)
    (s : Program.State E) (h : Program.Reachable remote chain storage mempool s) (hd : s.dead = false)
    (hp : s.pool.panicked = false) (hr : ProgramAtRest remote s) :
    (∀ x ∈ s.pool.conns,
      (x.peer.flag = true → Over x ∨ InBan s x ∨ HeldByStop s x) ∧
      (x.peer.flag = false → AllWritten x.peer.accepted x.peer.wire ∧ ¬ SendWaits x.peer ∧
        (InBan s x ∨ ∃ (fs : List (GoodFrame E)) (es : List (Effect E)),
          (s.io x.id).arrived = streamOf fs ++ (s.io x.id).inbox ∧
          (∀ g : GoodFrame E, ¬ frameBytes g.type g.body <+: (s.io x.id).inbox) ∧
          Answered chain storage headHash (messagesOf fs) es ∧ x.peer.replies = answersOf es ∧
          x.peer.replies.Sublist x.peer.accepted))) ∧
    (∀ j ∈ s.jobs, JobOver j) := by
  refine ⟨fun x hx => ⟨Program.closed_rest h hd hp hr hx, fun hf => ?_⟩, fun j => Program.job_rest h hd hp hr⟩
  obtain ⟨node, hc, hst, known, ht⟩ := (Program.inv_reachable h).talks x hx
  have h1 := Program.reader_rest h hd hp hr hx hf
  have h2 := Program.writer_rest h hd hp hr hx hf (by rw [h1]; simp)
  obtain ⟨⟨done, cur, b, ha, hb, hdn, hm⟩, hsub⟩ := Talk.out_reachable' ht
  rw [show (Program.talk s x).peer.writer = _ from h2] at hm
  obtain ⟨hc', hb0⟩ := hm
  subst hc' hb0
  rw [List.append_nil] at ha hb
  obtain ⟨bs, hb1, hb2⟩ := Talk.frames_of done hdn
  refine ⟨⟨bs, by rw [show x.peer.accepted = _ from ha]; exact hb1, by rw [show x.peer.wire = _ from hb, hb2]⟩, ?_, ?_⟩
  · rintro (⟨m, e⟩ | ⟨m, e⟩)
    · rw [h1] at e; cases e
    · exact Program.no_send h hd hp hr hx (by rw [h1]; simp) e
  by_cases hs : (s.io x.id).stuck = true
  · exact .inl (.inr hs)
  refine .inr ?_
  have h3 := (Program.task_rest h hd hp hr hx h1 (Bool.eq_false_iff.2 hs)).resolve_right (Program.not_held h hx hf)
  have h5 := Program.unread_rest hd hp hr hx h1 h3
  rw [← hc] at hh
  obtain ⟨-, -, fs, ms, es, late, lost, harr, hms, hans, hrep, hlate, hlost⟩ := Talk.in_reachable (fun _ _ => id) hh known ht
  have r1 : (Program.talk s x).peer.reader = .reading := h1
  rw [r1] at hlate hlost
  have hlate : late = [] := hlate
  have hlost : lost = [] := hlost
  subst hlate hlost
  rw [show (Program.talk s x).task = none from h3] at hms
  simp only [Option.toList_none, List.append_nil] at hms hrep
  subst hms
  rw [hc, hst] at hans
  refine ⟨fs, es, harr, ?_, hans, hrep.symm, hsub⟩
  rintro g ⟨rest, e⟩
  have := readStep_good E hmem g.type g.body g.msg g.size g.carries rest
  rw [e] at this
  exact h5 _ _ _ this

/-- **C127, a block is passed on.** A block with the height of the chain came in on some connection and the node accepts
it. Look at an address that is connected at that moment and whose record stays behind, as in C126. When the program has
come to rest, the block was written, in a whole frame, to a connection to that address, or that connection was closed. -/
theorem C127_block_written (hmem : 20000000 ≤ E.maxAlloc) (remote : Nat → String) (chain : Chain E) (storage : Storage E)
    (mempool : Option (Transaction E → Out Unit)) (headHash : Bytes) (hh : HasHash chain.head headHash)
    (s s' t : Program.State E) (h : Program.Reachable remote chain storage mempool s) (hd : s.dead = false)
    (hp : s.pool.panicked = false) (k : Lifecycle.Kind) (hs : Program.Step remote k s s') (c : Nat) (b : Block E)
    (h0 : (s.io c).task = some (.block b)) (h1 : (s'.io c).task = none)
    (hok : (chain.processBlock storage b).1 = .ok ()) (hb : b.header.height = chain.height)
    (a : String) (ha : a ∈ s.pool.online) (P : Program.State E → Prop)
    (hP : (∀ t, P t → ∀ i, t.pool.table.find a = some i → i.height.toNat < b.header.height.toNat) ∨
      (∀ t, P t → ∀ i, t.pool.table.find a = some i → i.totalDifficulty.toNat < b.header.totalDifficulty.toNat))
    (hr : Program.RunWhile remote P s' t) (hdt : t.dead = false) (hpt : t.pool.panicked = false)
    (ht : ProgramAtRest remote t) :
    ∃ y ∈ t.pool.conns, y.addr = a ∧
      (y.peer.flag = true ∨ (.block b ∈ y.peer.accepted ∧ AllWritten y.peer.accepted y.peer.wire)) := by
  have hrt := (hr.reachable (h.next hd hp hs)).1
  obtain ⟨hc, hj⟩ := C127_at_rest hmem remote chain storage mempool headHash hh t hrt hdt hpt ht
  rcases C126_sent_on remote chain storage mempool s s' t h hd hp k hs c b h0 h1 hok hb a ha P hP hr with
    ⟨l, r, j, t', st, e1, -, -, -, -, e⟩ | ⟨y, hy, hya, e⟩
  · exfalso
    have := hj j (by rw [e1]; simp)
    rcases e with ⟨e, -⟩ | ⟨e, -⟩ | ⟨e, -⟩ <;> rcases this with h | h | ⟨_, h⟩ <;> rw [e] at h <;> cases h
  · refine ⟨y, hy, hya, ?_⟩
    cases hf : y.peer.flag with
    | true => exact .inl rfl
    | false =>
      obtain ⟨h1, h2, -⟩ := (hc y hy).2 hf
      rcases e with e | e | ⟨-, e⟩
      · exact (h2 (.inr ⟨_, e⟩)).elim
      · exact .inr ⟨e, h1⟩
      · rw [hf] at e; cases e

/-- The node of `relayed_run` comes to rest: nothing was closed, and the block is among the messages written on the second
connection. All three theorems apply. -/
example (w : World) (hw : Program.Real w) :
    ∃ (b : Block Toy.env) (chain : Chain Toy.env) (s s' t : Program.State Toy.env) (c : Nat) (a : String),
      HasHash chain.head toyHash ∧ Program.Reachable hostOf chain (sqlStorage _) none s ∧ s.dead = false ∧
      s.pool.panicked = false ∧ Program.Step hostOf .own s s' ∧ (s.io c).task = some (.block b) ∧ (s'.io c).task = none ∧
      (chain.processBlock (sqlStorage _) b).1 = .ok () ∧ b.header.height = chain.height ∧ a ∈ s.pool.online ∧
      Program.RunWhile hostOf (fun t => ∀ i, t.pool.table.find a = some i → i.height.toNat < b.header.height.toNat) s' t ∧
      Program.Reachable hostOf chain (sqlStorage _) none t ∧ t.dead = false ∧ t.pool.panicked = false ∧
      ProgramAtRest hostOf t ∧
      ∃ x y, t.pool.conns = [x, y] ∧ x.peer.flag = false ∧ y.peer.flag = false ∧ (t.io x.id).arrived ≠ [] ∧ y.addr = a ∧
        y.peer.accepted = [.block b, .ping ⟨1, 1⟩, .getPeerAddrs ⟨7⟩] := by
  obtain ⟨f, b, chain, hf, hc, hb, hh, h0, hfr⟩ := sample_relay
  obtain ⟨t, x, y, -, -, -, -, -, -, -, -, s, s', g1, g2, g3, g4, g5, g6, g7, g8, -, g9⟩ :=
    relayed_run chain (sqlStorage _) none w hw (by decide) f b hf hb hh h0
  obtain ⟨t, e1, e2, e3, e4, -, e6, x', y', e7, e8, e9, e10, e11, e12, -⟩ := g9 hfr
  refine ⟨b, chain, s, s', t, x.id, y.addr, hc, g1, g2, g3, g4, g5, g6, hb, hh, by rw [g7]; simp, ?_, e1, e3, e4, e6,
    x', y', e7, e8, e9, ?_, e11.trans g8.symm, e12⟩
  · rw [g8]; exact e2
  · rw [e10]; simp [frameBytes]

end Gringo.Props
