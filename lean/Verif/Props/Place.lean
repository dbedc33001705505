import Verif.Proofs.Place
/-
C121: a connection that has ended gives its place in the pool back.
-/
namespace Gringo.Props
open Gringo.Spec Gringo.P2P Gringo.Whole

variable {M : Type} {frame : M → Bytes} {ping ask : M}

/-- **C121, the part that holds.** Once `Disconnect` was entered on a connection, for whatever reason, there is an amount of
work `left` until the connection is over: its place is given back (p2p/pool.go:276), its socket is closed, its handlers
have ended and all calls on it have returned. While no goroutine of `Stop` is at work, no step of anybody adds to it,
except that each call of `PropagateBlock` or `Ban` from outside may add a constant. And unless the read loop of the
connection is in `Ban`, either the connection is over, or a step of this process itself is possible that does some of
the work: nothing waits for the remote peer, for a caller, or for a lock that is not released.

Missing: a connection whose own read loop bans its peer (`C80_goroutines_partial`: its place is lost), and what happens
while the goroutines of `Stop` are at work (`C79_refuted_deadlock`). -/
theorem C121_place_partial (w : State M) (h : Whole.Reachable frame ping ask w) (x : Conn M) (hx : x ∈ w.conns)
    (hf : x.peer.flag = true) :
    ∃ left : State M → Nat,
      (∀ w' w'' k, Later frame ping ask w w' → NoneStopping w' → Whole.Step frame ping ask w' k w'' →
        left w'' ≤ left w' + if k = .call then 39 else 0) ∧
      ∀ w', Later frame ping ask w w' → NoneStopping w' → ∀ y ∈ w'.conns, y.id = x.id → ¬ Banning y.peer →
        Over y ∨ ∃ w'', Whole.Step frame ping ask w' .own w'' ∧ left w'' < left w' := by
  have up : ∀ w', Later frame ping ask w w' → ∀ y ∈ w'.conns, y.id = x.id → y.peer.flag = true := by
    intro w' h' y hy e
    obtain ⟨z, hz, z1, z2⟩ := closing_stays h h' hx hf
    rw [same_conn (h'.reachable h) hy hz (e.trans z1.symm)]
    exact z2
  refine ⟨State.rank x.id, fun w' w'' k h' hl hs => ?_, fun w' h' hl y hy e hb => ?_⟩
  · have hr := h'.reachable h
    have hi := inv_reachable hr
    refine rank_never_up hs hl (up w' h') hi.unborn fun a c t n hc e => ?_
    obtain ⟨z, hz, z1, -⟩ := closing_stays h h' hx hf
    exact counting_new hr a c t n hc z hz (z1.trans e.symm)
  · by_cases hg : Over y
    · exact .inl hg
    obtain ⟨w'', h1, h2, -⟩ := goes_on (h'.reachable h) hl hy (up w' h' y hy e) hb hg
    rw [e] at h2
    exact .inr ⟨w'', h1, h2⟩

/-- **C121, the part that holds, as a run.** A connection on which `Disconnect` was entered, or whose read loop has ended
because the remote side closed the connection or sent something undecodable, gets over even if from now on nobody but
this process does anything, unless its read loop is in `Ban` or a goroutine of `Stop` is at work. -/
theorem C121_run_partial (w : State M) (h : Whole.Reachable frame ping ask w) (hp : w.panicked = false)
    (hl : NoneStopping w) (x : Conn M) (hx : x ∈ w.conns) (hb : ¬ Banning x.peer)
    (hf : x.peer.flag = true ∨ x.peer.reader = .stopping) :
    ∃ w', Alone frame ping ask w w' ∧ w'.panicked = false ∧ ∃ y ∈ w'.conns, y.id = x.id ∧ Over y := by
  -- after `Disconnect` was entered
  have closed : ∀ n (u v : State M) (y : Conn M), v.rank y.id ≤ n → Whole.Reachable frame ping ask v →
      v.panicked = false → NoneStopping v → y ∈ v.conns → ¬ Banning y.peer → y.peer.flag = true →
      Alone frame ping ask u v → ∃ w', Alone frame ping ask u w' ∧ w'.panicked = false ∧
        ∃ z ∈ w'.conns, z.id = y.id ∧ Over z := by
    intro n
    induction n with
    | zero =>
      intro u v y hn hr hp hl hy hb hf ha
      by_cases hg : Over y
      · exact ⟨v, ha, hp, y, hy, rfl, hg⟩
      obtain ⟨v', h1, h2, -⟩ := goes_on hr hl hy hf hb hg
      omega
    | succ n ih =>
      intro u v y hn hr hp hl hy hb hf ha
      by_cases hg : Over y
      · exact ⟨v, ha, hp, y, hy, rfl, hg⟩
      obtain ⟨v', h1, h2, g1, g2, z, hz, z1, z2, z3⟩ := goes_on hr hl hy hf hb hg
      obtain ⟨w', k1, k2, t, k3, k4, k5⟩ := ih u v' z (by rw [z1]; omega) (hr.next hp h1) (g1.trans hp) g2 hz
        (fun h => hb (z2 h)) z3 (ha.next hp h1)
      exact ⟨w', k1, k2, t, k3, k4.trans z1, k5⟩
  by_cases hflag : x.peer.flag = true
  · exact closed _ w w x (Nat.le_refl _) h hp hl hx hb hflag .here
  -- the read loop has ended and enters `Disconnect`
  have hs := hf.resolve_left hflag
  have step : ∀ (u : State M) (y : Conn M) (q : Lifecycle.Peer M), Whole.Reachable frame ping ask u → y ∈ u.conns →
      y.peer.reader.handles = false → ¬ Banning y.peer → Lifecycle.Step frame .own y.peer q →
      ∃ u', Whole.Step frame ping ask u .own u' ∧ u'.panicked = u.panicked ∧ u'.closers = u.closers ∧
        ∃ z ∈ u'.conns, z.id = y.id ∧ z.peer = q := by
    intro u y q hr hy h1 h2 hq
    obtain ⟨l, r, e⟩ := List.append_of_mem hy
    refine ⟨_, .inner u l r y e .own q (by simp) hq ?_, rfl, rfl, _, List.mem_append_right _ List.mem_cons_self, rfl, rfl⟩
    rintro (e | e | e)
    · obtain ⟨a, ha, -⟩ := ((inv_reachable hr).conns y hy).atLock e
      rw [ha] at h1; cases h1
    · exact absurd (.inl e) h2
    · exact absurd (.inr ⟨_, e⟩) h2
  obtain ⟨u, s1, u1, u2, y, hy, y1, y2⟩ := step w x _ h hx (by rw [hs]; rfl) hb (.readerDone _ hs)
  have hru := h.next hp s1
  obtain ⟨v, s2, v1, v2, z, hz, z1, z2⟩ := step u y _ hru hy (by rw [y2]; rfl)
    (by rw [y2]; rintro (e | ⟨d, e⟩) <;> cases e)
    (.readerLeave y.peer _ _ _ (by rw [y2]) (.win _ (by rw [y2]; simpa [Lifecycle.Peer.done] using hflag)))
  obtain ⟨w', g1, g2, t, g3, g4, g5⟩ := closed _ w v z (Nat.le_refl _) (hru.next (u1.trans hp) s2) (v1.trans (u1.trans hp))
    (by unfold NoneStopping; rw [v2, u2]; exact hl) hz (by rw [z2]; rintro (e | ⟨d, e⟩) <;> cases e) (by rw [z2])
    ((Alone.here.next hp s1).next (u1.trans hp) s2)
  exact ⟨w', g1, g2, t, g3, g4.trans (z1.trans y1), g5⟩

/-- **C121 is false of the code when a read loop bans its own peer**: the connection is being closed, and keeps its place
for all time to come. -/
theorem C121_lost_partial (w w' : State M) (h : Whole.Reachable frame ping ask w) (h' : Later frame ping ask w w')
    (x : Conn M) (hx : x ∈ w.conns) (hb : SelfClosing x.peer) :
    x.peer.flag = true ∧ ∃ y ∈ w'.conns, y.id = x.id ∧ y.watch ≠ .gone := by
  refine ⟨?_, ?_⟩
  · have hi := Lifecycle.inv_reachable ((inv_reachable h).conns x hx).peer
    rcases hb with e | e | e
    · exact Lifecycle.discs_alone hi (d := .won) (by simp [Lifecycle.Peer.discs, Lifecycle.Reader.discs, e]) (by simp)
    · exact Lifecycle.discs_alone hi (d := .closing) (by simp [Lifecycle.Peer.discs, Lifecycle.Reader.discs, e]) (by simp)
    · exact Lifecycle.discs_alone hi (d := .waiting) (by simp [Lifecycle.Peer.discs, Lifecycle.Reader.discs, e]) (by simp)
  · obtain ⟨-, y, hy, y1, -, -, y2⟩ := C80_goroutines_partial w w' h h' x hx hb
    exact ⟨y, hy, y1, fun e => y2 (by rw [e]; trivial)⟩

/-- **C121 is false of the code**: whatever address the pool may dial, a message for which the handler bans its peer leads
to a connection that is being closed and never gives its place back. -/
theorem C121_refuted (frame : M → Bytes) (ping ask : M) {resolve : String → Option TCPAddr}
    (hr : ∀ a, resolve "" = some a → a.port = 0) {addr : String} (ha : Admissible resolve addr) :
    ∃ w, Whole.Reachable frame ping ask w ∧ ∃ x ∈ w.conns, x.addr = addr ∧ x.peer.flag = true ∧
      ∀ w', Later frame ping ask w w' → ∃ y ∈ w'.conns, y.id = x.id ∧ y.watch ≠ .gone := by
  obtain ⟨w, h, x, hx, e, hb⟩ := self_closing_one frame ping ask hr ha
  exact ⟨w, h, x, hx, e, (C121_lost_partial w w h .here x hx hb).1,
    fun w' h' => (C121_lost_partial w w' h h' x hx hb).2⟩

/-- **C79, the part that holds: the sockets.** When the loop has ended and so have the goroutines that close the
connections, every connection whose read loop is not in `Ban` gets over even if from now on nobody but this process does
anything: its socket is closed, its handlers end. -/
theorem C79_sockets_partial (w : State M) (h : Whole.Reachable frame ping ask w) (hp : w.panicked = false)
    (hl : w.loop = .stopped) (hc : NoneStopping w) (x : Conn M) (hx : x ∈ w.conns) (hb : ¬ Banning x.peer) :
    ∃ w', Alone frame ping ask w w' ∧ w'.panicked = false ∧ ∃ y ∈ w'.conns, y.id = x.id ∧ Over y :=
  C121_run_partial w h hp hc x hx hb (.inl (C79_goroutines_partial w h hl hc x hx))

/-- Both apply: the remote side closes the connection while `connectPeer` is sending its second message, and the loop
waits for the first one to be written. -/
example (frame : M → Bytes) (ping ask : M) {resolve : String → Option TCPAddr}
    (hr : ∀ a, resolve "" = some a → a.port = 0) {addr : String} (ha : Admissible resolve addr) :
    (∃ w, Whole.Reachable frame ping ask w ∧ ∃ x ∈ w.conns, x.addr = addr ∧ x.peer.flag = true ∧ x.watch = .unborn) ∧
    ∃ w, Whole.Reachable frame ping ask w ∧ w.panicked = false ∧ w.loop = .asked addr 0 1 ∧
      ∃ x ∈ w.conns, x.addr = addr ∧ ¬ Banning x.peer ∧ x.peer.reader = .stopping ∧
        x.peer.writer = .writing ping (frame ping) := by
  have h1 := (asking_one frame ping ask hr ha).inner (k := .own) (by simp) (.loopGo _ rfl rfl) (by simp)
  have h2 := h1.inner (k := .remote) (by simp) (.readFail _ rfl) (by simp)
  have h3 := h2.inner (k := .own) (by simp) (.readerDone _ rfl) (by simp)
  have h4 := h3.inner (k := .own) (by simp) (.readerLeave _ _ _ _ rfl (.win _ rfl)) (by simp)
  constructor
  · obtain ⟨w, g1, g2, g3, -⟩ := h4
    exact ⟨w, g1, _, by rw [g3]; exact List.mem_cons_self, rfl, rfl, rfl⟩
  · obtain ⟨w, g1, g2, g3, g4, -⟩ := h2
    refine ⟨w, g1, g2, g4, _, by rw [g3]; exact List.mem_cons_self, rfl, fun e => ?_, rfl, rfl⟩
    rcases e with e | ⟨d, e⟩ <;> cases e

/-- `C79_sockets_partial` applies: the pool is stopped, and the goroutine of the read handler is about to close the
socket. -/
example (frame : M → Bytes) (ping ask : M) (hf : frame ping ≠ []) {resolve : String → Option TCPAddr}
    (hr : ∀ a, resolve "" = some a → a.port = 0) {addr : String} (ha : Admissible resolve addr) :
    ∃ w : State M, Whole.Reachable frame ping ask w ∧ w.panicked = false ∧ w.loop = .stopped ∧ NoneStopping w ∧
      ∃ x ∈ w.conns, ¬ Banning x.peer ∧ ¬ Over x := by
  obtain ⟨w, h1, h2, h3, h4, -, h6, h7⟩ := stopped_one frame ping ask hf hr ha
  refine ⟨w, h1, h6, h2, by unfold NoneStopping; rw [h3]; simp, ?_⟩
  obtain ⟨x, hx⟩ := List.length_eq_one_iff.1 h4
  have hm : x ∈ w.conns := by rw [hx]; exact List.mem_singleton.2 rfl
  have hrd := h7 x hm
  refine ⟨x, hm, fun e => ?_, fun e => ?_⟩
  · rw [Banning, hrd] at e
    rcases e with e | ⟨d, e⟩ <;> cases e
  · have := e.2.2.1
    unfold ReaderOver at this
    rw [hrd] at this
    simp at this

end Gringo.Props
