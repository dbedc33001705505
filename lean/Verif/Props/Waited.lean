import Verif.Proofs.Lifecycle
/-
C118: what `WaitForDisconnect` promises when it returns.
-/
namespace Gringo.Props
open Gringo.Spec Gringo.Lifecycle

variable {M : Type} {frame : M → Bytes}

/-- **C118 is false of the code.** `Disconnect` closes `quit` before the connection, and the handlers and the call of
`WaitForDisconnect` only look at `quit`: the call can return while the connection is open. It takes no more than a
remote peer that closes its side. -/
theorem C118_refuted (frame : M → Bytes) :
    ∃ s : Peer M, Reachable frame s ∧ s.threads = [.woken] ∧ s.conn = 0 := by
  have h1 : Reachable frame _ := .step (.new (M := M)) (.start _ rfl rfl)
  have h2 := Reachable.step h1 (.callWait _)
  have h3 := Reachable.step h2 (.loopGo _ rfl rfl)
  have h4 := Reachable.step h3 (.readFail _ rfl)
  have h5 := Reachable.step h4 (.readerDone _ rfl)
  have h6 := Reachable.step h5 (.readerLeave _ _ _ _ rfl (.win _ rfl))
  have h7 := Reachable.step h6 (.readerLeave _ _ _ _ rfl (.closeQuit _))
  have h8 := Reachable.step h7 (.selectQuit _ rfl (by simp [Peer.closeQuit]))
  have h9 := Reachable.step h8 (.writerDone _ rfl)
  have h10 := Reachable.step h9 (.waitQuit _ [] [] rfl (by simp [Peer.closeQuit, Peer.done]))
  have h11 := Reachable.step h10 (.waitEnd _ [] [] rfl rfl)
  exact ⟨_, h11, rfl, rfl⟩

theorem still_step {k : Kind} {s s' : Peer M} (hs : Step frame k s s') (hf : s.flag = true) (h : Still s) :
    Still s' ∧ s'.wire = s.wire ∧ s'.bytesSent = s.bytesSent := by
  have keep : ∀ {d d' : Disc} {s0 : Peer M}, DiscStep d s d' s0 →
      s0.reader = s.reader ∧ s0.writer = s.writer ∧ s0.wire = s.wire ∧ s0.bytesSent = s.bytesSent := by
    intro d d' s0 hd; cases hd <;> exact ⟨rfl, rfl, rfl, rfl⟩
  obtain ⟨hr, hw⟩ := h
  unfold Still
  cases hs with
  | closingStep _ s0 d d' h1 hd => obtain ⟨e1, e2, e3, e4⟩ := keep hd; simp_all
  | readerLeave _ s0 d d' h1 hd => obtain ⟨e1, e2, e3, e4⟩ := keep hd; simp_all
  | writerLeave _ s0 d d' h1 hd => obtain ⟨e1, e2, e3, e4⟩ := keep hd; simp_all
  | threadDisc _ s0 l r d d' h1 hd => obtain ⟨e1, e2, e3, e4⟩ := keep hd; simp_all
  | _ => simp_all [Peer.done]

theorem woken_still {s : Peer M} (hr : Reachable frame s) (h : .woken ∈ s.threads) :
    s.quit = 1 ∧ Still s := by
  induction hr with
  | new => cases h
  | @step s s' k hr hs ih =>
    have hi' := inv_reachable (Reachable.step hr hs)
    have hf' := (woken_inv (Reachable.step hr hs) h).1
    have hq' := quit_mono hs
    have up := hi'.quit
    rw [hf', Bool.toNat_true] at up
    by_cases hm : .woken ∈ s.threads
    · obtain ⟨i1, i2⟩ := ih hm
      exact ⟨by omega, (still_step hs (woken_inv hr hm).1 i2).1⟩
    · have keep : ∀ {d d' : Disc} {s0 : Peer M}, DiscStep d s d' s0 → s0.threads = s.threads := by
        intro d d' s0 hd; cases hd <;> rfl
      have hi := inv_reachable hr
      cases hs with
      | waitEnd _ l r hl hg =>
        have hwg := hi.wg
        have e1 : s.reader.counts = 0 := by omega
        have e2 : s.writer.counts = 0 := by omega
        refine ⟨?_, ?_, ?_⟩
        · have := waitGroup_quit hr (by rw [hl]; simp)
          simp only at up ⊢
          omega
        · cases hx : s.reader <;> rw [hx] at e1 <;> simp_all [Reader.counts]
        · cases hx : s.writer <;> rw [hx] at e2 <;> simp_all [Writer.counts]
      | closingStep _ s0 d d' hd hs => rw [keep hs] at h; exact absurd h hm
      | readerLeave _ s0 d d' hd hs => rw [keep hs] at h; exact absurd h hm
      | writerLeave _ s0 d d' hd hs => rw [keep hs] at h; exact absurd h hm
      | threadDisc _ s0 l r d d' hd hs => simp_all
      | _ => simp_all [Peer.done]

/-- **C118, the part that holds.** When a call of `WaitForDisconnect` has returned, `quit` is closed and neither handler
reads, handles or writes anything, now or ever after, whatever is called: no further byte goes out. The connection
is closed, or whoever closes it does so with its next step, and once the process comes to rest it is closed. What is
missing: that it is closed when the call returns (`C118_refuted`). -/
theorem C118_still_partial {s : Peer M} (h : Reachable frame s) (hw : .woken ∈ s.threads) :
    s.quit = 1 ∧ (s.conn = 1 ∨ s.conn = 0 ∧ ∃ s', Step frame .own s s' ∧ s'.conn = 1) ∧
    ∀ s' n c, Run frame s s' n c → Still s' ∧ s'.wire = s.wire ∧ s'.bytesSent = s.bytesSent ∧
      (Idle frame s' → s'.conn = 1) := by
  have hi := inv_reachable h
  obtain ⟨hf, hn⟩ := woken_inv h hw
  obtain ⟨hq, hqu⟩ := woken_still h hw
  have i1 := hi.quit
  have i2 := hi.conn
  rw [hf, Bool.toNat_true] at i1 i2
  refine ⟨hq, ?_, ?_⟩
  · by_cases hc : s.conn = 0
    · refine .inr ⟨hc, ?_⟩
      have : 0 < s.discs.count .closing := by omega
      have hm := List.count_pos_iff.1 this
      simp only [Peer.discs, List.mem_append, List.mem_flatMap] at hm
      rcases hm with hm | hm | ⟨t, ht, hm⟩
      · rcases hqu.1 with e | e | e | ⟨d, e⟩ <;> rw [e] at hm <;> simp [Reader.discs] at hm
        subst hm
        exact ⟨_, .readerLeave s _ _ _ e (.closeConn s), by simp [hc]⟩
      · rcases hqu.2 with e | e | ⟨m, e⟩ | e | ⟨d, e⟩ <;> rw [e] at hm <;> simp [Writer.discs] at hm
        subst hm
        exact ⟨_, .writerLeave s _ _ _ e (.closeConn s), by simp [hc]⟩
      · cases t <;> simp [Thread.discs] at hm
        subst hm
        obtain ⟨l, r, e⟩ := List.append_of_mem ht
        exact ⟨_, .threadDisc s _ l r _ _ e (.closeConn s), by simp [hc]⟩
    · left; omega
  · intro s' n c hr
    obtain ⟨g1, g2, -⟩ := run_rank hf hn hr
    suffices Still s' ∧ s'.wire = s.wire ∧ s'.bytesSent = s.bytesSent from
      ⟨this.1, this.2.1, this.2.2, fun hid => (idle_settled (inv_reachable (run_reachable h hr)) g1 g2 hid).2.2⟩
    clear g1 g2
    induction hr with
    | refl => exact ⟨hqu, rfl, rfl⟩
    | call hr' hst ih =>
      obtain ⟨j1, j2, j3⟩ := ih
      obtain ⟨k1, k2, k3⟩ := still_step hst (run_rank hf hn hr').1 j1
      exact ⟨k1, k2.trans j2, k3.trans j3⟩
    | step hr' _ hst ih =>
      obtain ⟨j1, j2, j3⟩ := ih
      obtain ⟨k1, k2, k3⟩ := still_step hst (run_rank hf hn hr').1 j1
      exact ⟨k1, k2.trans j2, k3.trans j3⟩

end Gringo.Props
