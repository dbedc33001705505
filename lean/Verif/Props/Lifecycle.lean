import Verif.Spec.Lifecycle
import Verif.Proofs.Lifecycle
import Verif.Props.ReadLoop
/-
C65-C68: the goroutines of one peer.
-/
namespace Gringo.Props
open Gringo.Spec Gringo.Lifecycle

variable {M : Type} {frame : M → Bytes}

/-! ### C65 -/

/-- **C65.** In every state any number of concurrent calls can lead to, the quit channel and the connection
were closed at most once and nothing panicked. -/
theorem C65_at_most_once {s : Peer M} (h : Reachable frame s) :
    s.quit ≤ 1 ∧ s.conn ≤ 1 ∧ s.panicked = false := by
  have hi := inv_reachable h
  have hb : s.flag.toNat ≤ 1 := Bool.toNat_le _
  have := hi.quit
  have := hi.conn
  exact ⟨by omega, by omega, hi.fine⟩

/-- The flag is set as soon as a call of `Disconnect`, be it by a handler, has returned. -/
theorem returned_flag {s : Peer M} (h : Reachable frame s) (hd : .returned ∈ s.discs) : s.flag = true := by
  induction h with
  | new => simp [Peer.discs, Peer.new, Reader.discs, Writer.discs] at hd
  | @step s s' k hr hs ih =>
    by_cases hm : .returned ∈ s.discs
    · exact (rank_step hs (ih hm)).1
    · have hi := inv_reachable hr
      have key : ∀ {d d' : Disc} {s0 : Peer M}, d ∈ s.discs → DiscStep d s d' s0 → d' = .returned → s0.flag = true := by
        intro d d' s0 hin hd hret
        cases hd with
        | lose _ hf => exact hf
        | wait _ hg => exact discs_alone hi hin (.inr (.inr rfl))
        | _ => cases hret
      have keep : ∀ {d d' : Disc} {s0 : Peer M}, DiscStep d s d' s0 →
          s0.threads = s.threads ∧ s0.reader = s.reader ∧ s0.writer = s.writer := by
        intro d d' s0 hd; cases hd <;> exact ⟨rfl, rfl, rfl⟩
      cases hs with
      | closingStep _ s0 d d' h1 hs =>
        obtain ⟨k1, k2, k3⟩ := keep hs
        refine key (d := d) (s0 := s0) (by simp [Peer.discs, h1, Reader.discs]) hs ?_
        simp only [Peer.discs, k1, k3, h1, Reader.discs, List.mem_append, List.mem_singleton] at hd hm
        rcases hd with hd | hd
        · exact hd.symm
        · exact absurd (.inr hd) hm
      | readerLeave _ s0 d d' h1 hs =>
        obtain ⟨k1, k2, k3⟩ := keep hs
        refine key (d := d) (s0 := s0) (by simp [Peer.discs, h1, Reader.discs]) hs ?_
        simp only [Peer.discs, k1, k3, h1, Reader.discs, List.mem_append, List.mem_singleton] at hd hm
        rcases hd with hd | hd
        · exact hd.symm
        · exact absurd (.inr hd) hm
      | writerLeave _ s0 d d' h1 hs =>
        obtain ⟨k1, k2, k3⟩ := keep hs
        refine key (d := d) (s0 := s0) (by simp [Peer.discs, h1, Writer.discs]) hs ?_
        simp only [Peer.discs, k1, k2, h1, Writer.discs, List.mem_append, List.mem_singleton] at hd hm
        rcases hd with hd | hd | hd
        · exact absurd (.inl hd) hm
        · exact hd.symm
        · exact absurd (.inr (.inr hd)) hm
      | threadDisc _ s0 l r d d' h1 hs =>
        obtain ⟨k1, k2, k3⟩ := keep hs
        refine key (d := d) (s0 := s0) (by simp [Peer.discs, h1, Thread.discs]) hs ?_
        simp only [Peer.discs, k2, k3, h1, Thread.discs, List.flatMap_append, List.flatMap_cons, List.mem_append,
          List.mem_singleton] at hd hm
        rcases hd with hd | hd | hd | hd | hd
        · exact absurd (.inl hd) hm
        · exact absurd (.inr (.inl hd)) hm
        · exact absurd (.inr (.inr (.inl hd))) hm
        · exact hd.symm
        · exact absurd (.inr (.inr (.inr (.inr hd)))) hm
      | readerDone _ h1 => simp_all [Peer.done, Peer.discs, Reader.discs]
      | writerDone _ h1 => simp_all [Peer.done, Peer.discs, Writer.discs]
      | _ =>
        exfalso
        apply hm
        clear hm key keep ih hi hr
        simp_all [Peer.discs, Reader.discs, Writer.discs, Thread.discs]

/-- **C65, exactly once.** When everything is over and somebody has called `Disconnect`, or the handlers have
run, both were closed exactly once. -/
theorem C65_exactly_once {s : Peer M} (h : Reachable frame s) (hs : Settled s)
    (hd : .disconnect .returned ∈ s.threads ∨ s.reader ≠ .notStarted) : s.quit = 1 ∧ s.conn = 1 := by
  have hi := inv_reachable h
  obtain ⟨hr, hw, ht⟩ := hs
  have hf : s.flag = true := by
    apply returned_flag h
    simp only [Peer.discs, List.mem_append, List.mem_flatMap]
    rcases hd with hd | hd
    · exact .inr (.inr ⟨_, hd, by simp [Thread.discs]⟩)
    · rcases hr with hr | hr
      · exact absurd hr hd
      · left; rw [hr]; simp [Reader.discs]
  have nd : ∀ d ∈ s.discs, d = .returned := by
    intro d hd
    simp only [Peer.discs, List.mem_append, List.mem_flatMap] at hd
    rcases hd with hd | hd | ⟨t, hm, hd⟩
    · rcases hr with hr | hr <;> rw [hr] at hd <;> simp [Reader.discs] at hd
      exact hd
    · rcases hw with hr | hr <;> rw [hr] at hd <;> simp [Writer.discs] at hd
      exact hd
    · have := ht t hm
      cases t <;> simp [Thread.discs] at hd
      subst hd
      cases d <;> simp [CallOver] at this
      rfl
  have c1 : s.discs.count .won = 0 := List.count_eq_zero.2 fun h => by cases nd _ h
  have c2 : s.discs.count .closing = 0 := List.count_eq_zero.2 fun h => by cases nd _ h
  have h1 := hi.quit
  have h2 := hi.conn
  rw [hf] at h1 h2
  simp only [Bool.toNat_true] at h1 h2
  omega

/-! ### C66 -/

/-- **C66.** From any reachable state in which disconnecting has started, but not by the read handler out of
the handling of a message: whatever the schedule, with `c` further calls at most `N + 13 * c` other steps
happen; and whenever the process can do nothing more by itself, both handlers have ended and every call has
returned. -/
theorem C66_completes {s : Peer M} (h : Reachable frame s) (hf : s.flag = true) (hn : ¬ SelfClosing s) :
    ∃ N, ∀ s' n c, Run frame s s' n c → n ≤ N + 13 * c ∧ (Idle frame s' → Settled s') := by
  refine ⟨s.rank, fun s' n c hr => ?_⟩
  obtain ⟨h1, h2, h3⟩ := run_rank hf hn hr
  exact ⟨by omega, fun hi => (idle_settled (inv_reachable (run_reachable h hr)) h1 h2 hi).1⟩

/-- The hypotheses of C66 hold as soon as a call of `Disconnect` from another goroutine has got through. -/
theorem C66_by_other {s : Peer M} (h : Reachable frame s)
    (hd : ∃ d ∈ [Disc.won, .closing, .waiting], .disconnect d ∈ s.threads) : s.flag = true ∧ ¬ SelfClosing s := by
  obtain ⟨d, hd, hm⟩ := hd
  have hi := inv_reachable h
  have ha := hi.act
  have h3 : d = .won ∨ d = .closing ∨ d = .waiting := by simpa using hd
  refine ⟨discs_alone hi (d := d) ?_ h3, ?_⟩
  · simp only [Peer.discs, List.mem_append, List.mem_flatMap]
    exact .inr (.inr ⟨_, hm, by simp [Thread.discs]⟩)
  · intro hs
    have hb : s.flag.toNat ≤ 1 := Bool.toNat_le _
    obtain ⟨l, r, hl⟩ := List.append_of_mem hm
    simp only [Peer.discs, hl, List.count_append, List.flatMap_append, List.flatMap_cons, Thread.discs,
      List.count_cons, List.count_nil] at ha
    rcases hs with hs | hs | hs <;> rw [hs] at ha <;> rcases h3 with rfl | rfl | rfl <;>
      simp [Reader.discs] at ha <;> omega

/-- Two goroutines disconnect a running peer with a third one waiting: the hypotheses of C66 hold, and by C66
there is a settled state after it. -/
example (frame : M → Bytes) : ∃ s : Peer M, Reachable frame s ∧ s.flag = true ∧ ¬ SelfClosing s ∧
    s.threads = [.disconnect .won, .disconnect .returned, .wait] := by
  have h1 : Reachable frame _ := .step (.new (M := M)) (.start _ rfl rfl)
  have h2 := Reachable.step h1 (.callDisconnect _)
  have h3 := Reachable.step h2 (.callDisconnect _)
  have h4 := Reachable.step h3 (.callWait _)
  have h5 := Reachable.step h4 (.threadDisc _ _ [] [.disconnect .cas, .wait] _ _ rfl (.win _ rfl))
  have h6 := Reachable.step h5 (.threadDisc _ _ [.disconnect .won] [.wait] _ _ rfl (.lose _ rfl))
  obtain ⟨hf, hn⟩ := C66_by_other h6 ⟨.won, by simp, by simp⟩
  exact ⟨_, h6, hf, hn, rfl⟩

/-! ### C67 -/

/-- **C67 is false of the code.** Once the read handler closes its own peer (`Ban` during the handling of a
message) with nobody having disconnected before, it never gets out of that call, whatever happens: no schedule
ever leads to the end of the handler or to the return of a `WaitForDisconnect` call (after which the pool would
release the slot). -/
theorem C67_refuted {s : Peer M} (h : Reachable frame s) (hs : SelfClosing s) (s' : Peer M) (n c : Nat)
    (hr : Run frame s s' n c) : SelfClosing s' ∧ ¬ ReaderOver s' ∧ .woken ∉ s'.threads ∧ ¬ Settled s' := by
  have key : SelfClosing s' := by
    induction hr with
    | refl => exact hs
    | call hr' hst ih => exact selfClosing_step hst (inv_reachable (run_reachable h hr')) ih
    | step hr' _ hst ih => exact selfClosing_step hst (inv_reachable (run_reachable h hr')) ih
  have ho : ¬ ReaderOver s' := by
    intro ho
    rcases ho with ho | ho <;> rcases key with k | k | k <;> rw [ho] at k <;> cases k
  exact ⟨key, ho, fun hm => (woken_inv (run_reachable h hr) hm).2 key, fun hx => ho hx.1⟩

/-- Such a state is reached by the first message that gets its sender banned. -/
theorem C67_reached (frame : M → Bytes) : ∃ s : Peer M, Reachable frame s ∧ SelfClosing s := by
  have h1 : Reachable frame _ := .step (.new (M := M)) (.start _ rfl rfl)
  have h2 := Reachable.step h1 (.loopGo _ rfl rfl)
  have h3 := Reachable.step h2 (.deliver _ .close rfl)
  have h4 := Reachable.step h3 (.handleClose _ rfl)
  have h5 := Reachable.step h4 (.closingStep _ _ _ _ rfl (.win _ rfl))
  exact ⟨_, h5, .inl rfl⟩

/-- **C67, the part that holds**: if somebody else had started to disconnect before, the handler's own call
returns at once and everything ends as in C66. -/
theorem C67_lost_race_partial {s : Peer M} (h : Reachable frame s) (hf : s.flag = true)
    (hc : s.reader = .closing .cas) :
    (∀ s', Step frame .own s s' → s'.reader ≠ .closing .cas → s'.reader = .closing .returned) ∧
    ∃ N, ∀ s' n c, Run frame s s' n c → n ≤ N + 13 * c ∧ (Idle frame s' → Settled s') := by
  refine ⟨?_, C66_completes h hf (by rintro (h | h | h) <;> rw [hc] at h <;> cases h)⟩
  have keep : ∀ {d d' : Disc} {s0 : Peer M}, DiscStep d s d' s0 → s0.reader = s.reader := by
    intro d d' s0 hd; cases hd <;> rfl
  intro s' hs hne
  cases hs with
  | closingStep _ s0 d d' h1 hd =>
    rw [hc] at h1; cases h1
    cases hd with
    | win _ h => rw [h] at hf; cases hf
    | lose => rfl
  | writerLeave _ s0 d d' h1 hd => exact absurd ((keep hd).trans hc) hne
  | threadDisc _ s0 l r d d' h1 hd => exact absurd ((keep hd).trans hc) hne
  | _ => simp_all [Peer.done]

/-! ### C68 -/

/-- **C68.** At any time the bytes written to the connection are the complete frames of all accepted messages
but possibly the last one, in the order of acceptance, followed by a part of the last one's frame. The counter
says how long the complete frames are; the last frame is only complete and not yet counted when `Write` is
about to return. The accepted messages are those of the calls that report acceptance, each once. -/
theorem C68_order {s : Peer M} (hne : ∀ m, frame m ≠ []) (h : Reachable frame s) :
    (∃ (done last : List M) (p : Bytes), s.accepted = done ++ last ∧ last.length ≤ 1 ∧
      s.wire = done.flatMap frame ++ p ∧ p <+: last.flatMap frame ∧
      (p = last.flatMap frame → last = [] ∨ ∃ m, s.writer = .writing m []) ∧
      s.bytesSent = UInt64.ofNat (done.flatMap frame).length) ∧
    (s.threads.flatMap takenFrom ++ s.replies).Perm s.accepted := by
  obtain ⟨⟨done, cur, p, ha, hw, hb, hh⟩, ho⟩ := out_reachable hne h
  refine ⟨⟨done, cur, p, ha, ?_, hw, ?_, ?_, hb⟩, ho⟩
  all_goals
    cases hwr : s.writer with
    | notStarted | select => rw [hwr] at hh; obtain ⟨rfl, rfl⟩ := hh; simp
    | got m =>
      rw [hwr] at hh; obtain ⟨rfl, rfl⟩ := hh
      simp [(hne m).symm]
    | writing m rest =>
      rw [hwr] at hh; obtain ⟨rfl, hp⟩ := hh
      simp [← hp]
    | stopping | leaving d =>
      rw [hwr] at hh
      rcases hh with ⟨rfl, rfl⟩ | ⟨m, q, rfl, hq, hp⟩
      · simp
      · simp [← hp, hq]

/-- A state in the middle of the second message, with a third sender waiting. -/
example : ∃ s : Peer Nat, Reachable (fun m => [UInt8.ofNat m, 7]) s ∧ s.accepted = [1, 2] ∧ s.wire = [1, 7, 2] ∧
    s.bytesSent = 2 := by
  let fr : Nat → Bytes := fun m => [UInt8.ofNat m, 7]
  have h1 : Reachable fr _ := .step (.new (M := Nat)) (.start _ rfl rfl)
  have h2 := Reachable.step h1 (.callSend _ 1)
  have h3 := Reachable.step h2 (.callSend _ 2)
  have h4 := Reachable.step h3 (.callSend _ 3)
  have h5 := Reachable.step h4 (.sendTaken _ [] [.send 2, .send 3] 1 rfl rfl)
  have h6 := Reachable.step h5 (.gotWrite _ 1 rfl rfl)
  have h7 := Reachable.step h6 (.chunk _ 1 [1, 7] [] rfl (by simp) rfl)
  have h8 := Reachable.step h7 (.writeDone _ 1 rfl)
  have h9 := Reachable.step h8 (.sendTaken _ [.sent 1 true] [.send 3] 2 rfl rfl)
  have h10 := Reachable.step h9 (.gotWrite _ 2 rfl rfl)
  have h11 := Reachable.step h10 (.chunk _ 2 [2] [7] rfl (by simp) rfl)
  exact ⟨_, h11, rfl, rfl, rfl⟩

/-- **C68 and C07 together.** If the messages are well-formed frames, then what the remote read loop hands on
after receiving what was written so far is a prefix of the accepted messages. -/
theorem C68_received {E : Env} (hmem : 20000000 ≤ E.maxAlloc) {s : Peer (GoodFrame E)}
    (h : Reachable (fun f => frameBytes f.type f.body) s) :
    (P2P.readHandler E s.wire).dispatched <+: messagesOf s.accepted := by
  obtain ⟨⟨done, last, p, ha, -, hw, ⟨q, hq⟩, -⟩, -⟩ := C68_order (by intro m; simp [frameBytes]) h
  have e : s.wire ++ q = streamOf s.accepted := by
    rw [hw, ha, List.append_assoc, hq, streamOf, List.flatMap_append]
  have := C09_causal E hmem s.wire q
  rw [e, (C07_exact_split E hmem _).1] at this
  exact this

end Gringo.Props
