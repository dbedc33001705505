import Verif.Spec.Lifecycle
/-
Invariants of the goroutines of one peer.
-/
namespace Gringo.Lifecycle
open Gringo.Spec

variable {M : Type} {frame : M → Bytes}

/-- The calls of `Disconnect` in progress. -/
def Reader.discs : Reader M → List Disc
  | .closing d | .leaving d => [d]
  | _ => []
def Writer.discs : Writer M → List Disc
  | .leaving d => [d]
  | _ => []
def Thread.discs : Thread M → List Disc
  | .disconnect d => [d]
  | _ => []
def Peer.discs (s : Peer M) : List Disc := s.reader.discs ++ (s.writer.discs ++ s.threads.flatMap Thread.discs)

/-- Whether a handler still counts in the wait group. -/
def Reader.counts : Reader M → Nat
  | .notStarted | .leaving _ => 0
  | _ => 1
def Writer.counts : Writer M → Nat
  | .notStarted | .leaving _ => 0
  | _ => 1

structure Inv (s : Peer M) : Prop where
  quit : s.discs.count .won + s.quit = s.flag.toNat
  conn : s.discs.count .won + s.discs.count .closing + s.conn = s.flag.toNat
  act : s.discs.count .won + s.discs.count .closing + s.discs.count .waiting ≤ s.flag.toNat
  wg : s.wg = s.reader.counts + s.writer.counts
  fine : s.panicked = false
  both : s.reader = .notStarted ↔ s.writer = .notStarted

theorem discStep_inv {d d' : Disc} {s s' : Peer M} (h : DiscStep d s d' s') (n m k : Nat)
    (hq : n + (if d = .won then 1 else 0) + s.quit = s.flag.toNat)
    (hc : n + (if d = .won then 1 else 0) + (m + if d = .closing then 1 else 0) + s.conn = s.flag.toNat)
    (ha : n + (if d = .won then 1 else 0) + (m + if d = .closing then 1 else 0) +
      (k + if d = .waiting then 1 else 0) ≤ s.flag.toNat)
    (hp : s.panicked = false) :
    (n + (if d' = .won then 1 else 0) + s'.quit = s'.flag.toNat ∧
    n + (if d' = .won then 1 else 0) + (m + if d' = .closing then 1 else 0) + s'.conn = s'.flag.toNat ∧
    n + (if d' = .won then 1 else 0) + (m + if d' = .closing then 1 else 0) +
      (k + if d' = .waiting then 1 else 0) ≤ s'.flag.toNat ∧
    s'.panicked = false) ∧ s'.wg = s.wg ∧ s'.reader = s.reader ∧ s'.writer = s.writer ∧ s'.threads = s.threads ∧
    s'.accepted = s.accepted ∧ s'.replies = s.replies ∧ s'.wire = s.wire ∧ s'.bytesSent = s.bytesSent := by
  have hb : s.flag.toNat ≤ 1 := Bool.toNat_le _
  cases h with
  | win _ h => simp_all
  | lose _ h => simp_all
  | closeQuit _ =>
    simp only [reduceCtorEq, if_true, if_false] at hq hc ha
    have : s.quit = 0 := by omega
    simp only [Peer.closeQuit, reduceCtorEq, if_true, if_false, this, hp, and_self, and_true]
    simp
    omega
  | closeConn _ =>
    simp only [reduceCtorEq, if_true, if_false] at hq hc ha
    simp only [reduceCtorEq, if_true, if_false, hp, and_self, and_true]
    omega
  | wait _ h =>
    simp_all
    omega

theorem inv_step {k : Kind} {s s' : Peer M} (hs : Step frame k s s') (h : Inv s) : Inv s' := by
  obtain ⟨hq, hc, ha, hw, hp, hb⟩ := h
  cases hs with
  | closingStep _ s0 d d' h hd =>
    simp only [Peer.discs, h, Reader.discs, List.count_append, List.count_cons, List.count_nil, beq_iff_eq] at hq hc ha
    obtain ⟨⟨h1, h2, h2a, h3⟩, h4, h5, h6, h7, -⟩ := discStep_inv hd
      (List.count .won s.writer.discs + List.count .won (s.threads.flatMap Thread.discs))
      (List.count .closing s.writer.discs + List.count .closing (s.threads.flatMap Thread.discs))
      (List.count .waiting s.writer.discs + List.count .waiting (s.threads.flatMap Thread.discs))
      (by omega) (by omega) (by omega) hp
    constructor
    · simp only [Peer.discs, Reader.discs, List.count_append, List.count_cons, List.count_nil, beq_iff_eq, h6, h7]; omega
    · simp only [Peer.discs, Reader.discs, List.count_append, List.count_cons, List.count_nil, beq_iff_eq, h6, h7]; omega
    · simp only [Peer.discs, Reader.discs, List.count_append, List.count_cons, List.count_nil, beq_iff_eq, h6, h7]; omega
    · simp only [h4, hw, h, h6, Reader.counts]
    · exact h3
    · rw [h] at hb; simpa [h6] using hb
  | readerLeave _ s0 d d' h hd =>
    simp only [Peer.discs, h, Reader.discs, List.count_append, List.count_cons, List.count_nil, beq_iff_eq] at hq hc ha
    obtain ⟨⟨h1, h2, h2a, h3⟩, h4, h5, h6, h7, -⟩ := discStep_inv hd
      (List.count .won s.writer.discs + List.count .won (s.threads.flatMap Thread.discs))
      (List.count .closing s.writer.discs + List.count .closing (s.threads.flatMap Thread.discs))
      (List.count .waiting s.writer.discs + List.count .waiting (s.threads.flatMap Thread.discs))
      (by omega) (by omega) (by omega) hp
    constructor
    · simp only [Peer.discs, Reader.discs, List.count_append, List.count_cons, List.count_nil, beq_iff_eq, h6, h7]; omega
    · simp only [Peer.discs, Reader.discs, List.count_append, List.count_cons, List.count_nil, beq_iff_eq, h6, h7]; omega
    · simp only [Peer.discs, Reader.discs, List.count_append, List.count_cons, List.count_nil, beq_iff_eq, h6, h7]; omega
    · simp only [h4, hw, h, h6, Reader.counts]
    · exact h3
    · rw [h] at hb; simpa [h6] using hb
  | writerLeave _ s0 d d' h hd =>
    simp only [Peer.discs, h, Writer.discs, List.count_append, List.count_cons, List.count_nil, beq_iff_eq] at hq hc ha
    obtain ⟨⟨h1, h2, h2a, h3⟩, h4, h5, h6, h7, -⟩ := discStep_inv hd
      (List.count .won s.reader.discs + List.count .won (s.threads.flatMap Thread.discs))
      (List.count .closing s.reader.discs + List.count .closing (s.threads.flatMap Thread.discs))
      (List.count .waiting s.reader.discs + List.count .waiting (s.threads.flatMap Thread.discs))
      (by omega) (by omega) (by omega) hp
    constructor
    · simp only [Peer.discs, Writer.discs, List.count_append, List.count_cons, List.count_nil, beq_iff_eq, h5, h7]; omega
    · simp only [Peer.discs, Writer.discs, List.count_append, List.count_cons, List.count_nil, beq_iff_eq, h5, h7]; omega
    · simp only [Peer.discs, Writer.discs, List.count_append, List.count_cons, List.count_nil, beq_iff_eq, h5, h7]; omega
    · simp only [h4, hw, h, h5, Writer.counts]
    · exact h3
    · rw [h] at hb; simpa [h5] using hb
  | threadDisc _ s0 l r d d' h hd =>
    simp only [Peer.discs, h, Thread.discs, List.count_append, List.count_cons, List.count_nil, beq_iff_eq,
      List.flatMap_append, List.flatMap_cons] at hq hc ha
    obtain ⟨⟨h1, h2, h2a, h3⟩, h4, h5, h6, h7, -⟩ := discStep_inv hd
      (List.count .won s.reader.discs + List.count .won s.writer.discs + List.count .won (l.flatMap Thread.discs) +
        List.count .won (r.flatMap Thread.discs))
      (List.count .closing s.reader.discs + List.count .closing s.writer.discs +
        List.count .closing (l.flatMap Thread.discs) + List.count .closing (r.flatMap Thread.discs))
      (List.count .waiting s.reader.discs + List.count .waiting s.writer.discs +
        List.count .waiting (l.flatMap Thread.discs) + List.count .waiting (r.flatMap Thread.discs))
      (by omega) (by omega) (by omega) hp
    constructor
    · simp only [Peer.discs, Thread.discs, List.count_append, List.count_cons, List.count_nil, beq_iff_eq, h5, h6,
        List.flatMap_append, List.flatMap_cons]; omega
    · simp only [Peer.discs, Thread.discs, List.count_append, List.count_cons, List.count_nil, beq_iff_eq, h5, h6,
        List.flatMap_append, List.flatMap_cons]; omega
    · simp only [Peer.discs, Thread.discs, List.count_append, List.count_cons, List.count_nil, beq_iff_eq, h5, h6,
        List.flatMap_append, List.flatMap_cons]; omega
    · simp only [h4, hw, h5, h6]
    · exact h3
    · simpa [h5, h6] using hb
  | readerDone _ h =>
    constructor
    · simpa [Peer.discs, h, Reader.discs, Peer.done] using hq
    · simpa [Peer.discs, h, Reader.discs, Peer.done] using hc
    · simpa [Peer.discs, h, Reader.discs, Peer.done] using ha
    · simp only [h, Reader.counts] at hw
      simp only [Peer.done, Reader.counts]; omega
    · simp only [h, Reader.counts] at hw
      have : s.wg ≠ 0 := by omega
      simp [Peer.done, hp, this]
    · simpa [h, Peer.done] using hb
  | writerDone _ h =>
    constructor
    · simpa [Peer.discs, h, Writer.discs, Peer.done] using hq
    · simpa [Peer.discs, h, Writer.discs, Peer.done] using hc
    · simpa [Peer.discs, h, Writer.discs, Peer.done] using ha
    · simp only [h, Writer.counts] at hw
      simp only [Peer.done, Writer.counts]; omega
    · simp only [h, Writer.counts] at hw
      have : s.wg ≠ 0 := by omega
      simp [Peer.done, hp, this]
    · simpa [h, Peer.done] using hb
  | waitEnd _ l r h hg =>
    constructor
    · simpa [Peer.discs, h, Thread.discs] using hq
    · simpa [Peer.discs, h, Thread.discs] using hc
    · simpa [Peer.discs, h, Thread.discs] using ha
    · exact hw
    · exact hp
    · exact hb
  | _ =>
    constructor <;> simp_all [Peer.discs, Reader.discs, Writer.discs, Thread.discs, Reader.counts, Writer.counts]

/-- At most one call of `Disconnect` is past its first line. -/
theorem discs_alone {s : Peer M} (h : Inv s) {d : Disc} (hd : d ∈ s.discs) (ha : d = .won ∨ d = .closing ∨ d = .waiting) :
    s.flag = true := by
  have h1 := h.act
  have : 0 < s.discs.count d := List.count_pos_iff.2 hd
  cases hf : s.flag with
  | true => rfl
  | false =>
    rw [hf] at h1
    simp only [Bool.toNat_false] at h1
    rcases ha with rfl | rfl | rfl <;> omega

theorem inv_reachable {s : Peer M} (h : Reachable frame s) : Inv s := by
  induction h with
  | new => constructor <;> simp [Peer.new, Peer.discs, Reader.discs, Writer.discs, Reader.counts, Writer.counts]
  | step _ hs ih => exact inv_step hs ih

/-- How much is left to do once the flag is set. -/
def Disc.rank : Disc → Nat
  | .cas => 4
  | .won => 3
  | .closing => 2
  | .waiting => 1
  | .returned => 0
def Reader.rank : Reader M → Nat
  | .notStarted => 0
  | .loop => 6
  | .reading => 13
  | .handling _ => 12
  | .replying _ => 7
  | .closing d => 7 + d.rank
  | .stopping => 5
  | .leaving d => d.rank
def Writer.rank : Writer M → Nat
  | .notStarted => 0
  | .select => 7
  | .got _ => 6
  | .writing _ rest => 8 + rest.length
  | .stopping => 5
  | .leaving d => d.rank
def Thread.rank : Thread M → Nat
  | .disconnect d => d.rank
  | .send _ => 1
  | .sent _ _ => 0
  | .wait => 2
  | .waitGroup => 1
  | .woken => 0
def Peer.rank (s : Peer M) : Nat := s.reader.rank + s.writer.rank + (s.threads.map Thread.rank).sum

theorem discStep_rank {d d' : Disc} {s s' : Peer M} (h : DiscStep d s d' s') (hf : s.flag = true) :
    d'.rank < d.rank ∧ s'.flag = true ∧ s'.reader = s.reader ∧ s'.writer = s.writer ∧ s'.threads = s.threads ∧
    (d = .cas → d' = .returned) := by
  cases h with
  | win _ h => rw [h] at hf; cases hf
  | _ => simp [Disc.rank, Peer.closeQuit, hf]

theorem rank_step {k : Kind} {s s' : Peer M} (hs : Step frame k s s') (hf : s.flag = true) :
    s'.flag = true ∧ (if k = .call then s'.rank ≤ s.rank + 13 else s'.rank < s.rank) ∧
    (¬ SelfClosing s → ¬ SelfClosing s') := by
  cases hs with
  | closingStep _ s0 d d' h hd =>
    obtain ⟨h1, h2, h3, h4, h5, h6⟩ := discStep_rank hd hf
    refine ⟨h2, ?_, ?_⟩
    · simp only [Peer.rank, h, h4, h5, Reader.rank, reduceCtorEq, if_false]; omega
    · intro hn
      cases d with
      | cas => rw [h6 rfl]; simp [SelfClosing]
      | won => exact absurd (.inl h) hn
      | closing => exact absurd (.inr (.inl h)) hn
      | waiting => exact absurd (.inr (.inr h)) hn
      | returned => cases hd
  | readerLeave _ s0 d d' h hd =>
    obtain ⟨h1, h2, h3, h4, h5, h6⟩ := discStep_rank hd hf
    refine ⟨h2, ?_, by simp [SelfClosing]⟩
    simp only [Peer.rank, h, h4, h5, Reader.rank, reduceCtorEq, if_false]; omega
  | writerLeave _ s0 d d' h hd =>
    obtain ⟨h1, h2, h3, h4, h5, h6⟩ := discStep_rank hd hf
    refine ⟨h2, ?_, by simp [SelfClosing, h3]⟩
    simp only [Peer.rank, h, h3, h5, Writer.rank, reduceCtorEq, if_false]; omega
  | threadDisc _ s0 l r d d' h hd =>
    obtain ⟨h1, h2, h3, h4, h5, h6⟩ := discStep_rank hd hf
    refine ⟨h2, ?_, by simp [SelfClosing, h3]⟩
    simp only [Peer.rank, h, h3, h4, Thread.rank, reduceCtorEq, if_false, List.map_append, List.map_cons,
      List.sum_append, List.sum_cons]; omega
  | readerDone _ h =>
    refine ⟨hf, ?_, by simp [SelfClosing]⟩
    simp only [Peer.rank, h, Reader.rank, Disc.rank, Peer.done, reduceCtorEq, if_false]; omega
  | writerDone _ h =>
    refine ⟨hf, ?_, by simp [SelfClosing, Peer.done]⟩
    simp only [Peer.rank, h, Writer.rank, Disc.rank, Peer.done, reduceCtorEq, if_false]; omega
  | loopGo _ h hf' => rw [hf'] at hf; cases hf
  | gotWrite _ m h hf' => rw [hf'] at hf; cases hf
  | chunk _ m p q h hp hc =>
    refine ⟨hf, ?_, by simp [SelfClosing]⟩
    have : 0 < p.length := List.length_pos_iff.2 hp
    simp only [Peer.rank, h, Writer.rank, reduceCtorEq, if_false, List.length_append]; omega
  | start _ hr hw =>
    refine ⟨hf, ?_, by simp [SelfClosing]⟩
    simp only [Peer.rank, hr, hw, Writer.rank, Reader.rank, if_true]; omega
  | _ =>
    refine ⟨hf, ?_, by simp_all [SelfClosing]⟩
    simp_all only [Peer.rank, Reader.rank, Writer.rank, Thread.rank, Disc.rank, reduceCtorEq, if_false, if_true,
      List.map_append, List.map_cons, List.map_nil, List.sum_append, List.sum_cons, List.sum_nil, List.length_nil] <;>
      omega

/-- A call of `Disconnect` that is neither over nor waiting can go on. -/
theorem disc_enabled (d : Disc) (s : Peer M) (h : d ≠ .returned) (hw : d = .waiting → s.wg = 0) :
    ∃ d' s', DiscStep d s d' s' := by
  cases d with
  | cas =>
    cases hf : s.flag with
    | true => exact ⟨_, _, .lose s hf⟩
    | false => exact ⟨_, _, .win s hf⟩
  | won => exact ⟨_, _, .closeQuit s⟩
  | closing => exact ⟨_, _, .closeConn s⟩
  | waiting => exact ⟨_, _, .wait s (hw rfl)⟩
  | returned => exact absurd rfl h

theorem idle_settled {s : Peer M} (h : Inv s) (hf : s.flag = true) (hn : ¬ SelfClosing s) (hi : Idle frame s) :
    Settled s ∧ s.quit = 1 ∧ s.conn = 1 := by
  obtain ⟨hq, hc, -, hw, -, -⟩ := h
  have dr : ∀ d, s.reader = .leaving d → d ≠ .waiting → d = .returned := by
    intro d hd h1
    refine Classical.byContradiction fun h2 => ?_
    obtain ⟨d', s', h3⟩ := disc_enabled d s h2 (fun h => absurd h h1)
    exact hi _ (.readerLeave s s' d d' hd h3)
  have dc : ∀ d, s.reader = .closing d → False := by
    intro d hd
    by_cases h2 : d = .returned
    · subst h2; exact hi _ (.closingEnd s hd)
    · have h1 : d ≠ .waiting := by rintro rfl; exact hn (.inr (.inr hd))
      obtain ⟨d', s', h3⟩ := disc_enabled d s h2 (fun h => absurd h h1)
      exact hi _ (.closingStep s s' d d' hd h3)
  have dw : ∀ d, s.writer = .leaving d → d ≠ .waiting → d = .returned := by
    intro d hd h1
    refine Classical.byContradiction fun h2 => ?_
    obtain ⟨d', s', h3⟩ := disc_enabled d s h2 (fun h => absurd h h1)
    exact hi _ (.writerLeave s s' d d' hd h3)
  have dt : ∀ d, .disconnect d ∈ s.threads → d ≠ .waiting → d = .returned := by
    intro d hd h1
    refine Classical.byContradiction fun h2 => ?_
    obtain ⟨d', s', h3⟩ := disc_enabled d s h2 (fun h => absurd h h1)
    obtain ⟨l, r, h4⟩ := List.append_of_mem hd
    exact hi _ (.threadDisc s s' l r d d' h4 h3)
  have nd : ∀ d ∈ s.discs, d = .waiting ∨ d = .returned := by
    intro d hd
    by_cases h1 : d = .waiting
    · exact .inl h1
    · right
      simp only [Peer.discs, List.mem_append, List.mem_flatMap] at hd
      rcases hd with hd | hd | ⟨t, ht, hd⟩
      · cases hr : s.reader <;> rw [hr] at hd <;> simp [Reader.discs] at hd
        · exact (dc _ hr).elim
        · subst hd; exact dr _ hr h1
      · cases hr : s.writer <;> rw [hr] at hd <;> simp [Writer.discs] at hd
        subst hd; exact dw _ hr h1
      · cases t <;> simp [Thread.discs] at hd
        subst hd; exact dt _ ht h1
  have c1 : s.discs.count .won = 0 := List.count_eq_zero.2 fun h => by rcases nd _ h with h | h <;> cases h
  have c2 : s.discs.count .closing = 0 := List.count_eq_zero.2 fun h => by rcases nd _ h with h | h <;> cases h
  rw [hf] at hq hc
  simp only [Bool.toNat_true] at hq hc
  have q1 : s.quit = 1 := by omega
  have n1 : s.conn = 1 := by omega
  have hr : s.reader = .notStarted ∨ ∃ d, s.reader = .leaving d := by
    cases hr : s.reader with
    | notStarted => exact .inl rfl
    | loop => exact (hi _ (.loopEnd s hr hf)).elim
    | reading => exact (hi _ (.readClosed s hr (by omega))).elim
    | handling a =>
      cases a with
      | nothing => exact (hi _ (.handleNothing s hr)).elim
      | reply m => exact (hi _ (.handleReply s m hr)).elim
      | close => exact (hi _ (.handleClose s hr)).elim
    | replying m => exact (hi _ (.replyQuit s m hr (by omega))).elim
    | closing d => exact (dc _ hr).elim
    | stopping => exact (hi _ (.readerDone s hr)).elim
    | leaving d => exact .inr ⟨d, rfl⟩
  have hwr : s.writer = .notStarted ∨ ∃ d, s.writer = .leaving d := by
    cases hr : s.writer with
    | notStarted => exact .inl rfl
    | select => exact (hi _ (.selectQuit s hr (by omega))).elim
    | got m => exact (hi _ (.gotDrop s m hr hf)).elim
    | writing m rest =>
      by_cases h0 : rest = []
      · subst h0; exact (hi _ (.writeDone s m hr)).elim
      · exact (hi _ (.writeClosed s m rest hr h0 (by omega))).elim
    | stopping => exact (hi _ (.writerDone s hr)).elim
    | leaving d => exact .inr ⟨d, rfl⟩
  have g0 : s.wg = 0 := by
    rw [hw]
    rcases hr with hr | ⟨d, hr⟩ <;> rcases hwr with hwr | ⟨d', hwr⟩ <;> rw [hr, hwr] <;> rfl
  refine ⟨⟨?_, ?_, ?_⟩, q1, n1⟩
  · rcases hr with hr | ⟨d, hr⟩
    · exact .inl hr
    · right
      by_cases h1 : d = .waiting
      · subst h1; exact (hi _ (.readerLeave s _ _ _ hr (.wait s g0))).elim
      · rw [hr, dr d hr h1]
  · rcases hwr with hr | ⟨d, hr⟩
    · exact .inl hr
    · right
      by_cases h1 : d = .waiting
      · subst h1; exact (hi _ (.writerLeave s _ _ _ hr (.wait s g0))).elim
      · rw [hr, dw d hr h1]
  · intro t ht
    obtain ⟨l, r, hl⟩ := List.append_of_mem ht
    cases t with
    | disconnect d =>
      by_cases h1 : d = .waiting
      · subst h1; exact (hi _ (.threadDisc s _ l r _ _ hl (.wait s g0))).elim
      · rw [dt d ht h1]; trivial
    | send m => exact (hi _ (.sendQuit s l r m hl (by omega))).elim
    | sent _ _ => trivial
    | wait => exact (hi _ (.waitQuit s l r hl (by omega))).elim
    | waitGroup => exact (hi _ (.waitEnd s l r hl g0)).elim
    | woken => trivial

theorem run_reachable {s s' : Peer M} {n c : Nat} (h : Reachable frame s) (hr : Run frame s s' n c) :
    Reachable frame s' := by
  induction hr with
  | refl => exact h
  | call _ hs ih => exact .step ih hs
  | step _ _ hs ih => exact .step ih hs

theorem run_rank {s s' : Peer M} {n c : Nat} (hf : s.flag = true) (hn : ¬ SelfClosing s)
    (hr : Run frame s s' n c) : s'.flag = true ∧ ¬ SelfClosing s' ∧ s'.rank + n ≤ s.rank + 13 * c := by
  induction hr with
  | refl => exact ⟨hf, hn, by omega⟩
  | call _ hs ih =>
    obtain ⟨i1, i2, i3⟩ := ih
    obtain ⟨h1, h2, h3⟩ := rank_step hs i1
    rw [if_pos rfl] at h2
    exact ⟨h1, h3 i2, by omega⟩
  | step _ hk hs ih =>
    obtain ⟨i1, i2, i3⟩ := ih
    obtain ⟨h1, h2, h3⟩ := rank_step hs i1
    rw [if_neg hk] at h2
    exact ⟨h1, h3 i2, by omega⟩

/-- While the read handler disconnects itself it cannot get any further than waiting. -/
theorem selfClosing_step {k : Kind} {s s' : Peer M} (hs : Step frame k s s') (hi : Inv s) (h : SelfClosing s) :
    SelfClosing s' := by
  have hw : 0 < s.wg := by
    rw [hi.wg]
    rcases h with h | h | h <;> rw [h] <;> simp only [Reader.counts] <;> omega
  have keep : ∀ {d d' : Disc} {s0 : Peer M}, DiscStep d s d' s0 → s0.reader = s.reader := by
    intro d d' s0 hd; cases hd <;> rfl
  cases hs with
  | closingStep _ s0 d d' hd hs =>
    cases hs with
    | win => left; rfl
    | lose => rcases h with h | h | h <;> rw [hd] at h <;> cases h
    | closeQuit => right; left; rfl
    | closeConn => right; right; rfl
    | wait _ h0 => omega
  | writerLeave _ s0 d d' hd hs => simpa [SelfClosing, keep hs] using h
  | threadDisc _ s0 l r d d' hd hs => simpa [SelfClosing, keep hs] using h
  | _ => simp_all [SelfClosing, Peer.done]

/-- A call of `WaitForDisconnect` only waits for the group after the flag was set. -/
theorem waitGroup_inv {s : Peer M} (hr : Reachable frame s) (h : .waitGroup ∈ s.threads) : s.flag = true := by
  induction hr with
  | new => cases h
  | @step s s' k hr hs ih =>
    by_cases hm : .waitGroup ∈ s.threads
    · exact (rank_step hs (ih hm)).1
    · have keep : ∀ {d d' : Disc} {s0 : Peer M}, DiscStep d s d' s0 → s0.threads = s.threads := by
        intro d d' s0 hd; cases hd <;> rfl
      have hi := inv_reachable hr
      cases hs with
      | waitQuit _ l r hl hq =>
        have := hi.quit
        cases hf : s.flag with
        | true => rfl
        | false => rw [hf] at this; simp only [Bool.toNat_false] at this; omega
      | closingStep _ s0 d d' hd hs => rw [keep hs] at h; exact absurd h hm
      | readerLeave _ s0 d d' hd hs => rw [keep hs] at h; exact absurd h hm
      | writerLeave _ s0 d d' hd hs => rw [keep hs] at h; exact absurd h hm
      | threadDisc _ s0 l r d d' hd hs => simp_all
      | _ => simp_all [Peer.done]

/-- The steps of a peer never reopen `quit`. -/
theorem quit_mono {k : Kind} {s s' : Peer M} (hs : Step frame k s s') : s.quit ≤ s'.quit := by
  have keep : ∀ {d d' : Disc} {s0 : Peer M}, DiscStep d s d' s0 → s.quit ≤ s0.quit := by
    intro d d' s0 hd; cases hd <;> simp [Peer.closeQuit]
  cases hs with
  | closingStep _ s0 d d' h1 hd => have := keep hd; exact this
  | readerLeave _ s0 d d' h1 hd => have := keep hd; exact this
  | writerLeave _ s0 d d' h1 hd => have := keep hd; exact this
  | threadDisc _ s0 l r d d' h1 hd => have := keep hd; exact this
  | _ => exact Nat.le_refl _

/-- A call of `WaitForDisconnect` only waits for the group after `quit` was closed. -/
theorem waitGroup_quit {s : Peer M} (hr : Reachable frame s) (h : .waitGroup ∈ s.threads) : 0 < s.quit := by
  induction hr with
  | new => cases h
  | @step s s' k hr hs ih =>
    by_cases hm : .waitGroup ∈ s.threads
    · exact Nat.lt_of_lt_of_le (ih hm) (quit_mono hs)
    · have keep : ∀ {d d' : Disc} {s0 : Peer M}, DiscStep d s d' s0 → s0.threads = s.threads := by
        intro d d' s0 hd; cases hd <;> rfl
      cases hs with
      | waitQuit _ l r hl hq => exact hq
      | closingStep _ s0 d d' hd hs => rw [keep hs] at h; exact absurd h hm
      | readerLeave _ s0 d d' hd hs => rw [keep hs] at h; exact absurd h hm
      | writerLeave _ s0 d d' hd hs => rw [keep hs] at h; exact absurd h hm
      | threadDisc _ s0 l r d d' hd hs => simp_all
      | _ => simp_all [Peer.done]

/-- No call of `WaitForDisconnect` returns before the read handler is out of reach of closing itself. -/
theorem woken_inv {s : Peer M} (hr : Reachable frame s) (h : .woken ∈ s.threads) :
    s.flag = true ∧ ¬ SelfClosing s := by
  induction hr with
  | new => cases h
  | @step s s' k hr hs ih =>
    by_cases hm : .woken ∈ s.threads
    · obtain ⟨i1, i2⟩ := ih hm
      obtain ⟨h1, -, h3⟩ := rank_step hs i1
      exact ⟨h1, h3 i2⟩
    · have keep : ∀ {d d' : Disc} {s0 : Peer M}, DiscStep d s d' s0 → s0.threads = s.threads := by
        intro d d' s0 hd; cases hd <;> rfl
      have hi := inv_reachable hr
      cases hs with
      | waitEnd _ l r hl hg =>
        have hf := waitGroup_inv hr (by rw [hl]; simp)
        refine ⟨hf, ?_⟩
        intro hsc
        have hw := hi.wg
        have hrd : s.reader.counts = 0 := by omega
        rcases hsc with h | h | h <;> simp only at h <;> rw [h] at hrd <;> cases hrd
      | closingStep _ s0 d d' hd hs => rw [keep hs] at h; exact absurd h hm
      | readerLeave _ s0 d d' hd hs => rw [keep hs] at h; exact absurd h hm
      | writerLeave _ s0 d d' hd hs => rw [keep hs] at h; exact absurd h hm
      | threadDisc _ s0 l r d d' hd hs => simp_all
      | _ => simp_all [Peer.done]

/-! ### What is written -/

/-- The message being sent, and how far it got. -/
def Writer.Holds (frame : M → Bytes) (cur : List M) (p : Bytes) : Writer M → Prop
  | .notStarted | .select => cur = [] ∧ p = []
  | .got m => cur = [m] ∧ p = []
  | .writing m rest => cur = [m] ∧ p ++ rest = frame m
  | .stopping | .leaving _ => (cur = [] ∧ p = []) ∨ ∃ m q, cur = [m] ∧ q ≠ [] ∧ p ++ q = frame m

structure OutInv (frame : M → Bytes) (s : Peer M) : Prop where
  out : ∃ done cur p, s.accepted = done ++ cur ∧ s.wire = done.flatMap frame ++ p ∧
    s.bytesSent = UInt64.ofNat (done.flatMap frame).length ∧ s.writer.Holds frame cur p
  once : (s.threads.flatMap takenFrom ++ s.replies).Perm s.accepted

theorem perm_insert (l r : List M) (rep acc : List M) (m : M) (h : (l ++ (r ++ rep)).Perm acc) :
    (l ++ ([m] ++ r ++ rep)).Perm (acc ++ [m]) := by
  have h1 : (l ++ ([m] ++ r ++ rep)).Perm (m :: (l ++ (r ++ rep))) := by
    simp only [List.cons_append, List.nil_append]
    exact List.perm_middle
  refine h1.trans (((List.perm_cons m).2 h).trans ?_)
  exact (List.perm_append_singleton m acc).symm

theorem out_step {k : Kind} {s s' : Peer M} (hne : ∀ m, frame m ≠ []) (hs : Step frame k s s')
    (h : OutInv frame s) : OutInv frame s' := by
  obtain ⟨⟨done, cur, p, ha, hw, hb, hh⟩, ho⟩ := h
  have keep : ∀ {d d' : Disc} {s0 : Peer M}, DiscStep d s d' s0 → s0.threads = s.threads ∧ s0.writer = s.writer ∧
      s0.accepted = s.accepted ∧ s0.replies = s.replies ∧ s0.wire = s.wire ∧ s0.bytesSent = s.bytesSent := by
    intro d d' s0 hd; cases hd <;> exact ⟨rfl, rfl, rfl, rfl, rfl, rfl⟩
  cases hs with
  | start _ h1 h2 =>
    rw [h2] at hh
    exact ⟨⟨done, cur, p, ha, hw, hb, hh⟩, ho⟩
  | callDisconnect => exact ⟨⟨done, cur, p, ha, hw, hb, hh⟩, by simpa [takenFrom] using ho⟩
  | callSend => exact ⟨⟨done, cur, p, ha, hw, hb, hh⟩, by simpa [takenFrom] using ho⟩
  | callWait => exact ⟨⟨done, cur, p, ha, hw, hb, hh⟩, by simpa [takenFrom] using ho⟩
  | replyTaken _ m h1 h2 =>
    rw [h2] at hh
    obtain ⟨rfl, rfl⟩ := hh
    refine ⟨⟨done, [m], [], by simp only [ha, List.append_nil], hw, hb, rfl, rfl⟩, ?_⟩
    simp only
    rw [← List.append_assoc]
    exact ho.append_right _
  | closingStep _ s0 d d' h1 hd =>
    obtain ⟨k1, k2, k3, k4, k5, k6⟩ := keep hd
    exact ⟨⟨done, cur, p, by rw [← ha, ← k3], by rw [← hw, ← k5], by rw [← hb, ← k6], by simpa only [k2] using hh⟩,
      by simpa only [k1, k3, k4] using ho⟩
  | readerLeave _ s0 d d' h1 hd =>
    obtain ⟨k1, k2, k3, k4, k5, k6⟩ := keep hd
    exact ⟨⟨done, cur, p, by rw [← ha, ← k3], by rw [← hw, ← k5], by rw [← hb, ← k6], by simpa only [k2] using hh⟩,
      by simpa only [k1, k3, k4] using ho⟩
  | writerLeave _ s0 d d' h1 hd =>
    obtain ⟨k1, k2, k3, k4, k5, k6⟩ := keep hd
    rw [h1] at hh
    exact ⟨⟨done, cur, p, by rw [← ha, ← k3], by rw [← hw, ← k5], by rw [← hb, ← k6], hh⟩,
      by simpa only [k1, k3, k4] using ho⟩
  | threadDisc _ s0 l r d d' h1 hd =>
    obtain ⟨k1, k2, k3, k4, k5, k6⟩ := keep hd
    refine ⟨⟨done, cur, p, by rw [← ha, ← k3], by rw [← hw, ← k5], by rw [← hb, ← k6], by simpa only [k2] using hh⟩, ?_⟩
    rw [h1] at ho
    simpa [k3, k4, takenFrom] using ho
  | gotDrop _ m h1 hf =>
    rw [h1] at hh
    obtain ⟨rfl, rfl⟩ := hh
    exact ⟨⟨done, [m], [], ha, hw, hb, .inr ⟨m, frame m, rfl, hne m, rfl⟩⟩, ho⟩
  | gotWrite _ m h1 hf =>
    rw [h1] at hh
    obtain ⟨rfl, rfl⟩ := hh
    exact ⟨⟨done, [m], [], ha, hw, hb, rfl, rfl⟩, ho⟩
  | chunk _ m x q h1 hx hc =>
    rw [h1] at hh
    obtain ⟨rfl, hp⟩ := hh
    exact ⟨⟨done, [m], p ++ x, ha, by simp only [hw, List.append_assoc], hb, rfl, by rw [List.append_assoc]; exact hp⟩, ho⟩
  | writeFail _ m q h1 hq =>
    rw [h1] at hh
    obtain ⟨rfl, hp⟩ := hh
    exact ⟨⟨done, [m], p, ha, hw, hb, .inr ⟨m, q, rfl, hq, hp⟩⟩, ho⟩
  | writeClosed _ m q h1 hq hc =>
    rw [h1] at hh
    obtain ⟨rfl, hp⟩ := hh
    exact ⟨⟨done, [m], p, ha, hw, hb, .inr ⟨m, q, rfl, hq, hp⟩⟩, ho⟩
  | writeDone _ m h1 =>
    rw [h1] at hh
    obtain ⟨rfl, hp⟩ := hh
    rw [List.append_nil] at hp
    subst hp
    refine ⟨⟨done ++ [m], [], [], by simp only [ha, List.append_nil], by simp [hw], ?_, rfl, rfl⟩, ho⟩
    simp [hb, UInt64.ofNat_add]
  | selectQuit _ h1 hq =>
    rw [h1] at hh
    exact ⟨⟨done, cur, p, ha, hw, hb, .inl hh⟩, ho⟩
  | writerDone _ h1 =>
    rw [h1] at hh
    exact ⟨⟨done, cur, p, ha, hw, hb, hh⟩, ho⟩
  | sendQuit _ l r m h1 hq =>
    rw [h1] at ho
    exact ⟨⟨done, cur, p, ha, hw, hb, hh⟩, by simpa [takenFrom] using ho⟩
  | sendTaken _ l r m h1 h2 =>
    rw [h2] at hh
    obtain ⟨rfl, rfl⟩ := hh
    rw [h1] at ho
    refine ⟨⟨done, [m], [], by simp only [ha, List.append_nil], hw, hb, rfl, rfl⟩, ?_⟩
    simp only [List.flatMap_append, List.flatMap_cons, takenFrom, List.append_assoc, List.nil_append] at ho ⊢
    have := perm_insert _ _ _ _ m ho
    simpa only [List.append_assoc] using this
  | waitQuit _ l r h1 hq =>
    rw [h1] at ho
    exact ⟨⟨done, cur, p, ha, hw, hb, hh⟩, by simpa [takenFrom] using ho⟩
  | waitEnd _ l r h1 hg =>
    rw [h1] at ho
    exact ⟨⟨done, cur, p, ha, hw, hb, hh⟩, by simpa [takenFrom] using ho⟩
  | _ => exact ⟨⟨done, cur, p, ha, hw, hb, hh⟩, ho⟩

theorem out_reachable {s : Peer M} (hne : ∀ m, frame m ≠ []) (h : Reachable frame s) : OutInv frame s := by
  induction h with
  | new => exact ⟨⟨[], [], [], rfl, rfl, rfl, rfl, rfl⟩, by simp [Peer.new]⟩
  | step _ hs ih => exact out_step hne hs ih

end Gringo.Lifecycle
