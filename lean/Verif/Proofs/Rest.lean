import Verif.Proofs.Talk
import Verif.Spec.Rest
/-
Helper lemmas for Props/Rest.lean.
-/
namespace Gringo.Talk
open Gringo.P2P Gringo.Spec Gringo.Lifecycle Gringo.Props

variable {E : Env}

/-! ### Work does not go on for ever -/

/-- How often a message may still be taken for writing, and what else there is to do, short of writing. -/
def readerLeft : Reader (Message E) → Nat
  | .notStarted => 0
  | .loop => 10
  | .reading => 9
  | .handling _ => 21
  | .replying _ => 20
  | .closing d => 11 + d.rank
  | .stopping => 6
  | .leaving d => 1 + d.rank
def writerLeft : Writer (Message E) → Nat
  | .notStarted => 0
  | .stopping => 6
  | .leaving d => 1 + d.rank
  | _ => 8
def threadLeft : Thread (Message E) → Nat
  | .disconnect d => d.rank
  | .send _ => 3
  | .sent _ _ => 0
  | .wait => 2
  | .waitGroup => 1
  | .woken => 0
def peerLeft (p : Peer (Message E)) : Nat :=
  readerLeft p.reader + writerLeft p.writer + (p.threads.map threadLeft).sum
def left (s : State E) : Nat :=
  16 * s.inbox.length + (if s.task = none then 0 else 14) + (if s.dead then 0 else 1) + peerLeft s.peer

/-- What there is to write of the message at hand. -/
def toGo : Writer (Message E) → Nat
  | .got m => (frame m).length + 2
  | .writing _ q => q.length + 1
  | _ => 0

theorem disc_less {d d' : Disc} {p p' : Peer (Message E)} (h : DiscStep d p d' p') :
    d'.rank < d.rank ∧ p'.reader = p.reader ∧ p'.writer = p.writer ∧ p'.threads = p.threads := by
  cases h <;> simp [Disc.rank, Peer.closeQuit]

/-- What `Works` allows of the goroutines. -/
theorem peer_less {k : Kind} {p p' : Peer (Message E)} (h : Lifecycle.Step frame k p p')
    (hk : k = .own ∨ (k = .remote ∧ p'.wire ≠ p.wire)) (hb : p.reader = .closing .returned → p'.reader = .closing .returned) :
    peerLeft p' < peerLeft p ∨ (peerLeft p' = peerLeft p ∧ toGo p'.writer < toGo p.writer) := by
  have nc : k ≠ .call := by rintro rfl; rcases hk with h | ⟨h, -⟩ <;> cases h
  cases h with
  | start | callDisconnect | callSend | callWait => exact absurd rfl nc
  | deliver _ a h => rcases hk with h | ⟨-, h⟩; cases h; exact absurd rfl h
  | readFail _ h => rcases hk with h | ⟨-, h⟩; cases h; exact absurd rfl h
  | writeFail _ m q h hq => rcases hk with h | ⟨-, h⟩; cases h; exact absurd rfl h
  | closingEnd _ h => have := hb h; cases this
  | closingStep _ s0 d d' h hd =>
    obtain ⟨h1, h2, h3, h4⟩ := disc_less hd
    left; simp only [peerLeft, h, h3, h4, readerLeft]; omega
  | readerLeave _ s0 d d' h hd =>
    obtain ⟨h1, h2, h3, h4⟩ := disc_less hd
    left; simp only [peerLeft, h, h3, h4, readerLeft]; omega
  | writerLeave _ s0 d d' h hd =>
    obtain ⟨h1, h2, h3, h4⟩ := disc_less hd
    left; simp only [peerLeft, h, h2, h4, writerLeft]; omega
  | threadDisc _ s0 l r d d' h hd =>
    obtain ⟨h1, h2, h3, h4⟩ := disc_less hd
    left; simp only [peerLeft, h, h2, h3, threadLeft, List.map_append, List.map_cons, List.sum_append, List.sum_cons]
    omega
  | readerDone _ h => left; simp only [peerLeft, h, readerLeft, Peer.done, Disc.rank]; omega
  | writerDone _ h => left; simp only [peerLeft, h, writerLeft, Peer.done, Disc.rank]; omega
  | gotWrite _ m h hf => right; simp only [peerLeft, h, writerLeft, toGo, true_and]; omega
  | chunk _ m x q h hp hc =>
    right
    have := List.length_pos_iff.2 hp
    simp only [peerLeft, h, writerLeft, toGo, true_and, List.length_append]; omega
  | writeDone _ m h => right; simp only [peerLeft, h, writerLeft, toGo, true_and]; omega
  | _ =>
    left
    simp_all only [peerLeft, readerLeft, writerLeft, threadLeft, Disc.rank, List.map_append, List.map_cons,
      List.sum_append, List.sum_cons]
    omega

theorem rest_shorter {s rest : Bytes} {m : Option (Message E)} {c : UInt64} (h : readStep E s = .next m c rest) :
    rest.length < s.length := by
  obtain ⟨t, body, -, -, e⟩ := readStep_next E h
  rw [e, List.length_append]
  have : 0 < (frameBytes t body).length := by simp [frameBytes]
  omega

theorem works_less {others : Node E → Node E → Prop} {f : Sender} {s s' : State E} (h : Works others f s s') :
    left s' < left s ∨ (left s' = left s ∧ toGo s'.peer.writer < toGo s.peer.writer) := by
  have ⟨k, hs, hk⟩ : ∃ k, Step others f k s s' ∧ (k = .own ∨ (k = .remote ∧ s'.peer.wire ≠ s.peer.wire)) := by
    rcases h with h | ⟨h1, h2⟩
    · exact ⟨_, h, .inl rfl⟩
    · exact ⟨_, h1, .inr ⟨rfl, h2⟩⟩
  clear h
  cases hs with
  | others n hd h => rcases hk with h | ⟨h, -⟩ <;> cases h
  | arrive bs hd => rcases hk with h | ⟨-, h⟩; cases h; exact absurd rfl h
  | inner _ p hd h1 hr hb hw =>
    rcases peer_less h1 hk hb with h | ⟨h2, h3⟩
    · left; simp only [left]; omega
    · right; exact ⟨by simp only [left, h2], h3⟩
  | skip c rest hd hr ht h =>
    have := rest_shorter h
    left; simp only [left, ht, peerLeft, hr, readerLeft]; omega
  | read m c rest hd hr ht h =>
    have := rest_shorter h
    left; simp only [left, ht, peerLeft, hr, readerLeft, if_true, reduceCtorEq, if_false]; omega
  | process w m hd hr ht he ha =>
    left; simp only [left, ht, peerLeft, hr, readerLeft, if_true, reduceCtorEq, if_false]; omega
  | answer w m a hd hr ht he ha =>
    left; simp only [left, ht, peerLeft, hr, readerLeft, if_true, reduceCtorEq, if_false]; omega
  | ban w m hd hr ht he =>
    left; simp only [left, ht, peerLeft, hr, readerLeft, Disc.rank, if_true, reduceCtorEq, if_false]; omega
  | readerDies what hd hr ht h => left; simp only [left, hd, if_true, if_false, Bool.false_eq_true]; omega
  | processDies w m hd hr ht he hb => left; simp only [left, hd, if_true, if_false, Bool.false_eq_true]; omega
  | banDies hd hr => left; simp only [left, hd, if_true, if_false, Bool.false_eq_true]; omega
  | writerDies m hd hw hf h => left; simp only [left, hd, if_true, if_false, Bool.false_eq_true]; omega

/-- What is left to do, and of it what is being written. -/
def work (s : State E) : Nat × Nat := (left s, toGo s.peer.writer)

theorem works_wf (others : Node E → Node E → Prop) (f : Sender) :
    WellFounded (fun s' s : State E => Works others f s s') := by
  refine Subrelation.wf (r := InvImage (Prod.Lex (· < ·) (· < ·)) work) (fun {a b} h => ?_)
    (InvImage.wf work (Prod.lex (⟨_, Nat.lt_wfRel.wf⟩) (⟨_, Nat.lt_wfRel.wf⟩)).wf)
  rcases works_less h with h | ⟨h1, h2⟩
  · exact Prod.Lex.left _ _ h
  · show Prod.Lex _ _ (work a) (work b)
    have : work a = (left b, toGo a.peer.writer) := by rw [← h1]; rfl
    rw [this]
    exact Prod.Lex.right _ h2

/-! ### Where work ends -/

/-- A message that was read is handled. -/
theorem task_works {others : Node E → Node E → Prop} {f : Sender} {s : State E} {m : Message E} (hd : s.dead = false)
    (hr : s.peer.reader = .reading) (ht : s.task = some m) : ∃ s', Works others f s s' := by
  let w : World := ⟨fun _ => none, fun _ => "", id, fun _ => false⟩
  by_cases h1 : (processMessage w s.node f m).ended = .done
  · cases h2 : answer (processMessage w s.node f m).effects with
    | none => exact ⟨_, .inl (.process w m hd hr ht h1 h2)⟩
    | some a => exact ⟨_, .inl (.answer w m a hd hr ht h1 h2)⟩
  · by_cases h2 : (processMessage w s.node f m).ended = .blocked
    · exact ⟨_, .inl (.ban w m hd hr ht h2)⟩
    · exact ⟨_, .inl (.processDies w m hd hr ht h1 h2)⟩

theorem got_flag {k : Kind} {p q : Peer (Message E)} {m m' : Message E} {r : Bytes} (h : Lifecycle.Step frame k p q)
    (h1 : p.writer = .got m) (h2 : q.writer = .writing m' r) : p.flag = false := by
  cases h with
  | gotWrite _ m h hf => exact hf
  | closingStep _ s0 d d' h hd | readerLeave _ s0 d d' h hd => rw [(disc_less hd).2.2.1, h1] at h2; cases h2
  | threadDisc _ s0 l r d d' h hd => rw [(disc_less hd).2.2.1, h1] at h2; cases h2
  | _ => simp_all [Peer.done]

theorem reading_own {p q : Peer (Message E)} (h : Lifecycle.Step frame .own p q) (h1 : p.reader = .reading) :
    q.reader = .reading ∨ q.reader = .stopping := by
  cases h with
  | writerLeave _ s0 d d' h hd => rw [(disc_less hd).2.1]; exact .inl h1
  | threadDisc _ s0 l r d d' h hd => rw [(disc_less hd).2.1]; exact .inl h1
  | _ => simp_all [Peer.done]

/-- When the goroutines can go on, so can the connection. -/
theorem own_works {others : Node E → Node E → Prop} {f : Sender} {s : State E} {p : Peer (Message E)}
    (hd : s.dead = false) (hs : Lifecycle.Step frame .own s.peer p) : ∃ s', Works others f s s' := by
  by_cases hb : s.peer.reader = .closing .returned
  · exact ⟨_, .inl (.banDies hd hb)⟩
  by_cases hg : ∃ m, s.peer.writer = .got m ∧ s.peer.flag = false ∧ ¬ ∃ b, m.frame = .ok b
  · obtain ⟨m, h1, h2, h3⟩ := hg
    exact ⟨_, .inl (.writerDies m hd h1 h2 h3)⟩
  by_cases ht : ∃ m, s.peer.reader = .reading ∧ s.task = some m
  · obtain ⟨m, h1, h2⟩ := ht
    exact task_works hd h1 h2
  refine ⟨_, .inl (.inner .own p hd hs (fun h => ?_) (fun h => absurd h hb) fun m q h1 h2 => ?_)⟩
  · have : s.task = none := by
      cases e : s.task with
      | none => rfl
      | some m => exact absurd ⟨m, h, e⟩ ht
    exact (reading_own hs h).imp id fun x => ⟨this, x⟩
  · exact Classical.byContradiction fun h3 => hg ⟨m, h1, got_flag hs h1 h2, h3⟩

theorem rest_idle {others : Node E → Node E → Prop} {f : Sender} {s : State E} (h : AtRest others f s)
    (hd : s.dead = false) : Idle frame s.peer := fun _ hs => (own_works hd hs).elim h

/-- At rest on a connection that is being closed. -/
theorem rest_closed {others : Node E → Node E → Prop} {f : Sender} {node : Node E} {s : State E}
    (hr : Reachable others f node s) (h : AtRest others f s) (hd : s.dead = false) (hf : s.peer.flag = true) :
    Settled s.peer ∨ s.peer.reader = .closing .waiting := by
  have hi := rest_idle h hd
  by_cases hc : SelfClosing s.peer
  · right
    rcases hc with e | e | e
    · exact (hi _ (.closingStep _ _ _ _ e (.closeQuit _))).elim
    · exact (hi _ (.closingStep _ _ _ _ e (.closeConn _))).elim
    · exact e
  · exact .inl (idle_settled (inv_reachable (peer_reachable hr)) hf hc hi).1

/-- A call of `Disconnect` that has begun has set the flag. -/
theorem begun_flag {p : Peer (Message E)} (h : Lifecycle.Reachable frame p) : ∀ d ∈ p.discs, d ≠ .cas → p.flag = true := by
  intro d hm hn
  have hi := inv_reachable h
  cases d with
  | cas => exact absurd rfl hn
  | won => exact discs_alone hi hm (.inl rfl)
  | closing => exact discs_alone hi hm (.inr (.inl rfl))
  | waiting => exact discs_alone hi hm (.inr (.inr rfl))
  | returned => exact returned_flag h hm

/-- At rest on a connection that nobody closes. -/
theorem rest_open {others : Node E → Node E → Prop} {f : Sender} {node : Node E} {s : State E}
    (hr : Reachable others f node s) (h : AtRest others f s) (hd : s.dead = false) (hf : s.peer.flag = false)
    (hs : s.peer.reader ≠ .notStarted) (hh : ∀ a, s.peer.reader ≠ .handling a) :
    s.peer.reader = .reading ∧ s.peer.writer = .select ∧ s.task = none ∧ ¬ SendWaits s.peer ∧
    ∀ m c rest, readStep E s.inbox ≠ .next m c rest := by
  have hp := peer_reachable hr
  have hi := rest_idle h hd
  have hv := inv_reachable hp
  have hb := begun_flag hp
  have hc : s.peer.conn = 0 := by have := hv.conn; rw [hf] at this; simp at this; omega
  have nd : ∀ d ∈ s.peer.discs, d = .cas := fun d h => Classical.byContradiction fun h' => by
    have := hb d h h'; rw [hf] at this; cases this
  have hw : s.peer.writer = .select := by
    cases hw : s.peer.writer with
    | notStarted => exact absurd (hv.both.2 hw) hs
    | select => rfl
    | got m => exact (hi _ (.gotWrite _ m hw hf)).elim
    | writing m q =>
      cases q with
      | nil => exact (hi _ (.writeDone _ m hw)).elim
      | cons x q =>
        refine (h _ (.inr ⟨.inner .remote _ hd (.chunk _ m [x] q (by rw [hw]; rfl) (by simp) hc)
          (fun h => .inl h) (fun h => h) (fun m q h => by rw [hw] at h; cases h), ?_⟩)).elim
        simp
    | stopping => exact (hi _ (.writerDone _ hw)).elim
    | leaving d =>
      have := nd d (by simp [Peer.discs, Writer.discs, hw])
      subst this
      exact (hi _ (.writerLeave _ _ _ _ hw (.win _ hf))).elim
  have hrd : s.peer.reader = .reading := by
    cases hr : s.peer.reader with
    | notStarted => exact absurd hr hs
    | loop => exact (hi _ (.loopGo _ hr hf)).elim
    | reading => rfl
    | handling a => exact absurd hr (hh a)
    | replying m => exact (hi _ (.replyTaken _ m hr hw)).elim
    | closing d =>
      have := nd d (by simp [Peer.discs, Reader.discs, hr])
      subst this
      exact (hi _ (.closingStep _ _ _ _ hr (.win _ hf))).elim
    | stopping => exact (hi _ (.readerDone _ hr)).elim
    | leaving d =>
      have := nd d (by simp [Peer.discs, Reader.discs, hr])
      subst this
      exact (hi _ (.readerLeave _ _ _ _ hr (.win _ hf))).elim
  have ht : s.task = none := by
    cases ht : s.task with
    | none => rfl
    | some m => exact ((task_works hd hrd ht).elim h).elim
  refine ⟨hrd, hw, ht, ?_, ?_⟩
  · rintro (⟨m, e⟩ | ⟨m, e⟩)
    · rw [hrd] at e; cases e
    · obtain ⟨l, r, e⟩ := List.append_of_mem e
      exact hi _ (.sendTaken _ l r m e hw)
  · intro m c rest e
    cases m with
    | none => exact h _ (.inl (.skip c rest hd hrd ht e))
    | some m => exact h _ (.inl (.read m c rest hd hrd ht e))

end Gringo.Talk
