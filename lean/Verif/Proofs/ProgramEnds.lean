import Mathlib.Algebra.BigOperators.Group.Finset.Basic
import Mathlib.Algebra.Order.BigOperators.Group.Finset
import Mathlib.Tactic.Linarith
import Verif.Proofs.ProgramRest
/-
Helper lemmas for Props/ProgramRest.lean: the work of the whole program does not go on for ever.
-/
namespace Gringo.Program
open Gringo.P2P Gringo.Spec Gringo.Props

variable {E : Env} {remote : Nat → String} {chain : Chain E} {storage : Storage E} {mempool : Option (Transaction E → Out Unit)}

/-! ### What there is to do -/

def ioLeft (n : Nat) (io : Reading E) : Nat :=
  (16 + 7 * n) * io.inbox.length + (if io.task = none then 0 else 14 + 7 * n) + (if io.stuck then 0 else 20)
def watchLeft : Whole.Watch → Nat
  | .unborn => 10
  | .waiting _ => 5
  | .marked => 4
  | .reading _ => 3
  | .uncounted => 2
  | .dropped => 1
  | .gone => 0
def connLeft (x : Whole.Conn (Message E)) : Nat := Talk.peerLeft x.peer + watchLeft x.watch
def jobLeft (j : Job E) : Nat :=
  match j.stage with
  | .height => 7
  | .weight => 6
  | .peer => 5
  | _ => 0
def loopLeft : Whole.Loop → Nat
  | .select => 0
  | .sleeping => 1
  | .failed => 2
  | .choosing => 6
  | .connecting _ => 5
  | .dialing _ => 4
  | .greeting _ _ => 3
  | .counting _ _ _ _ => 80
  | .starting _ _ => 60
  | .pinging _ _ => 40
  | .pinged _ _ _ => 30
  | .asked _ _ _ => 20
  | .stopped => 0
def closerLeft : String × Whole.Closer → Nat
  | (_, .pending) => 20
  | (_, .locked) => 19
  | (_, .closing _ _) => 5
  | (_, .over) => 0

/-- What is left to do short of writing, if at most `n` addresses are connected when a block is handled. -/
def left (n : Nat) (s : State E) : Nat :=
  ∑ c ∈ Finset.range s.pool.next, ioLeft n (s.io c) + (s.pool.conns.map connLeft).sum + (s.jobs.map jobLeft).sum +
    loopLeft s.pool.loop + (s.pool.closers.map closerLeft).sum + (if s.dead then 0 else 1) +
    (if s.pool.panicked then 0 else 1)

/-- What there is to write of the messages at hand. -/
def toWrite (s : State E) : Nat := (s.pool.conns.map fun x => Talk.toGo x.peer.writer).sum

/-- How many addresses are or will be connected. -/
def links (s : State E) : Nat :=
  s.pool.online.length + match s.pool.loop with
    | .counting _ _ _ _ => 1
    | _ => 0

theorem ioLeft_mono {m n : Nat} (h : m ≤ n) (io : Reading E) : ioLeft m io ≤ ioLeft n io := by
  unfold ioLeft
  have : (16 + 7 * m) * io.inbox.length ≤ (16 + 7 * n) * io.inbox.length := Nat.mul_le_mul_right _ (by omega)
  split <;> omega

theorem left_mono {m n : Nat} (h : m ≤ n) (s : State E) : left m s ≤ left n s := by
  unfold left
  have : ∑ c ∈ Finset.range s.pool.next, ioLeft m (s.io c) ≤ ∑ c ∈ Finset.range s.pool.next, ioLeft n (s.io c) :=
    Finset.sum_le_sum fun c _ => ioLeft_mono h _
  omega

/-- One connection has another reading side. -/
theorem io_sum {n k c : Nat} (io : Nat → Reading E) (v : Reading E) (h : c < k) :
    ∑ i ∈ Finset.range k, ioLeft n (Function.update io c v i) + ioLeft n (io c) =
      ∑ i ∈ Finset.range k, ioLeft n (io i) + ioLeft n v := by
  have hm : c ∈ Finset.range k := Finset.mem_range.2 h
  rw [← Finset.add_sum_erase _ _ hm, ← Finset.add_sum_erase _ (fun i => ioLeft n (io i)) hm, Function.update_self]
  have : ∑ i ∈ (Finset.range k).erase c, ioLeft n (Function.update io c v i) =
      ∑ i ∈ (Finset.range k).erase c, ioLeft n (io i) :=
    Finset.sum_congr rfl fun i hi => by rw [Function.update_of_ne (Finset.ne_of_mem_erase hi)]
  rw [this]
  omega

theorem id_small {s : State E} (hi : Inv remote chain storage mempool s) {x : Whole.Conn (Message E)}
    (hx : x ∈ s.pool.conns) : x.id < s.pool.next := by
  obtain ⟨-, p, hr, hwr⟩ := Whole.refines hi.whole
  have := (PoolRun.inv_reachable hr).conns.small x.abs (by rw [hwr.links]; exact List.mem_map.2 ⟨x, hx, rfl⟩)
  rw [hwr.next] at this
  exact this

theorem started_few {online : List String} {chain : Chain E} {m : Message E} {n : Nat} (h : online.length ≤ n) :
    ((started online chain m).map jobLeft).sum ≤ 7 * n := by
  have : ∀ b : Block E, ((online.map fun addr => (⟨addr, b, .height⟩ : Job E)).map jobLeft).sum = online.length * 7 := by
    intro b
    clear h
    induction online with
    | nil => rfl
    | cons a l ih => simp only [List.map_cons, List.sum_cons, ih, List.length_cons, jobLeft]; omega
  unfold started
  split
  · split
    · rw [this]; omega
    · simp
  · simp

theorem next_less {j : Job E} {i : PeerInfo} {st : Relay.Stage} (h : j.next i = some st) :
    jobLeft { j with stage := st } + (match st with | .sent _ => 4 | _ => 0) < jobLeft j := by
  unfold Job.next Relay.Job.next at h
  cases hs : j.stage <;> rw [hs] at h <;> simp only [reduceCtorEq] at h
  all_goals
    simp only [jobLeft, hs]
    try split at h
    all_goals (injection h with h; subst h; simp)

/-- In a step of the pool that is work the number of addresses that are or will be connected does not grow. -/
theorem links_le {s s' : State E} (h : ProgramWorks remote s s') : links s' ≤ links s := by
  obtain ⟨hd, hp, hsel, hst⟩ := h
  have ⟨k, hs, hk⟩ : ∃ k, Step remote k s s' ∧ (k = .own ∨ (k = .remote ∧ wires s' ≠ wires s)) := by
    rcases hst with h | ⟨h1, h2⟩
    · exact ⟨_, h, .inl rfl⟩
    · exact ⟨_, h1, .inr ⟨rfl, h2⟩⟩
  have fl : ∀ a, (s.pool.online.filter (· ≠ a)).length ≤ s.pool.online.length := fun a => List.length_filter_le _ _
  cases hs with
  | pool k q hs hr hw hm =>
    cases hs with
    | register addr c told now n h =>
      simp only [links, h, List.length_cons]
      have := fl addr
      omega
    | drop l r x hx h =>
      simp only [links]
      have := fl x.addr
      omega
    | see addr c told h hv => rcases hk with h | ⟨-, h⟩; cases h; exact absurd rfl h
    | noAnswer | opens | noShake | otherVersion => rcases hk with h | ⟨-, h⟩; cases h; exact absurd rfl h
    | _ => simp_all [links]
  | _ => exact Nat.le_refl _

theorem works_less {n : Nat} {s s' : State E} (h0 : Reachable remote chain storage mempool s)
    (h : ProgramWorks remote s s') (hn : s.pool.online.length ≤ n) :
    left n s' < left n s ∨ (left n s' = left n s ∧ toWrite s' < toWrite s) := by
  have hi := inv_reachable h0
  obtain ⟨hd, hp, hsel, hst⟩ := h
  have ⟨k, hs, hk⟩ : ∃ k, Step remote k s s' ∧ (k = .own ∨ (k = .remote ∧ wires s' ≠ wires s)) := by
    rcases hst with h | ⟨h1, h2⟩
    · exact ⟨_, h, .inl rfl⟩
    · exact ⟨_, h1, .inr ⟨rfl, h2⟩⟩
  clear hst
  have mem : ∀ {l r : List (Whole.Conn (Message E))} {x}, s.pool.conns = l ++ x :: r → x ∈ s.pool.conns := fun e => by
    rw [e]; simp
  cases hs with
  | pool k q hs hr hw hm =>
    cases hs with
    | inner l r x hx kind p hkc hs hh =>
      have hk' : k = .own ∨ (k = .remote ∧ p.wire ≠ x.peer.wire) := by
        refine hk.imp id fun ⟨h1, h2⟩ => ⟨h1, fun e => h2 ?_⟩
        simp [wires, hx, e]
      have hb : x.peer.reader = .closing .returned → p.reader = .closing .returned := fun e =>
        (hh (.inr (.inr e))).trans e
      rcases Talk.peer_less hs hk' hb with h | ⟨h1, h2⟩
      · left
        simp only [left, hx, List.map_append, List.map_cons, List.sum_append, List.sum_cons, connLeft]
        omega
      · right
        refine ⟨?_, ?_⟩
        · simp only [left, hx, List.map_append, List.map_cons, List.sum_append, List.sum_cons, connLeft, h1]
        · simp only [toWrite, hx, List.map_append, List.map_cons, List.sum_append, List.sum_cons]
          omega
    | want l r x a hx h => exact absurd h ((hi.calm x (mem hx)).2 a)
    | record l r x td height hx h => have := (hi.calm x (mem hx)).1; rw [h] at this; cases this
    | banSelf addr i l r x hx h => exact absurd h ((hi.calm x (mem hx)).2 _)
    | take h => cases hsel h
    | quitting h => cases hsel h
    | noAnswer | opens | noShake | otherVersion | see => rcases hk with h | ⟨-, h⟩; cases h; exact absurd rfl h
    | relay | add | banOther | banNil | stop => rcases hk with h | ⟨h, -⟩ <;> cases h
    | start addr l r x h hx p hr0 hw0 hp0 =>
      left
      simp only [left, h, hx, hp0, loopLeft, List.map_append, List.map_cons, List.sum_append, List.sum_cons, connLeft,
        Talk.peerLeft, hr0, hw0, Talk.readerLeft, Talk.writerLeft]
      omega
    | banEnd | closeNil => left; simp only [left, hp, if_true, if_false, Bool.false_eq_true]; omega
    | _ =>
      left
      simp_all only [left, loopLeft, List.map_append, List.map_cons, List.map_nil, List.sum_append, List.sum_cons, List.sum_nil, connLeft,
        Talk.peerLeft, Talk.readerLeft, Talk.writerLeft, Whole.Conn.calls, Talk.threadLeft, watchLeft, closerLeft,
        Lifecycle.Peer.new, Lifecycle.Disc.rank]
      omega
  | arrive => rcases hk with h | ⟨-, h⟩; cases h; exact absurd rfl h
  | look l' r' j i st h hi' hn' hst =>
    have := next_less hn'
    left
    simp only [left, h, List.map_append, List.map_cons, List.sum_append, List.sum_cons]
    omega
  | relay l' r' j i l r x h hi' hn' hx =>
    have := next_less hn'
    left
    simp only [left, h, hx, List.map_append, List.map_cons, List.map_nil, List.sum_append, List.sum_cons, List.sum_nil, connLeft,
      Talk.peerLeft, Whole.Conn.calls, Talk.threadLeft] at this ⊢
    omega
  | skip l r x c rest hx hr ht h =>
    have h1 := Talk.rest_shorter h
    have h2 := io_sum (n := n) s.io { s.io x.id with inbox := rest } (id_small hi (mem hx))
    have h3 : (16 + 7 * n) * rest.length + (16 + 7 * n) ≤ (16 + 7 * n) * (s.io x.id).inbox.length := by
      rw [← Nat.mul_succ]; exact Nat.mul_le_mul_left _ h1
    left
    have h4 : ioLeft (E := E) n { s.io x.id with inbox := rest } + (16 + 7 * n) ≤ ioLeft n (s.io x.id) := by
      simp only [ioLeft]; omega
    dsimp only at h2 h4
    simp only [left, hx, List.map_append, List.map_cons, List.sum_append, List.sum_cons, connLeft, Talk.peerLeft, hr,
      Talk.readerLeft]
    omega
  | read x m c rest hx hr ht h =>
    have h1 := Talk.rest_shorter h
    have h2 := io_sum (n := n) s.io { s.io x.id with inbox := rest, task := some m } (id_small hi hx)
    have h3 : (16 + 7 * n) * rest.length + (16 + 7 * n) ≤ (16 + 7 * n) * (s.io x.id).inbox.length := by
      rw [← Nat.mul_succ]; exact Nat.mul_le_mul_left _ h1
    left
    have h4 : ioLeft (E := E) n { s.io x.id with inbox := rest, task := some m } + 2 ≤ ioLeft n (s.io x.id) := by
      simp only [ioLeft, ht, if_true, reduceCtorEq, if_false]; omega
    dsimp only at h2 h4
    simp only [left]
    omega
  | process l r x w m hx hr ht hs hw hl he ha =>
    have h1 := started_few (chain := (processMessage w s.node (sender remote x) m).node.chain) (m := m) hn
    have h2 := io_sum (n := n) s.io { s.io x.id with task := none } (id_small hi (mem hx))
    left
    have h4 : ioLeft (E := E) n { s.io x.id with task := none } + 14 + 7 * n ≤ ioLeft n (s.io x.id) := by
      simp only [ioLeft, ht, if_true, reduceCtorEq, if_false]; omega
    dsimp only at h2 h4
    simp only [left, State.handled, hd, hp, Bool.false_eq_true, if_false, hx, List.map_append, List.map_cons, List.sum_append, List.sum_cons, connLeft,
      Talk.peerLeft, hr, Talk.readerLeft]
    omega
  | answer l r x w m a hx hr ht hs hw hl he ha =>
    have h1 := started_few (chain := (processMessage w s.node (sender remote x) m).node.chain) (m := m) hn
    have h2 := io_sum (n := n) s.io { s.io x.id with task := none } (id_small hi (mem hx))
    left
    have h4 : ioLeft (E := E) n { s.io x.id with task := none } + 14 + 7 * n ≤ ioLeft n (s.io x.id) := by
      simp only [ioLeft, ht, if_true, reduceCtorEq, if_false]; omega
    dsimp only at h2 h4
    simp only [left, State.handled, hd, hp, Bool.false_eq_true, if_false, hx, List.map_append, List.map_cons, List.sum_append, List.sum_cons, connLeft,
      Talk.peerLeft, hr, Talk.readerLeft]
    omega
  | ban l r x w m hx hr ht hs he =>
    have h2 := io_sum (n := n) s.io { s.io x.id with task := none } (id_small hi (mem hx))
    left
    have h4 : ioLeft (E := E) n { s.io x.id with task := none } + 14 + 7 * n ≤ ioLeft n (s.io x.id) := by
      simp only [ioLeft, ht, if_true, reduceCtorEq, if_false]; omega
    dsimp only at h2 h4
    simp only [left, hx, List.map_append, List.map_cons, List.sum_append, List.sum_cons, connLeft,
      Talk.peerLeft, hr, Talk.readerLeft, Lifecycle.Disc.rank]
    omega
  | banOther l r x y w m i hx hr ht hs hy he hf hpe hne =>
    have h2 := io_sum (n := n) s.io { s.io x.id with stuck := true } (id_small hi hx)
    left
    have h4 : ioLeft (E := E) n { s.io x.id with stuck := true } + 20 ≤ ioLeft n (s.io x.id) := by
      simp only [ioLeft, hs, if_true, if_false, Bool.false_eq_true]; omega
    dsimp only at h2 h4
    simp only [left, hy, List.map_append, List.map_cons, List.map_nil, List.sum_append, List.sum_cons, List.sum_nil, connLeft,
      Talk.peerLeft, Whole.Conn.calls, Talk.threadLeft, Lifecycle.Disc.rank]
    omega
  | readerDies | processDies | writerDies =>
    left; simp only [left, hd, if_true, if_false, Bool.false_eq_true]; omega

/-- From a reachable state work goes on for finitely many steps. -/
theorem works_acc {s : State E} (h : Reachable remote chain storage mempool s) :
    Acc (fun s' s => ProgramWorks remote s s') s := by
  let f : State E → Nat × Nat := fun s => (left (links s) s, toWrite s)
  have wf := InvImage.wf f (Prod.lex (⟨_, Nat.lt_wfRel.wf⟩) (⟨_, Nat.lt_wfRel.wf⟩)).wf
  induction s using wf.induction with
  | _ s ih =>
    refine .intro _ fun s' hs => ih s' ?_ ?_
    · have h1 := left_mono (links_le hs) s'
      show Prod.Lex _ _ (f s') (f s)
      rcases works_less h hs (n := links s) (Nat.le_add_right _ _) with h2 | ⟨h2, h3⟩
      · exact Prod.Lex.left _ _ (Nat.lt_of_le_of_lt h1 h2)
      · rcases Nat.lt_or_eq_of_le h1 with h4 | h4
        · exact Prod.Lex.left _ _ (h2 ▸ h4)
        · have : f s' = (left (links s) s, toWrite s') := by show (_, _) = _; rw [h4, h2]
          rw [this]
          exact Prod.Lex.right _ h3
    · obtain ⟨hd, hp, -, hst⟩ := hs
      rcases hst with hst | ⟨hst, -⟩
      · exact h.next hd hp hst
      · exact h.next hd hp hst

/-! ### A state in which nothing is left to do -/

/-- A connection on which nothing goes on. -/
structure Quiet (s : State E) (x : Whole.Conn (Message E)) : Prop where
  reader : x.peer.reader = .reading
  writer : x.peer.writer = .select
  threads : ∀ t ∈ x.peer.threads, t = .wait ∨ ∃ m b, t = .sent m b
  quit : x.peer.quit = 0
  conn : x.peer.conn = 0
  watch : ∃ k, x.watch = .waiting k
  lock : x.lock = .before
  task : (s.io x.id).task = none
  inbox : ∃ what, readStep E (s.io x.id).inbox = .stop (.exit what)

theorem quiet_peer {k : Lifecycle.Kind} {p q : Lifecycle.Peer (Message E)} (hs : Lifecycle.Step Talk.frame k p q)
    (h1 : p.reader = .reading) (h2 : p.writer = .select) (h3 : ∀ t ∈ p.threads, t = .wait ∨ ∃ m b, t = .sent m b)
    (h4 : p.quit = 0) (h5 : p.conn = 0) (hk : k ≠ .call) : k = .remote ∧ q.wire = p.wire := by
  have no : ∀ {l r : List (Lifecycle.Thread (Message E))} {t}, p.threads = l ++ t :: r → t = .wait ∨ ∃ m b, t = .sent m b :=
    fun e => h3 _ (by rw [e]; simp)
  cases hs with
  | start | callDisconnect | callSend | callWait => exact absurd rfl hk
  | sendTaken _ l r m h => rcases no h with h | ⟨_, _, h⟩ <;> cases h
  | threadDisc _ s0 l r d d' h => rcases no h with h | ⟨_, _, h⟩ <;> cases h
  | waitEnd _ l r h => rcases no h with h | ⟨_, _, h⟩ <;> cases h
  | _ => simp_all

theorem quiet_rest {s : State E} (hl : s.pool.loop = .select) (hc : s.pool.closers = []) (hb : s.pool.bans = [])
    (hj : ∀ j ∈ s.jobs, JobOver j) (hx : ∀ x ∈ s.pool.conns, Quiet s x) : ProgramAtRest remote s := by
  rintro s' ⟨hd, hp, hsel, hst⟩
  have ⟨k, hs, hk⟩ : ∃ k, Step remote k s s' ∧ (k = .own ∨ (k = .remote ∧ wires s' ≠ wires s)) := by
    rcases hst with h | ⟨h1, h2⟩
    · exact ⟨_, h, .inl rfl⟩
    · exact ⟨_, h1, .inr ⟨rfl, h2⟩⟩
  clear hst
  have mem : ∀ {l r : List (Whole.Conn (Message E))} {x}, s.pool.conns = l ++ x :: r → Quiet s x := fun e =>
    hx _ (by rw [e]; simp)
  have job : ∀ {l r : List (Job E)} {j : Job E} {i st}, s.jobs = l ++ j :: r → j.next i = some st → False := by
    intro l r j i st e h
    rcases hj j (by rw [e]; simp) with h1 | h1 | ⟨c, h1⟩ <;> simp [Job.next, Relay.Job.next, h1] at h
  cases hs with
  | pool k q hs hr hw hm =>
    cases hs with
    | inner l r x hx kind p hkc hs hh =>
      obtain ⟨h1, h2⟩ := quiet_peer hs (mem hx).reader (mem hx).writer (mem hx).threads (mem hx).quit (mem hx).conn hkc
      rcases hk with h | ⟨-, h⟩
      · rw [h1] at h; cases h
      · exact h (by simp [wires, hx, h2])
    | want l r x a hx h => rw [(mem hx).reader] at h; cases h
    | record l r x td height hx h => rw [(mem hx).lock] at h; cases h
    | banSelf addr i l r x hx h => rw [(mem hx).reader] at h; cases h
    | take h => cases hsel h
    | quitting h => cases hsel h
    | relay | add | banOther | banNil | stop => rcases hk with h | ⟨h, -⟩ <;> cases h
    | mark l r x k hx h hk' =>
      have := List.mem_of_getElem? hk'
      rcases (mem hx).threads _ this with h | ⟨_, _, h⟩ <;> cases h
    | seeDown l r x hx h => obtain ⟨k, e⟩ := (mem hx).watch; rw [h] at e; cases e
    | count l r x n hx h => obtain ⟨k, e⟩ := (mem hx).watch; rw [h] at e; cases e
    | drop l r x hx h => obtain ⟨k, e⟩ := (mem hx).watch; rw [h] at e; cases e
    | free l r x hx h => obtain ⟨k, e⟩ := (mem hx).watch; rw [h] at e; cases e
    | banEnd b h => rw [hb] at h; cases h
    | closeLock l r addr h => rw [hc] at h; cases l <;> cases h
    | closeNil addr i h => rw [hc] at h; cases h
    | closeCall l r addr i l' r' x h => rw [hc] at h; cases l <;> cases h
    | closeDone l r addr k x h => rw [hc] at h; cases l <;> cases h
    | _ => have h := hl.symm.trans ‹s.pool.loop = _›; cases h
  | arrive => rcases hk with h | ⟨-, h⟩; cases h; exact absurd rfl h
  | look l' r' j i st h hi' hn' => exact job h hn'
  | relay l' r' j i l r x h hi' hn' => exact job h hn'
  | skip l r x c rest hx hr ht h => obtain ⟨w, e⟩ := (mem hx).inbox; rw [h] at e; cases e
  | read x m c rest hx' hr ht h => obtain ⟨w, e⟩ := (hx x hx').inbox; rw [h] at e; cases e
  | readerDies x what hx' hr ht h => obtain ⟨w, e⟩ := (hx x hx').inbox; rw [h] at e; cases e
  | process l r x w m hx hr ht => rw [(mem hx).task] at ht; cases ht
  | answer l r x w m a hx hr ht => rw [(mem hx).task] at ht; cases ht
  | ban l r x w m hx hr ht => rw [(mem hx).task] at ht; cases ht
  | banOther l r x y w m i hx' hr ht => rw [(hx x hx').task] at ht; cases ht
  | processDies x w m hx' hr ht => rw [(hx x hx').task] at ht; cases ht
  | writerDies x m hx' hw => rw [(hx x hx').writer] at hw; cases hw

end Gringo.Program
