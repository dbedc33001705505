import Verif.Proofs.Whole
import Verif.Props.Whole
import Verif.Spec.Place
/-
Invariants of Model/Whole.lean for the end of a connection, and the measure of what is left to do.
-/
namespace Gringo.Whole
open Gringo.P2P Gringo.Spec

variable {M : Type} {frame : M → Bytes} {ping ask : M}

/-- What kind of call it is. -/
def sort : Lifecycle.Thread M → Nat
  | .disconnect _ => 0
  | .send _ | .sent _ _ => 1
  | .wait | .waitGroup | .woken => 2

/-- A call stays what it is. -/
theorem sort_step {k : Lifecycle.Kind} {p q : Lifecycle.Peer M} (hs : Lifecycle.Step frame k p q) :
    p.threads.map sort <+: q.threads.map sort := by
  have keep : ∀ {d d' : Lifecycle.Disc} {s0 : Lifecycle.Peer M}, Lifecycle.DiscStep d p d' s0 →
      s0.threads = p.threads := by
    intro d d' s0 hd; cases hd <;> rfl
  cases hs with
  | callDisconnect => simp
  | callSend => simp
  | callWait => simp
  | closingStep _ s0 d d' h hd => simp [keep hd]
  | readerLeave _ s0 d d' h hd => simp [keep hd]
  | writerLeave _ s0 d d' h hd => simp [keep hd]
  | threadDisc _ s0 l r d d' h hd => simp [h, sort]
  | sendQuit _ l r m h hq => simp [h, sort]
  | sendTaken _ l r m h hw => simp [h, sort]
  | waitQuit _ l r h hq => simp [h, sort]
  | waitEnd _ l r h hg => simp [h, sort]
  | _ => simp [Lifecycle.Peer.done]

def Conn.sortOf (x : Conn M) (k : Nat) : Option Nat := (x.peer.threads.map sort)[k]?

theorem sortOf_kept {x y : Conn M} (h : x.peer.threads.map sort <+: y.peer.threads.map sort) {k n : Nat}
    (hx : x.sortOf k = some n) : y.sortOf k = some n := by
  obtain ⟨r, e⟩ := h
  unfold Conn.sortOf at hx ⊢
  rw [← e, List.getElem?_append_left (List.getElem?_eq_some_iff.1 hx).1]
  exact hx

theorem unstarted_step {k : Lifecycle.Kind} {p q : Lifecycle.Peer M} (hs : Lifecycle.Step frame k p q) (hk : k ≠ .call)
    (hr : p.reader = .notStarted) (hw : p.writer = .notStarted) :
    q.reader = .notStarted ∧ q.writer = .notStarted := by
  have keep : ∀ {d d' : Lifecycle.Disc} {s0 : Lifecycle.Peer M}, Lifecycle.DiscStep d p d' s0 →
      s0.reader = p.reader ∧ s0.writer = p.writer := by
    intro d d' s0 hd; cases hd <;> exact ⟨rfl, rfl⟩
  cases hs with
  | threadDisc _ s0 l r d d' h hd => obtain ⟨e1, e2⟩ := keep hd; exact ⟨e1.trans hr, e2.trans hw⟩
  | _ => simp_all

/-- The call of `WriteMessage` that the loop is in. -/
def Loop.sends : Loop → Option (Nat × Nat)
  | .pinged _ c k | .asked _ c k => some (c, k)
  | _ => none

/-- The connection that is about to be started. -/
def Loop.starts : Loop → Option Nat
  | .starting _ c => some c
  | _ => none

/-- What holds of a connection and the loop. -/
structure Tied (lp : Loop) (x : Conn M) : Prop where
  waits : ∀ k, x.watch = .waiting k → x.sortOf k = some 2
  subject : x.watch = .unborn → lp.subject = some x.id
  sends : ∀ k, lp.sends = some (x.id, k) → x.sortOf k = some 1
  starts : lp.starts = some x.id → x.peer.reader = .notStarted ∧ x.peer.writer = .notStarted

theorem sends_subject {lp : Loop} {c k : Nat} (h : lp.sends = some (c, k)) : lp.subject = some c := by
  cases lp <;> simp_all [Loop.sends, Loop.subject]

theorem starts_subject {lp : Loop} {c : Nat} (h : lp.starts = some c) : lp.subject = some c := by
  cases lp <;> simp_all [Loop.starts, Loop.subject]

/-- Connections that a step of the loop is not about. -/
theorem Tied.loop {lp lp' : Loop} {x : Conn M} (h : Tied lp x) (hs : lp'.subject = lp.subject)
    (h1 : lp'.sends = lp.sends ∨ lp'.sends = none) (h2 : lp'.starts = lp.starts ∨ lp'.starts = none) : Tied lp' x :=
  ⟨h.waits, fun e => hs.trans (h.subject e), fun k e => h.sends k (by rcases h1 with h1 | h1 <;> rw [h1] at e; exact e; cases e),
    fun e => h.starts (by rcases h2 with h2 | h2 <;> rw [h2] at e; exact e; cases e)⟩

theorem others {l r : List (Conn M)} {x y z : Conn M} (hn : ((l ++ x :: r).map (·.id)).Nodup) (h : z ∈ l ++ y :: r) :
    z = y ∨ (z ∈ l ++ x :: r ∧ z.id ≠ x.id) := by
  simp only [List.map_append, List.map_cons, List.nodup_append, List.nodup_cons] at hn
  obtain ⟨-, ⟨h1, -⟩, h2⟩ := hn
  rcases List.mem_append.1 h with h | h
  · exact .inr ⟨by simp [h], fun e => h2 _ (List.mem_map.2 ⟨z, h, rfl⟩) x.id (by simp) e⟩
  rcases List.mem_cons.1 h with h | h
  · exact .inl h
  · exact .inr ⟨by simp [h], fun e => h1 (e ▸ List.mem_map.2 ⟨z, h, rfl⟩)⟩

theorem tied_step {w w' : State M} {k : Lifecycle.Kind} (hs : Step frame ping ask w k w') (hu : (w.conns.map (·.id)).Nodup)
    (hg : ∀ a c t n, w.loop = .counting a c t n → ∀ x ∈ w.conns, x.id ≠ c)
    (h : ∀ x ∈ w.conns, Tied w.loop x) : ∀ x ∈ w'.conns, Tied w'.loop x := by
  -- one connection changes, the loop does not
  have rep : ∀ {l r : List (Conn M)} {x y : Conn M}, w.conns = l ++ x :: r → (Tied w.loop x → Tied w.loop y) →
      ∀ z ∈ l ++ y :: r, Tied w.loop z := by
    intro l r x y hx hy z hz
    rcases mem_replaced (x := x) hz with rfl | hz
    · exact hy (h x (by rw [hx]; simp))
    · exact h z (by rw [hx]; exact hz)
  -- a step of the loop on its connection
  have own : ∀ {l r : List (Conn M)} {x y : Conn M} {lp : Loop}, w.conns = l ++ x :: r →
      w.loop.subject = some x.id → (∀ c, lp.subject = some c → c = x.id) →
      (Tied w.loop x → Tied lp y) → ∀ z ∈ l ++ y :: r, Tied lp z := by
    intro l r x y lp hx hsub hlp hy z hz
    rcases others (x := x) (hx ▸ hu) hz with rfl | ⟨hz, e⟩
    · exact hy (h x (by rw [hx]; simp))
    · have t := h z (by rw [hx]; exact hz)
      exact ⟨t.waits, fun e' => absurd (Option.some.inj ((t.subject e').symm.trans hsub)) e,
        fun k e' => absurd (hlp _ (sends_subject e')) e, fun e' => absurd (hlp _ (starts_subject e')) e⟩
  have still : ∀ {x y : Conn M}, Tied w.loop x → y.id = x.id → y.watch = x.watch →
      x.peer.threads.map sort <+: y.peer.threads.map sort →
      (x.peer.reader = .notStarted → x.peer.writer = .notStarted →
        y.peer.reader = .notStarted ∧ y.peer.writer = .notStarted) → Tied w.loop y := by
    intro x y t e1 e2 e3 e4
    refine ⟨fun k e => sortOf_kept e3 (t.waits k (e2 ▸ e)), fun e => by rw [e1]; exact t.subject (e2 ▸ e),
      fun k e => sortOf_kept e3 (t.sends k (e1 ▸ e)), fun e => ?_⟩
    obtain ⟨a, b⟩ := t.starts (e1 ▸ e)
    exact e4 a b
  have call : ∀ {x : Conn M} (t : Lifecycle.Thread M), Tied w.loop x → Tied w.loop (x.calls t) := fun t h =>
    still h rfl rfl (by simp [Conn.calls]) (fun a b => ⟨a, b⟩)
  have new : ∀ (x : Conn M) (t : Lifecycle.Thread M), (x.calls t).sortOf x.peer.threads.length = some (sort t) := by
    intro x t
    simp [Conn.calls, Conn.sortOf]
  have on : ∀ {x y : Conn M}, Tied w.loop x → y.id = x.id → y.peer = x.peer → x.watch ≠ .unborn → y.watch ≠ .unborn →
      (∀ k, y.watch ≠ .waiting k) → Tied w.loop y := by
    intro x y t e1 e2 e3 e4 e5
    refine ⟨fun k e => absurd e (e5 k), fun e => absurd e e4, fun k e => ?_, fun e => ?_⟩
    · have := t.sends k (e1 ▸ e)
      unfold Conn.sortOf at this ⊢
      rw [e2]; exact this
    · rw [e2]; exact t.starts (e1 ▸ e)
  have idle : ∀ {lp : Loop}, w.loop.subject = none → lp.subject = none → ∀ x ∈ w.conns, Tied lp x := by
    intro lp h1 h2 x hx
    have t := h x hx
    refine ⟨t.waits, fun e => ?_, fun k e => ?_, fun e => ?_⟩
    · have := t.subject e
      rw [h1] at this; cases this
    · have := sends_subject e
      rw [h2] at this; cases this
    · have := starts_subject e
      rw [h2] at this; cases this
  cases hs with
  | register addr c told now n hl =>
    intro x hx
    rcases List.mem_append.1 hx with hx | hx
    · have t := h x hx
      have hne := hg _ _ _ _ hl x hx
      exact ⟨t.waits, (fun e => by have := t.subject e; rw [hl] at this; cases this),
        fun k e => absurd (Option.some.inj (sends_subject e)).symm hne, fun e => absurd (Option.some.inj e).symm hne⟩
    · rw [List.mem_singleton.1 hx]
      exact ⟨fun k e => (by cases e), fun _ => rfl, fun k e => (by cases e), fun _ => ⟨rfl, rfl⟩⟩
  | start addr l r x hl hx p hr hw hp =>
    refine own hx (by rw [hl]; rfl) (fun c e => (Option.some.inj e).symm) fun t => ?_
    exact ⟨fun k e => (t.waits k e : _) ▸ (by simp [Conn.sortOf, hp]),
      fun _ => rfl, fun k e => (by cases e), fun e => (by cases e)⟩
  | ping addr l r x hl hx =>
    refine own hx (by rw [hl]; rfl) (fun c e => (Option.some.inj e).symm) fun t => ?_
    refine ⟨(call _ t).waits, fun _ => rfl, fun k e => ?_, fun e => (by cases e)⟩
    cases e
    exact new x _
  | ask addr k m b l r x hl hx hk =>
    refine own hx (by rw [hl]; rfl) (fun c e => (Option.some.inj e).symm) fun t => ?_
    refine ⟨(call _ t).waits, fun _ => rfl, fun k e => ?_, fun e => (by cases e)⟩
    cases e
    exact new x _
  | spawn addr k m b l r x hl hx hk =>
    refine own hx (by rw [hl]; rfl) (fun c e => (by cases e)) fun t => ?_
    refine ⟨fun k e => ?_, fun e => (by cases e), fun k e => (by cases e), fun e => (by cases e)⟩
    cases e
    exact new x _
  | inner l r x hx kind p hk hs hh =>
    exact rep hx fun t => still t rfl rfl (sort_step hs) (unstarted_step hs hk)
  | relay l r x m hx => exact rep hx (call _)
  | want l r x a hx hr ha => exact rep hx fun t => still t rfl rfl (List.prefix_refl _) (fun a b => ⟨a, b⟩)
  | record l r x td height hx hl => exact rep hx fun t => still t rfl rfl (List.prefix_refl _) (fun a b => ⟨a, b⟩)
  | mark l r x k hx hw hk hl => exact rep hx fun t => on t rfl rfl (by rw [hw]; simp) (by simp) (by simp)
  | seeDown l r x hx hw => exact rep hx fun t => on t rfl rfl (by rw [hw]; simp) (by simp) (by simp)
  | count l r x n hx hw => exact rep hx fun t => on t rfl rfl (by rw [hw]; simp) (by simp) (by simp)
  | drop l r x hx hw => exact rep hx fun t => on t rfl rfl (by rw [hw]; simp) (by simp) (by simp)
  | free l r x hx hw hs => exact rep hx fun t => on t rfl rfl (by rw [hw]; simp) (by simp) (by simp)
  | banSelf addr i l r x hx hr ht hp hb =>
    exact rep hx fun t => still t rfl rfl (List.prefix_refl _) (fun a b => by rw [hr] at a; cases a)
  | banOther addr i l r y b hx ht hp hb => exact rep hx (call _)
  | closeCall l r addr i l' r' x hx ht hp hx' => exact rep hx' (call _)
  | _ => first | exact h | exact idle (by rw [‹w.loop = _›]; rfl) rfl

theorem ids_nodup {w : State M} (h : Reachable frame ping ask w) : (w.conns.map (·.id)).Nodup := by
  obtain ⟨-, s, hr, hw⟩ := refines h
  have hn := (PoolRun.inv_reachable hr).conns.nodup
  rw [hw.links, List.map_map] at hn
  exact hn

theorem counting_new {w : State M} (h : Reachable frame ping ask w) :
    ∀ a c t n, w.loop = .counting a c t n → ∀ x ∈ w.conns, x.id ≠ c := by
  obtain ⟨-, s, hr, hw⟩ := refines h
  intro a c t n hl x hx e
  have := (PoolRun.inv_reachable hr).conns.greeting a c (by rw [hw.loop, hl]; rfl)
  exact this.2 x.abs (by rw [hw.links]; exact List.mem_map.2 ⟨x, hx, rfl⟩) e

theorem tied {w : State M} (h : Reachable frame ping ask w) : ∀ x ∈ w.conns, Tied w.loop x := by
  induction h with
  | new => intro x hx; cases hx
  | next h hp hs ih => exact tied_step hs (ids_nodup h) (counting_new h) ih

/-! ### What is left to do for a connection -/

def AtLock.rank : AtLock → Nat
  | .before => 2
  | .waiting => 1
  | .after => 0

def Watch.rank : Watch → Nat
  | .unborn => 60
  | .waiting _ => 6
  | .marked => 5
  | .reading _ => 4
  | .uncounted => 3
  | .dropped => 2
  | .gone => 0

def Conn.rank (x : Conn M) : Nat := 3 * x.peer.rank + x.lock.rank + x.watch.rank

def Loop.rank (c : Nat) : Loop → Nat
  | .starting _ d => if d = c then 200 else 0
  | .pinging _ d => if d = c then 150 else 0
  | .pinged _ d _ => if d = c then 100 else 0
  | .asked _ d _ => if d = c then 50 else 0
  | _ => 0

def weight (c : Nat) (x : Conn M) : Nat := if x.id = c then x.rank else 0

def State.rank (c : Nat) (w : State M) : Nat := w.loop.rank c + (w.conns.map (weight c)).sum

theorem rank_idle {c : Nat} {lp : Loop} (h : lp.subject = none) : lp.rank c = 0 := by
  cases lp <;> simp_all [Loop.subject, Loop.rank]

theorem AtLock.rank_le (a : AtLock) : a.rank ≤ 2 := by cases a <;> simp [AtLock.rank]

theorem sum_split (f : Conn M → Nat) (l r : List (Conn M)) (x : Conn M) :
    ((l ++ x :: r).map f).sum = (l.map f).sum + f x + (r.map f).sum := by
  simp only [List.map_append, List.map_cons, List.sum_append, List.sum_cons]; omega

theorem calls_rank {x : Conn M} {t : Lifecycle.Thread M} (h : t.rank ≤ 4) : (x.calls t).rank ≤ x.rank + 12 := by
  simp only [Conn.rank, Conn.calls, Lifecycle.Peer.rank, List.map_append, List.map_cons, List.map_nil,
    List.sum_append, List.sum_cons, List.sum_nil]
  omega

theorem inner_rank {x : Conn M} {k : Lifecycle.Kind} {p : Lifecycle.Peer M} (hk : k ≠ .call)
    (hs : Lifecycle.Step frame k x.peer p) (hf : x.peer.flag = true) (a : AtLock) :
    Conn.rank { x with peer := p, lock := a } < x.rank := by
  have := (Lifecycle.rank_step hs hf).2.1
  rw [if_neg hk] at this
  have h2 := a.rank_le
  simp only [Conn.rank]
  omega

/-- No step but a call adds to what is left to do for a connection that is being closed. -/
theorem rank_never_up {w w' : State M} {k : Lifecycle.Kind} {c : Nat} (hs : Step frame ping ask w k w')
    (hcl : NoneStopping w) (hf : ∀ x ∈ w.conns, x.id = c → x.peer.flag = true)
    (hw : ∀ x ∈ w.conns, w.loop.subject = some x.id → x.watch = .unborn)
    (hg : ∀ a c' t n, w.loop = .counting a c' t n → c' ≠ c) :
    w'.rank c ≤ w.rank c + if k = .call then 39 else 0 := by
  have rep : ∀ {l r : List (Conn M)} {x y : Conn M} {n : Nat}, w.conns = l ++ x :: r → y.id = x.id →
      (x.id = c → y.rank ≤ x.rank + n) →
      w.loop.rank c + ((l ++ y :: r).map (weight c)).sum ≤ w.rank c + n := by
    intro l r x y n hx hid h
    unfold State.rank
    rw [hx, sum_split, sum_split]
    have : weight c y ≤ weight c x + n := by
      unfold weight
      rw [hid]
      split
      · exact h ‹_›
      · exact Nat.zero_le _
    omega
  -- a step of the loop on its connection
  have own : ∀ {l r : List (Conn M)} {x y : Conn M} {lp : Loop}, w.conns = l ++ x :: r → y.id = x.id →
      (x.id = c → lp.rank c + y.rank ≤ w.loop.rank c + x.rank) → (x.id ≠ c → lp.rank c = 0) →
      lp.rank c + ((l ++ y :: r).map (weight c)).sum ≤ w.rank c + 0 := by
    intro l r x y lp hx hid h h0
    unfold State.rank
    rw [hx, sum_split, sum_split]
    unfold weight
    rw [hid]
    by_cases e : x.id = c
    · rw [if_pos e, if_pos e]
      have := h e
      omega
    · rw [if_neg e, if_neg e, h0 e]
      omega
  have idle : ∀ {lp : Loop}, lp.subject = none →
      lp.rank c + (w.conns.map (weight c)).sum ≤ w.rank c + 0 := by
    intro lp h
    unfold State.rank
    rw [rank_idle h]
    omega
  have up : ∀ {l r : List (Conn M)} {x : Conn M}, w.conns = l ++ x :: r → x.id = c → x.peer.flag = true :=
    fun hx e => hf _ (by rw [hx]; simp) e
  have le : ∀ {w' : State M} {n : Nat}, w'.loop = w.loop → w'.conns = w.conns → w'.rank c ≤ w.rank c + n := by
    intro w' n e1 e2
    unfold State.rank
    rw [e1, e2]
    omega
  cases hs with
  | register addr c' told now n hl =>
    have hne := hg _ _ _ _ hl
    show (if c' = c then 200 else 0) + ((w.conns ++ [_]).map (weight c)).sum ≤ _
    rw [if_neg hne, List.map_append, List.sum_append]
    simp [weight, hne, State.rank]
  | start addr l r x hl hx p hr hw hp =>
    refine own hx rfl (fun e => ?_) (fun e => if_neg e)
    have h1 := (Lifecycle.rank_step (frame := frame) (.start x.peer hr hw) (up hx e)).2.1
    rw [if_pos rfl, ← hp] at h1
    rw [hl]
    simp only [Loop.rank, e, if_true, Conn.rank]
    omega
  | ping addr l r x hl hx =>
    refine own hx rfl (fun e => ?_) (fun e => if_neg e)
    have h1 := calls_rank (x := x) (t := .send ping) (by simp [Lifecycle.Thread.rank])
    rw [hl]
    simp only [Loop.rank, e, if_true]
    omega
  | ask addr k m b l r x hl hx hk =>
    refine own hx rfl (fun e => ?_) (fun e => if_neg e)
    have h1 := calls_rank (x := x) (t := .send ask) (by simp [Lifecycle.Thread.rank])
    rw [hl]
    simp only [Loop.rank, e, if_true]
    omega
  | spawn addr k m b l r x hl hx hk =>
    refine own hx rfl (fun e => ?_) (fun e => rfl)
    have h1 := calls_rank (x := x) (t := .wait) (by simp [Lifecycle.Thread.rank])
    have h2 : x.watch = .unborn := hw x (by rw [hx]; simp) (by rw [hl]; rfl)
    rw [hl]
    simp only [Loop.rank, e, if_true, Conn.rank, Conn.calls, h2, Watch.rank] at h1 ⊢
    omega
  | inner l r x hx kind p hk hs hh =>
    rw [if_neg hk]
    exact rep hx rfl fun e => Nat.le_of_lt (inner_rank hk hs (up hx e) _)
  | relay l r x m hx =>
    exact rep hx rfl fun e => Nat.le_trans (calls_rank (by simp [Lifecycle.Thread.rank])) (by simp)
  | want l r x a hx hr ha hb =>
    exact rep hx rfl fun e => by simp [Conn.rank, hb, AtLock.rank]
  | record l r x td height hx h hl =>
    exact rep hx rfl fun e => by simp [Conn.rank, h, AtLock.rank]
  | mark l r x k hx hw hk hl => exact rep hx rfl fun e => by simp [Conn.rank, hw, Watch.rank]
  | seeDown l r x hx hw => exact rep hx rfl fun e => by simp [Conn.rank, hw, Watch.rank]
  | count l r x n hx hw => exact rep hx rfl fun e => by simp [Conn.rank, hw, Watch.rank]
  | drop l r x hx hw => exact rep hx rfl fun e => by simp [Conn.rank, hw, Watch.rank]
  | free l r x hx hw hs => exact rep hx rfl fun e => by simp [Conn.rank, hw, Watch.rank]
  | banSelf addr i l r x hx hr ht hp hb =>
    exact rep hx rfl fun e => Nat.le_of_lt (inner_rank (frame := frame) (k := .own) (by simp) (.handleClose _ hr)
      (up hx e) x.lock)
  | banOther addr i l r y b hx ht hp hb =>
    exact rep hx rfl fun e => Nat.le_trans (calls_rank (by simp [Lifecycle.Thread.rank, Lifecycle.Disc.rank])) (by simp)
  | closeCall l r addr i l' r' x hx ht hp hx' => have := hcl (addr, .locked) (by rw [hx]; simp); cases this
  | _ => first | exact le rfl rfl | exact idle rfl

/-! ### Something can go on -/

/-- A send on a connection that is being closed goes on without the read loop. -/
theorem send_moves {p : Lifecycle.Peer M} (h : Lifecycle.Inv p) (hf : p.flag = true) {a : Lifecycle.Act M}
    (hr : p.reader = .handling a) {m : M} (hm : .send m ∈ p.threads) :
    ∃ q, Lifecycle.Step frame .own p q ∧ q.reader = p.reader := by
  by_cases hq : 0 < p.quit
  · obtain ⟨l, r, e⟩ := List.append_of_mem hm
    exact ⟨_, .sendQuit p l r m e hq, rfl⟩
  have h1 := h.quit
  rw [hf, Nat.eq_zero_of_not_pos hq] at h1
  have h2 : Lifecycle.Disc.won ∈ p.discs := List.count_pos_iff.1 (by simp at h1; omega)
  simp only [Lifecycle.Peer.discs, hr, Lifecycle.Reader.discs, List.nil_append, List.mem_append] at h2
  rcases h2 with h2 | h2
  · cases hw : p.writer with
    | leaving d =>
      rw [hw] at h2
      rw [← List.mem_singleton.1 h2] at hw
      exact ⟨_, .writerLeave p _ _ _ hw (.closeQuit p), rfl⟩
    | _ => rw [hw] at h2; cases h2
  · obtain ⟨t, ht, h2⟩ := List.mem_flatMap.1 h2
    cases t with
    | disconnect d =>
      rw [← List.mem_singleton.1 h2] at ht
      obtain ⟨l, r, e⟩ := List.append_of_mem ht
      exact ⟨_, .threadDisc p _ l r _ _ e (.closeQuit p), rfl⟩
    | _ => cases h2

/-- The connection and the address that the loop is announcing itself to. -/
def Loop.at : Loop → Option (Nat × String)
  | .starting a c | .pinging a c | .pinged a c _ | .asked a c _ => some (c, a)
  | _ => none

theorem at_conn {w : State M} (h : Reachable frame ping ask w) :
    ∀ c a, w.loop.at = some (c, a) → ∃ z ∈ w.conns, z.id = c ∧ z.addr = a := by
  induction h with
  | new => intro c a h; cases h
  | @next w w' k h hp hs ih =>
    intro c a e
    have old : w.loop.at = some (c, a) → ∃ z ∈ w'.conns, z.id = c ∧ z.addr = a := by
      intro e
      obtain ⟨z, hz, z1, z2⟩ := ih c a e
      obtain ⟨y, hy, y1, y2, -⟩ := Props.conn_stays (inv_reachable h) hs hz
      exact ⟨y, hy, y1.trans z1, y2.trans z2⟩
    cases hs with
    | register addr c' told now n hl => cases e; exact ⟨_, List.mem_append_right _ (List.mem_singleton.2 rfl), rfl, rfl⟩
    | start addr l r x hl hx p hr hw hp => exact old (by rw [hl]; exact e)
    | ping addr l r x hl hx => exact old (by rw [hl]; exact e)
    | ask addr k m b l r x hl hx hk => exact old (by rw [hl]; exact e)
    | _ => first | exact old e | cases e

/-- While the goroutine of a connection waits, `connectPeer` does not hold the lock of its address. -/
theorem lock_free {w : State M} (h : Reachable frame ping ask w) (hc : NoneStopping w) {y : Conn M}
    (hy : y ∈ w.conns) {k : Nat} (hw : y.watch = .waiting k) : ¬ w.locked y.addr := by
  obtain ⟨hi, s, hr, hrel⟩ := refines h
  have hj := PoolRun.inv_reachable hr
  have mem : ∀ x ∈ w.conns, x.abs ∈ s.links := fun x hx => by rw [hrel.links]; exact List.mem_map.2 ⟨x, hx, rfl⟩
  have occ : PoolRun.occupies y.abs = true := by
    show PoolRun.occupies ⟨_, _, y.phase, _⟩ = true
    unfold PoolRun.occupies Conn.phase
    rw [hw]; cases y.peer.flag <;> rfl
  have hpos : PoolRun.holders s y.addr ≠ 0 := PoolRun.holders_pos (mem y hy) occ
  have announced : ∀ c, w.loop.at = some (c, y.addr) → False := by
    intro c e
    obtain ⟨z, hz, z1, z2⟩ := at_conn h c _ e
    have hu : z.watch = .unborn := hi.unborn z hz (by
      rw [z1]; cases hlp : w.loop <;> rw [hlp] at e <;> first | (cases e; rfl) | cases e)
    have := hj.single.one y.addr
    unfold PoolRun.holders at this
    have e2 := Props.count_two hj.conns.nodup (mem y hy) (mem z hz) (by rw [occ]; simp [Conn.abs]) (by
      have : PoolRun.occupies z.abs = true := by
        show PoolRun.occupies ⟨_, _, z.phase, _⟩ = true
        unfold PoolRun.occupies Conn.phase
        rw [hu]; cases z.peer.flag <;> rfl
      rw [this]; simp [Conn.abs, z2]) this
    have : y = z := List.inj_on_of_nodup_map (ids_nodup h) hy hz e2
    rw [this, hu] at hw
    cases hw
  rintro (e | e | ⟨c, k', e⟩)
  · cases hlp : w.loop with
    | dialing a =>
      rw [hlp] at e; cases e
      exact hpos (hj.single.dialing _ (by rw [hrel.loop, hlp]; rfl))
    | greeting a c =>
      rw [hlp] at e; cases e
      exact hpos (hj.single.greeting _ c (by rw [hrel.loop, hlp]; rfl))
    | counting a c t n =>
      rw [hlp] at e; cases e
      exact hpos (hj.single.greeting _ c (by rw [hrel.loop, hlp]; rfl))
    | starting a c => rw [hlp] at e; cases e; exact announced c (by rw [hlp]; rfl)
    | pinging a c => rw [hlp] at e; cases e; exact announced c (by rw [hlp]; rfl)
    | pinged a c k => rw [hlp] at e; cases e; exact announced c (by rw [hlp]; rfl)
    | asked a c k => rw [hlp] at e; cases e; exact announced c (by rw [hlp]; rfl)
    | _ => rw [hlp] at e; cases e
  · cases hc _ e
  · cases hc _ e

/-- The pool of places is not empty while a connection has one. -/
theorem slot_left {w : State M} (h : Reachable frame ping ask w) {y : Conn M} (hy : y ∈ w.conns)
    (hg : y.watch ≠ .gone) : 0 < w.slots := by
  obtain ⟨-, s, hr, hrel⟩ := refines h
  have h1 := (PoolRun.inv_reachable hr).counts.slots
  have h2 : 0 < s.links.countP PoolRun.holding := List.countP_pos_iff.2 ⟨y.abs, by
    rw [hrel.links]; exact List.mem_map.2 ⟨y, hy, rfl⟩, by
    have := (Props.gone_iff y).not.2 hg
    simpa [PoolRun.holding, Conn.abs] using this⟩
  rw [← hrel.slots]
  omega

theorem rank_lt {w : State M} {l r : List (Conn M)} {y z : Conn M} (hy : w.conns = l ++ y :: r) (hid : z.id = y.id)
    (h : z.rank < y.rank) : w.loop.rank y.id + ((l ++ z :: r).map (weight y.id)).sum < w.rank y.id := by
  unfold State.rank
  rw [hy, sum_split, sum_split]
  simp only [weight, hid, if_true]
  omega

theorem rank_lt_loop {w : State M} {l r : List (Conn M)} {y z : Conn M} {lp : Loop} (hy : w.conns = l ++ y :: r)
    (hid : z.id = y.id) (h : lp.rank y.id + z.rank < w.loop.rank y.id + y.rank) :
    lp.rank y.id + ((l ++ z :: r).map (weight y.id)).sum < w.rank y.id := by
  unfold State.rank
  rw [hy, sum_split, sum_split]
  simp only [weight, hid, if_true]
  omega

/-- What a step leaves as it is. -/
def Goes (w : State M) (y : Conn M) (w' : State M) : Prop :=
  w'.panicked = w.panicked ∧ NoneStopping w' ∧
    ∃ z ∈ w'.conns, z.id = y.id ∧ (Banning z.peer → Banning y.peer) ∧ z.peer.flag = true

theorem banning_step {p q : Lifecycle.Peer M} (hs : Lifecycle.Step frame .own p q) (h : Banning q) : Banning p := by
  have keep : ∀ {d d' : Lifecycle.Disc} {s0 : Lifecycle.Peer M}, Lifecycle.DiscStep d p d' s0 →
      s0.reader = p.reader := by
    intro d d' s0 hd; cases hd <;> rfl
  cases hs with
  | handleClose _ hr => exact .inl hr
  | closingStep _ s0 d d' hr hd => exact .inr ⟨d, hr⟩
  | threadDisc _ s0 l r d d' hr hd =>
    have := keep hd
    simp only [Banning, this] at h ⊢
    exact h
  | writerLeave _ s0 d d' hr hd =>
    have := keep hd
    simp only [Banning, this] at h ⊢
    exact h
  | _ => simp_all [Banning, Lifecycle.Peer.done]

/-- As long as a connection that is being closed is not over, this process can go on with ending it. -/
theorem goes_on {w : State M} (h : Reachable frame ping ask w) (hl : NoneStopping w) {y : Conn M}
    (hy : y ∈ w.conns) (hf : y.peer.flag = true) (hb : ¬ Banning y.peer) (hg : ¬ Over y) :
    ∃ w', Step frame ping ask w .own w' ∧ w'.rank y.id < w.rank y.id ∧ Goes w y w' := by
  have hn : ¬ SelfClosing y.peer := fun h => hb (.inr (by rcases h with h | h | h <;> exact ⟨_, h⟩))
  have hi := inv_reachable h
  have hloc := hi.conns y hy
  have hpi := Lifecycle.inv_reachable hloc.peer
  have ht := tied h y hy
  have hslot := slot_left h hy
  obtain ⟨l, r, hx⟩ := List.append_of_mem hy
  -- a step of the goroutines of the connection
  have inside : ∀ q, Lifecycle.Step frame .own y.peer q → (y.lock = .waiting → q.reader = y.peer.reader) →
      ∃ w', Step frame ping ask w .own w' ∧ w'.rank y.id < w.rank y.id ∧ Goes w y w' := by
    intro q hq hk
    refine ⟨_, .inner w l r y hx .own q (by simp) hq ?_, rank_lt hx rfl (inner_rank (by simp) hq hf _), rfl, hl, _,
      List.mem_append_right _ List.mem_cons_self, rfl, banning_step hq, (Lifecycle.rank_step hq hf).1⟩
    rintro (e | e | e)
    · exact hk e
    · exact absurd (.inl e) hb
    · exact absurd (.inr ⟨_, e⟩) hb
  -- some call on the connection has not returned
  have free : (∃ t ∈ y.peer.threads, ¬ CallOver t) → y.lock ≠ .waiting →
      ∃ w', Step frame ping ask w .own w' ∧ w'.rank y.id < w.rank y.id ∧ Goes w y w' := by
    rintro ⟨t, ht, ho⟩ hk
    have : ¬ Idle frame y.peer := fun hid => ho ((Lifecycle.idle_settled hpi hf hn hid).1.2.2 t ht)
    simp only [Idle, not_forall, not_not] at this
    obtain ⟨q, hq⟩ := this
    exact inside q hq fun e => absurd e hk
  have sent : ∀ k, w.loop.sends = some (y.id, k) →
      (∃ m b, y.call k = some (.sent m b)) ∨ ∃ w', Step frame ping ask w .own w' ∧ w'.rank y.id < w.rank y.id ∧ Goes w y w' := by
    intro k e
    have hs := ht.sends k e
    unfold Conn.sortOf at hs
    rw [List.getElem?_map] at hs
    cases hc : y.peer.threads[k]? with
    | none => rw [hc] at hs; cases hs
    | some t =>
      rw [hc] at hs
      cases t with
      | sent m b => exact .inl ⟨m, b, hc⟩
      | send m =>
        have hm := List.mem_of_getElem? hc
        refine .inr ?_
        by_cases hk : y.lock = .waiting
        · obtain ⟨a, ha, -⟩ := hloc.atLock hk
          obtain ⟨q, h1, h2⟩ := send_moves (frame := frame) hpi hf ha hm
          exact inside q h1 fun _ => h2
        · exact free ⟨_, hm, fun h => h⟩ hk
      | _ => cases hs
  cases hw : y.watch with
  | gone =>
    have hidle : ¬ Idle frame y.peer := fun hid =>
      have h1 := Lifecycle.idle_settled hpi hf hn hid
      hg ⟨hw, h1.2.2, h1.1⟩
    have hst := (Props.woken_still hloc.peer (hloc.past (by rw [hw]; trivial))).2
    simp only [Idle, not_forall, not_not] at hidle
    obtain ⟨q, hq⟩ := hidle
    refine inside q hq fun e => ?_
    obtain ⟨a, ha, -⟩ := hloc.atLock e
    have hr := hst.1
    rw [ha] at hr
    rcases hr with e | e | e | ⟨d, e⟩ <;> cases e
  | dropped => exact ⟨_, .free w l r y hx hw (hslot (by rw [hw]; simp)), rank_lt hx rfl (by simp [Conn.rank, hw, Watch.rank]),
      rfl, hl, _, List.mem_append_right _ List.mem_cons_self, rfl, id, hf⟩
  | uncounted => exact ⟨_, .drop w l r y hx hw, rank_lt hx rfl (by simp [Conn.rank, hw, Watch.rank]),
      rfl, hl, _, List.mem_append_right _ List.mem_cons_self, rfl, id, hf⟩
  | reading n => exact ⟨_, .count w l r y n hx hw, rank_lt hx rfl (by simp [Conn.rank, hw, Watch.rank]),
      rfl, hl, _, List.mem_append_right _ List.mem_cons_self, rfl, id, hf⟩
  | marked => exact ⟨_, .seeDown w l r y hx hw, rank_lt hx rfl (by simp [Conn.rank, hw, Watch.rank]),
      rfl, hl, _, List.mem_append_right _ List.mem_cons_self, rfl, id, hf⟩
  | waiting k =>
    have hlk := lock_free h hl hy hw
    have hs := ht.waits k hw
    unfold Conn.sortOf at hs
    rw [List.getElem?_map] at hs
    cases hc : y.peer.threads[k]? with
    | none => rw [hc] at hs; cases hs
    | some t =>
      by_cases e : t = .woken
      · subst e
        exact ⟨_, .mark w l r y k hx hw hc hlk, rank_lt hx rfl (by simp [Conn.rank, hw, Watch.rank]),
      rfl, hl, _, List.mem_append_right _ List.mem_cons_self, rfl, id, hf⟩
      by_cases hk : y.lock = .waiting
      · exact ⟨_, .record w l r y 0 0 hx hk hlk, rank_lt hx rfl (by simp [Conn.rank, hk, AtLock.rank]),
      rfl, hl, _, List.mem_append_right _ List.mem_cons_self, rfl, id, hf⟩
      · refine free ⟨t, List.mem_of_getElem? hc, ?_⟩ hk
        rw [hc] at hs
        cases t <;> simp_all [sort, CallOver]
  | unborn =>
    have hsub := ht.subject hw
    cases hlp : w.loop with
    | starting a c =>
      rw [hlp] at hsub
      injection hsub with e
      subst e
      obtain ⟨h1, h2⟩ := ht.starts (by rw [hlp]; rfl)
      refine ⟨_, .start w a l r y hlp hx _ h1 h2 rfl, rank_lt_loop hx rfl ?_, rfl, hl, _,
        List.mem_append_right _ List.mem_cons_self, rfl, (fun h => by rcases h with h | ⟨d, h⟩ <;> cases h), hf⟩
      have h3 := (Lifecycle.rank_step (frame := frame) (.start y.peer h1 h2) hf).2.1
      rw [if_pos rfl] at h3
      rw [hlp]
      simp only [Loop.rank, if_true, Conn.rank]
      omega
    | pinging a c =>
      rw [hlp] at hsub
      injection hsub with e
      subst e
      refine ⟨_, .ping w a l r y hlp hx, rank_lt_loop hx rfl ?_, rfl, hl, _,
        List.mem_append_right _ List.mem_cons_self, rfl, id, hf⟩
      have h1 := calls_rank (x := y) (t := .send ping) (by simp [Lifecycle.Thread.rank])
      rw [hlp]
      simp only [Loop.rank, if_true]
      omega
    | pinged a c k =>
      rw [hlp] at hsub
      injection hsub with e
      subst e
      rcases sent k (by rw [hlp]; rfl) with ⟨m, b, hc⟩ | h
      · refine ⟨_, .ask w a k m b l r y hlp hx hc, rank_lt_loop hx rfl ?_, rfl, hl, _,
        List.mem_append_right _ List.mem_cons_self, rfl, id, hf⟩
        have h1 := calls_rank (x := y) (t := .send ask) (by simp [Lifecycle.Thread.rank])
        rw [hlp]
        simp only [Loop.rank, if_true]
        omega
      · exact h
    | asked a c k =>
      rw [hlp] at hsub
      injection hsub with e
      subst e
      rcases sent k (by rw [hlp]; rfl) with ⟨m, b, hc⟩ | h
      · refine ⟨_, .spawn w a k m b l r y hlp hx hc, rank_lt_loop hx rfl ?_, rfl, hl, _,
        List.mem_append_right _ List.mem_cons_self, rfl, id, hf⟩
        have h1 := calls_rank (x := y) (t := .wait) (by simp [Lifecycle.Thread.rank])
        rw [hlp]
        simp only [Loop.rank, if_true, Conn.rank, Conn.calls, hw, Watch.rank] at h1 ⊢
        omega
      · exact h
    | _ => rw [hlp] at hsub; cases hsub

/-- A connection that is being closed stays one. -/
theorem closing_stays {w w' : State M} (h : Reachable frame ping ask w) (h' : Later frame ping ask w w') {x : Conn M}
    (hx : x ∈ w.conns) (hf : x.peer.flag = true) : ∃ y ∈ w'.conns, y.id = x.id ∧ y.peer.flag = true := by
  induction h' with
  | here => exact ⟨x, hx, rfl, hf⟩
  | next h' hp hs ih =>
    obtain ⟨y, hy, y1, y3⟩ := ih
    obtain ⟨z, hz, z1, z2, z3, -⟩ := Props.conn_stays (inv_reachable (h'.reachable h)) hs hy
    refine ⟨z, hz, z1.trans y1, ?_⟩
    rcases z3 with e | ⟨k, hk⟩
    · rw [e]; exact y3
    · exact (Lifecycle.rank_step hk y3).1

theorem same_conn {w : State M} (h : Reachable frame ping ask w) {x y : Conn M} (hx : x ∈ w.conns) (hy : y ∈ w.conns)
    (e : x.id = y.id) : x = y := List.inj_on_of_nodup_map (ids_nodup h) hx hy e

theorem Later.trans {w w' w'' : State M} (h : Later frame ping ask w w') (h' : Later frame ping ask w' w'') :
    Later frame ping ask w w'' := by
  induction h' with
  | here => exact h
  | next _ hp hs ih => exact ih.next hp hs

end Gringo.Whole
