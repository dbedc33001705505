import Verif.Model.Whole
import Verif.Proofs.PoolRun
import Verif.Props.Waited
import Verif.Props.Lifecycle
/-
Model/Whole.lean refines Model/PoolRun.lean: every step of the former is up to two steps of the latter.
-/
namespace Gringo.Whole
open Gringo.P2P Gringo.Spec

variable {M : Type} {frame : M → Bytes} {ping ask : M}

def Conn.phase (x : Conn M) : PoolRun.Phase :=
  match x.watch with
  | .unborn | .waiting _ => if x.peer.flag then .down else .up
  | .marked => .marked
  | .reading n => .reading n
  | .uncounted => .uncounted
  | .dropped => .dropped
  | .gone => .gone

def Conn.abs (x : Conn M) : PoolRun.Link := ⟨x.id, x.addr, x.phase, decide (x.lock = .waiting)⟩

def Loop.abs : Loop → PoolRun.Loop
  | .select => .select
  | .choosing => .choosing
  | .connecting a => .connecting a
  | .dialing a => .dialing a
  | .greeting a c | .counting a c _ _ => .greeting a c
  | .starting a _ | .pinging a _ | .pinged a _ _ | .asked a _ _ => .announcing a
  | .failed => .failed
  | .sleeping => .sleeping
  | .stopped => .stopped

def Loop.seen : Loop → Option Int
  | .counting _ _ _ n => some n
  | _ => none

def Closer.abs : Closer → PoolRun.Closer
  | .over => .over
  | _ => .pending

/-- What Model/PoolRun.lean keeps of the state. -/
structure Rel (w : State M) (s : PoolRun.Pool) : Prop where
  table : s.table = w.table
  online : s.online = w.online
  connected : s.connected = w.connected
  slots : s.slots = w.slots
  loop : s.loop = w.loop.abs
  links : s.links = w.conns.map Conn.abs
  opened : s.opened = w.opened
  next : s.next = w.next
  quit : s.quit = w.quit
  closers : s.closers = w.closers.map fun e => (e.1, e.2.abs)
  banning : w.bans.length ≤ s.banning
  panicked : s.panicked = w.panicked
  seen : s.seen = w.loop.seen

theorem mem_replaced {α : Type} {l r : List α} {x y z : α} (h : z ∈ l ++ y :: r) : z = y ∨ z ∈ l ++ x :: r := by
  rcases List.mem_append.1 h with h | h
  · exact .inr (by simp [h])
  rcases List.mem_cons.1 h with h | h
  · exact .inl h
  · exact .inr (by simp [h])

/-- A returned call stays returned. -/
theorem woken_step {k : Lifecycle.Kind} {s s' : Lifecycle.Peer M} (hs : Lifecycle.Step frame k s s')
    (h : .woken ∈ s.threads) : .woken ∈ s'.threads := by
  have keep : ∀ {d d' : Lifecycle.Disc} {s0 : Lifecycle.Peer M}, Lifecycle.DiscStep d s d' s0 →
      s0.threads = s.threads := by
    intro d d' s0 hd; cases hd <;> rfl
  cases hs with
  | closingStep _ s0 d d' hd hs => show _ ∈ s0.threads; rw [keep hs]; exact h
  | readerLeave _ s0 d d' hd hs => show _ ∈ s0.threads; rw [keep hs]; exact h
  | writerLeave _ s0 d d' hd hs => show _ ∈ s0.threads; rw [keep hs]; exact h
  | threadDisc _ s0 l r d d' hd hs => rw [hd] at h; simpa using h
  | sendQuit _ l r m hl _ => simp_all
  | sendTaken l r m hl _ => simp_all
  | waitQuit l r hl _ => simp_all
  | waitEnd l r hl _ => simp_all
  | _ => first | exact h | simp_all

theorem flag_step {k : Lifecycle.Kind} {s s' : Lifecycle.Peer M} (hs : Lifecycle.Step frame k s s')
    (h : s.flag = true) : s'.flag = true := (Lifecycle.rank_step hs h).1

theorem conn_flag {s : Lifecycle.Peer M} (h : Lifecycle.Reachable frame s) (hc : 0 < s.conn) : s.flag = true := by
  have := (Lifecycle.inv_reachable h).conn
  cases hf : s.flag
  · rw [hf] at this; simp at this; omega
  · rfl

/-- A call of `Disconnect` that has begun has set the flag. -/
theorem disc_flag {s : Lifecycle.Peer M} (h : Lifecycle.Reachable frame s) {d : Lifecycle.Disc}
    (hd : .disconnect d ∈ s.threads) (hn : d ≠ .cas) : s.flag = true := by
  have hm : d ∈ s.discs := by
    simp only [Lifecycle.Peer.discs, List.mem_append, List.mem_flatMap]
    exact .inr (.inr ⟨_, hd, by simp [Lifecycle.Thread.discs]⟩)
  have hi := Lifecycle.inv_reachable h
  cases d with
  | cas => exact absurd rfl hn
  | won => exact Lifecycle.discs_alone hi hm (.inl rfl)
  | closing => exact Lifecycle.discs_alone hi hm (.inr (.inl rfl))
  | waiting => exact Lifecycle.discs_alone hi hm (.inr (.inr rfl))
  | returned => exact Props.returned_flag h hm

theorem call_mem {x : Conn M} {k : Nat} {t : Lifecycle.Thread M} (h : x.call k = some t) : t ∈ x.peer.threads :=
  List.mem_of_getElem? h

theorem not_locked {w : State M} {s : PoolRun.Pool} (h : Rel w s) {a : String} (hl : ¬ w.locked a) : ¬ s.locked a := by
  rintro (e | ⟨c, e⟩ | e | ⟨c, e⟩)
  · rw [h.loop] at e
    refine hl (.inl ?_)
    cases hw : w.loop <;> rw [hw] at e <;> simp_all [Loop.abs, Loop.holds]
  · rw [h.loop] at e
    refine hl (.inl ?_)
    cases hw : w.loop <;> rw [hw] at e <;> simp_all [Loop.abs, Loop.holds]
  · rw [h.loop] at e
    refine hl (.inl ?_)
    cases hw : w.loop <;> rw [hw] at e <;> simp_all [Loop.abs, Loop.holds]
  · rw [h.closers] at e
    obtain ⟨⟨b, q⟩, -, e⟩ := List.mem_map.1 e
    cases q <;> simp [Closer.abs] at e

/-- What holds of every connection. -/
structure Local (frame : M → Bytes) (x : Conn M) : Prop where
  peer : Lifecycle.Reachable frame x.peer
  atLock : x.lock = .waiting → ∃ a, x.peer.reader = .handling a ∧ a ≠ .close
  past : x.watch.past → .woken ∈ x.peer.threads

theorem Local.calls {x : Conn M} (h : Local frame x) {t : Lifecycle.Thread M}
    (ht : Lifecycle.Step frame .call x.peer (x.calls t).peer) : Local frame (x.calls t) :=
  ⟨.step h.peer ht, h.atLock, fun hp => by
    have := h.past hp
    simp [Conn.calls, this]⟩

theorem local_replaced {l r : List (Conn M)} {x y : Conn M} (h : ∀ z ∈ l ++ x :: r, Local frame z)
    (hy : Local frame x → Local frame y) : ∀ z ∈ l ++ y :: r, Local frame z := by
  intro z hz
  rcases mem_replaced (x := x) hz with rfl | hz
  · exact hy (h x (by simp))
  · exact h z hz

theorem lock_kept {x : Conn M} {p : Lifecycle.Peer M}
    (h : (if p.reader.handles then x.lock else .before) = AtLock.waiting) : x.lock = .waiting := by
  split at h
  · exact h
  · cases h

theorem lock_same {x : Conn M} {p : Lifecycle.Peer M} (hx : Local frame x) (hh : x.held → p.reader = x.peer.reader) :
    (if p.reader.handles then x.lock else .before) = AtLock.waiting ↔ x.lock = .waiting := by
  refine ⟨lock_kept, fun h => ?_⟩
  obtain ⟨a, e, -⟩ := hx.atLock h
  rw [hh (.inl h), e]
  exact h

theorem local_step {w w' : State M} {k : Lifecycle.Kind} (hs : Step frame ping ask w k w') (h : ∀ x ∈ w.conns, Local frame x) :
    ∀ x ∈ w'.conns, Local frame x := by
  have rep : ∀ {l r : List (Conn M)} {x y : Conn M}, w.conns = l ++ x :: r → (Local frame x → Local frame y) →
      ∀ z ∈ l ++ y :: r, Local frame z := fun hx hy => local_replaced (hx ▸ h) hy
  cases hs with
  | register addr c told now n hl =>
    intro x hx
    rcases List.mem_append.1 hx with hx | hx
    · exact h x hx
    · rw [List.mem_singleton.1 hx]
      exact ⟨.new, (fun h => by cases h), fun h => h.elim⟩
  | start addr l r x hl hx p hr hw hp =>
    refine rep hx fun hx => ⟨?_, fun ha => ?_, fun hq => ?_⟩
    · rw [hp]; exact .step hx.peer (.start _ hr hw)
    · obtain ⟨a, e, -⟩ := hx.atLock ha
      rw [hr] at e; cases e
    · rw [hp]; exact hx.past hq
  | ping addr l r x hl hx => exact rep hx fun h => h.calls (.callSend _ _)
  | ask addr k m b l r x hl hx hk => exact rep hx fun h => h.calls (.callSend _ _)
  | spawn addr k m b l r x hl hx hk =>
    exact rep hx fun h => ⟨(h.calls (.callWait _)).peer, h.atLock, fun h => h.elim⟩
  | inner l r x hx kind p hk hs hh =>
    refine rep hx fun h => ⟨.step h.peer hs, fun ha => ?_, fun hq => woken_step hs (h.past hq)⟩
    have ha := lock_kept ha
    show ∃ a, p.reader = .handling a ∧ a ≠ .close
    rw [hh (.inl ha)]; exact h.atLock ha
  | relay l r x m hx => exact rep hx fun h => h.calls (.callSend _ _)
  | want l r x a hx hr ha hb0 => exact rep hx fun h => ⟨h.peer, fun _ => ⟨a, hr, ha⟩, h.past⟩
  | record l r x td height hx hl => exact rep hx fun h => ⟨h.peer, (fun h => by cases h), h.past⟩
  | mark l r x k hx hw hk hl => exact rep hx fun h => ⟨h.peer, h.atLock, fun _ => call_mem hk⟩
  | seeDown l r x hx hw => exact rep hx fun h => ⟨h.peer, h.atLock, fun _ => h.past (by rw [hw]; trivial)⟩
  | count l r x n hx hw => exact rep hx fun h => ⟨h.peer, h.atLock, fun _ => h.past (by rw [hw]; trivial)⟩
  | drop l r x hx hw => exact rep hx fun h => ⟨h.peer, h.atLock, fun _ => h.past (by rw [hw]; trivial)⟩
  | free l r x hx hw hs => exact rep hx fun h => ⟨h.peer, h.atLock, fun _ => h.past (by rw [hw]; trivial)⟩
  | banSelf addr i l r x hx hr ht hp hb =>
    refine rep hx fun h => ⟨.step h.peer (.handleClose _ hr), fun ha => ?_, h.past⟩
    obtain ⟨a, e, hn⟩ := h.atLock ha
    rw [hr] at e
    injection e with e
    exact absurd e.symm hn
  | banOther addr i l r y b hx ht hp hb => exact rep hx fun h => h.calls (.callDisconnect _)
  | closeCall l r addr i l' r' x hx ht hp hx' => exact rep hx' fun h => h.calls (.callDisconnect _)
  | _ => exact h

/-- The connection that `connectPeer` has put into the table and whose goroutine it has not started yet. -/
def Loop.subject : Loop → Option Nat
  | .starting _ c | .pinging _ c | .pinged _ c _ | .asked _ c _ => some c
  | _ => none

structure Inv (frame : M → Bytes) (w : State M) : Prop where
  conns : ∀ x ∈ w.conns, Local frame x
  told : ∀ a c t n, w.loop = .counting a c t n → t.version = ProtocolVersion
  target : ∀ a c k, (a, Closer.closing c k) ∈ w.closers → ∃ i, w.table.find a = some i ∧ i.peer = some c
  stopped : w.loop ≠ .stopped → w.closers = []
  unborn : ∀ x ∈ w.conns, w.loop.subject = some x.id → x.watch = .unborn

theorem peer_update (t : Table) (a b : String) (f : PeerInfo → PeerInfo) (hf : ∀ i, (f i).peer = i.peer) {i : PeerInfo}
    {c : Nat} (h : t.find b = some i) (hp : i.peer = some c) :
    ∃ j, (t.update a f).find b = some j ∧ j.peer = some c := by
  rw [Props.find_update, h]
  by_cases e : b = a
  · exact ⟨f i, by simp [e], (hf i).trans hp⟩
  · exact ⟨i, by simp [e], hp⟩

theorem inv_step {w w' : State M} {k : Lifecycle.Kind} (hs : Step frame ping ask w k w') (h : Inv frame w)
    (hg : ∀ a c t n, w.loop = .counting a c t n → ∀ x ∈ w.conns, x.id ≠ c) : Inv frame w' := by
  obtain ⟨h1, h2, h3, h4, h5⟩ := h
  refine ⟨local_step hs h1, ?_, ?_, ?_, ?_⟩
  · cases hs <;> first | exact h2 | (intro a c t n e; cases e; assumption) | (intro a c t n e; cases e)
  · have keep : ∀ {a : String} {f : PeerInfo → PeerInfo}, (∀ i, (f i).peer = i.peer) →
        ∀ b c k, (b, Closer.closing c k) ∈ w.closers → ∃ i, (w.table.update a f).find b = some i ∧ i.peer = some c := by
      intro a f hf b c k hm
      obtain ⟨i, e1, e2⟩ := h3 b c k hm
      exact peer_update _ _ _ _ hf e1 e2
    cases hs with
    | register addr c told now n hl =>
      intro b d k hm
      have hm' : (b, Closer.closing d k) ∈ w.closers := hm
      rw [h4 (by rw [hl]; simp)] at hm'
      cases hm'
    | add addr resolve hr =>
      intro b d k hm
      obtain ⟨i, e1, e2⟩ := h3 b d k hm
      obtain ⟨rest, e, -⟩ := Props.add_prefix resolve w.table addr
      refine ⟨i, ?_, e2⟩
      show (P2P.add resolve w.table addr).find b = some i
      rw [e]
      unfold Table.find at e1 ⊢
      rw [List.lookup_append, e1]
      rfl
    | quitting hl hq =>
      intro b d k hm
      obtain ⟨e, -, e'⟩ := List.mem_map.1 hm
      cases e'
    | closeLock l r addr hx hl =>
      intro b d k hm
      refine h3 b d k ?_
      rcases mem_replaced (x := (addr, Closer.pending)) hm with e | e
      · cases e
      · rw [hx]; exact e
    | closeCall l r addr i l' r' x hx ht hp hx' =>
      intro b d k hm
      rcases mem_replaced (x := (addr, Closer.locked)) hm with e | e
      · cases e; exact ⟨i, ht, hp⟩
      · exact h3 b d k (by rw [hx]; exact e)
    | closeDone l r addr k' x hx hx' hk =>
      intro b d k hm
      refine keep (f := PoolRun.setStatus .disconnected) (fun _ => rfl) b d k ?_
      rcases mem_replaced (x := (addr, Closer.closing x.id k')) hm with e | e
      · cases e
      · rw [hx]; exact e
    | record l r x td height hx hl =>
      exact keep (f := fun i => { i with totalDifficulty := td, height := height }) fun _ => rfl
    | noAnswer => exact keep (f := PoolRun.setStatus .failedConn) fun _ => rfl
    | noShake => exact keep (f := PoolRun.setStatus .failedConn) fun _ => rfl
    | mark => exact keep (f := PoolRun.setStatus .disconnected) fun _ => rfl
    | banSelf => exact keep (f := PoolRun.setStatus .banned) fun _ => rfl
    | banOther => exact keep (f := PoolRun.setStatus .banned) fun _ => rfl
    | banNil => exact keep (f := PoolRun.setStatus .banned) fun _ => rfl
    | _ => exact h3
  · intro hn
    cases hs with
    | quitting => exact absurd rfl hn
    | closeLock l r addr hx hl => have := h4 hn; rw [hx] at this; simp at this
    | closeCall l r addr i l' r' x hx ht hp hx' => have := h4 hn; rw [hx] at this; simp at this
    | closeDone l r addr k' x hx hx' hk => have := h4 hn; rw [hx] at this; simp at this
    | _ => first | exact h4 hn | (refine h4 ?_; simp_all)
  · -- only a connection that is not the loop's gets a goroutine
    have rep : ∀ {l r : List (Conn M)} {x y : Conn M} {o : Option Nat}, w.conns = l ++ x :: r → y.id = x.id →
        (w.loop.subject = some x.id → y.watch = .unborn) → (o = none ∨ o = w.loop.subject) →
        ∀ z ∈ l ++ y :: r, o = some z.id → z.watch = .unborn := by
      intro l r x y o hx hid hy ho z hz e
      rcases ho with rfl | rfl
      · cases e
      rcases mem_replaced (x := x) hz with rfl | hz
      · exact hy (hid ▸ e)
      · exact h5 z (by rw [hx]; exact hz) e
    have same : ∀ {l r : List (Conn M)} {x y : Conn M} {o : Option Nat}, w.conns = l ++ x :: r → y.id = x.id →
        y.watch = x.watch → (o = none ∨ o = w.loop.subject) → ∀ z ∈ l ++ y :: r, o = some z.id → z.watch = .unborn :=
      fun hx hid hw ho => rep hx hid (fun e => hw.trans (h5 _ (by rw [hx]; simp) e)) ho
    have born : ∀ {l r : List (Conn M)} {x y : Conn M}, w.conns = l ++ x :: r → y.id = x.id → x.watch ≠ .unborn →
        ∀ z ∈ l ++ y :: r, w.loop.subject = some z.id → z.watch = .unborn :=
      fun hx hid hw => rep hx hid (fun e => absurd (h5 _ (by rw [hx]; simp) e) hw) (.inr rfl)
    cases hs with
    | register addr c told now n hl =>
      intro x hx e
      cases e
      rcases List.mem_append.1 hx with hx | hx
      · exact absurd rfl (hg _ _ _ _ hl x hx)
      · rw [List.mem_singleton.1 hx]
    | start addr l r x hl hx p hr hw hp => exact same hx rfl rfl (.inr (by rw [hl]; rfl))
    | ping addr l r x hl hx => exact same hx rfl rfl (.inr (by rw [hl]; rfl))
    | ask addr k m b l r x hl hx hk => exact same hx rfl rfl (.inr (by rw [hl]; rfl))
    | spawn addr k m b l r x hl hx hk => intro z hz e; cases e
    | inner l r x hx kind p hk hs hh => exact same hx rfl rfl (.inr rfl)
    | relay l r x m hx => exact same hx rfl rfl (.inr rfl)
    | want l r x a hx hr ha hb0 => exact same hx rfl rfl (.inr rfl)
    | record l r x td height hx hl => exact same hx rfl rfl (.inr rfl)
    | mark l r x k hx hw hk hl => exact born hx rfl (by rw [hw]; simp)
    | seeDown l r x hx hw => exact born hx rfl (by rw [hw]; simp)
    | count l r x n hx hw => exact born hx rfl (by rw [hw]; simp)
    | drop l r x hx hw => exact born hx rfl (by rw [hw]; simp)
    | free l r x hx hw hs => exact born hx rfl (by rw [hw]; simp)
    | banSelf addr i l r x hx hr ht hp hb => exact same hx rfl rfl (.inr rfl)
    | banOther addr i l r y b hx ht hp hb => exact same hx rfl rfl (.inr rfl)
    | closeCall l r addr i l' r' x hx ht hp hx' => exact same hx' rfl rfl (.inr rfl)
    | _ => first | exact h5 | (intro z hz e; cases e)

theorem map_split {l r : List (Conn M)} {x : Conn M} :
    (l ++ x :: r).map Conn.abs = l.map Conn.abs ++ x.abs :: r.map Conn.abs := by simp

theorem phase_down {x : Conn M} (hf : x.peer.flag = true) : x.phase ≠ .up := by
  unfold Conn.phase
  cases x.watch <;> simp [hf]

theorem simulate {w w' : State M} {k : Lifecycle.Kind} (hs : Step frame ping ask w k w') (hp : w.panicked = false) (hi : Inv frame w)
    {s : PoolRun.Pool} (h : Rel w s) :
    ∃ s', PoolRun.Reachable s s' ∧ Rel w' s' := by
  have go : PoolRun.Reachable s s := .here
  have unlock := @not_locked _ w s h
  -- after the loop has ended nobody holds a lock in the other model
  have closing : ∀ a : String, w.closers ≠ [] → ¬ s.locked a := by
    intro a hn
    have hl : s.loop = .stopped := by
      rw [h.loop]
      by_cases e : w.loop = .stopped
      · rw [e]; rfl
      · exact absurd (hi.stopped e) hn
    rintro (e | ⟨c, e⟩ | e | ⟨c, e⟩)
    · rw [hl] at e; cases e
    · rw [hl] at e; cases e
    · rw [hl] at e; cases e
    · rw [h.closers] at e
      obtain ⟨⟨b, q⟩, -, e⟩ := List.mem_map.1 e
      cases q <;> simp [Closer.abs] at e
  obtain ⟨st, son, scn, ssl, slp, slk, sop, snx, sqt, scl, sbn, spn, skp, ssn, src⟩ := s
  obtain ⟨wt, won, wcn, wsl, wlp, wlk, wop, wnx, wqt, wcl, wbn, wpn⟩ := w
  obtain ⟨e1, e2, e3, e4, e5, e6, e7, e8, e9, e10, e11, e12, e13⟩ := h
  dsimp only at e1 e2 e3 e4 e5 e6 e7 e8 e9 e10 e11 e12 e13 hp
  subst e1 e2 e3 e4 e5 e6 e7 e8 e9 e10 e12 e13
  subst hp
  have stutter : ∀ w' : State M, Rel w' _ → ∃ s', PoolRun.Reachable _ s' ∧ Rel w' s' := fun _ h => ⟨_, go, h⟩
  cases hs with
  | take h hs => cases h; exact ⟨_, go.next rfl (.take _ rfl hs), ⟨rfl, rfl, rfl, rfl, rfl, rfl, rfl, rfl, rfl, rfl, e11, rfl, rfl⟩⟩
  | choose o1 o2 h h1 h2 =>
    cases h
    exact ⟨_, go.next rfl (.choose _ o1 o2 rfl h1 h2), ⟨rfl, rfl, rfl, rfl, rfl, rfl, rfl, rfl, rfl, rfl, e11, rfl, rfl⟩⟩
  | nothing h => cases h; exact ⟨_, go.next rfl (.nothing _ rfl), ⟨rfl, rfl, rfl, rfl, rfl, rfl, rfl, rfl, rfl, rfl, e11, rfl, rfl⟩⟩
  | tooMany a h hne hc =>
    cases h; exact ⟨_, go.next rfl (.tooMany _ a rfl hne hc), ⟨rfl, rfl, rfl, rfl, rfl, rfl, rfl, rfl, rfl, rfl, e11, rfl, rfl⟩⟩
  | missing a h hne hc ht =>
    cases h; exact ⟨_, go.next rfl (.missing _ a rfl hne hc ht), ⟨rfl, rfl, rfl, rfl, rfl, rfl, rfl, rfl, rfl, rfl, e11, rfl, rfl⟩⟩
  | skip a i h hne hc ht hl hst =>
    cases h
    exact ⟨_, go.next rfl (.skip _ a i rfl hne hc ht (unlock hl) hst), ⟨rfl, rfl, rfl, rfl, rfl, rfl, rfl, rfl, rfl, rfl, e11, rfl, rfl⟩⟩
  | dial a i h hne hc ht hl hst =>
    cases h
    exact ⟨_, go.next rfl (.dial _ a i rfl hne hc ht (unlock hl) hst), ⟨rfl, rfl, rfl, rfl, rfl, rfl, rfl, rfl, rfl, rfl, e11, rfl, rfl⟩⟩
  | noAnswer a h => cases h; exact ⟨_, go.next rfl (.noAnswer _ a rfl), ⟨rfl, rfl, rfl, rfl, rfl, rfl, rfl, rfl, rfl, rfl, e11, rfl, rfl⟩⟩
  | opens a h => cases h; exact ⟨_, go.next rfl (.opens _ a rfl), ⟨rfl, rfl, rfl, rfl, rfl, rfl, rfl, rfl, rfl, rfl, e11, rfl, rfl⟩⟩
  | noShake a c h =>
    cases h; exact ⟨_, go.next rfl (.noShake _ a c rfl rfl), ⟨rfl, rfl, rfl, rfl, rfl, rfl, rfl, rfl, rfl, rfl, e11, rfl, rfl⟩⟩
  | otherVersion a c told h hv =>
    cases h
    exact ⟨_, go.next rfl (.otherVersion _ a c told rfl hv rfl), ⟨rfl, rfl, rfl, rfl, rfl, rfl, rfl, rfl, rfl, rfl, e11, rfl, rfl⟩⟩
  | see a c told h hv =>
    cases h; exact ⟨_, go.next rfl (.see _ a c rfl rfl), ⟨rfl, rfl, rfl, rfl, rfl, rfl, rfl, rfl, rfl, rfl, e11, rfl, rfl⟩⟩
  | register a c told now n h =>
    cases h
    refine ⟨_, go.next rfl (.register _ a c told now n rfl (hi.told a c told n rfl) rfl), ?_⟩
    exact ⟨rfl, rfl, rfl, rfl, rfl, by simp [Conn.abs, Conn.phase, Lifecycle.Peer.new], rfl, rfl, rfl, rfl, e11, rfl, rfl⟩
  | start a l r x h hx p hrd hwr hp =>
    cases h; cases hx; subst hp
    refine stutter _ ⟨rfl, rfl, rfl, rfl, rfl, ?_, rfl, rfl, rfl, rfl, e11, rfl, rfl⟩
    simp [Conn.abs, Conn.phase]
  | ping a l r x h hx =>
    cases h; cases hx
    refine stutter _ ⟨rfl, rfl, rfl, rfl, rfl, ?_, rfl, rfl, rfl, rfl, e11, rfl, rfl⟩
    simp [Conn.abs, Conn.phase, Conn.calls]
  | ask a k m b l r x h hx hk =>
    cases h; cases hx
    refine stutter _ ⟨rfl, rfl, rfl, rfl, rfl, ?_, rfl, rfl, rfl, rfl, e11, rfl, rfl⟩
    simp [Conn.abs, Conn.phase, Conn.calls]
  | spawn a k m b l r x h hx hk =>
    cases h; cases hx
    refine ⟨_, go.next rfl (.announced _ a rfl), ⟨rfl, rfl, rfl, rfl, rfl, ?_, rfl, rfl, rfl, rfl, e11, rfl, rfl⟩⟩
    have := hi.unborn x (by simp) rfl
    simp [Conn.abs, Conn.phase, Conn.calls, this]
  | release h hs => cases h; exact ⟨_, go.next rfl (.release _ rfl hs), ⟨rfl, rfl, rfl, rfl, rfl, rfl, rfl, rfl, rfl, rfl, e11, rfl, rfl⟩⟩
  | wake h => cases h; exact ⟨_, go.next rfl (.wake _ rfl), ⟨rfl, rfl, rfl, rfl, rfl, rfl, rfl, rfl, rfl, rfl, e11, rfl, rfl⟩⟩
  | inner l r x hx kind p hk hs hh =>
    cases hx
    have hx := hi.conns x (by simp)
    have hab : Conn.abs { x with peer := p, lock := if p.reader.handles then x.lock else .before } =
        Conn.abs { x with peer := p } := by
      have := lock_same hx hh
      simp only [Conn.abs, Conn.phase, this]
    -- first the connection falls, if it does
    obtain ⟨s1, hr1, el, e⟩ : ∃ s1 : PoolRun.Pool, PoolRun.Reachable _ s1 ∧
        s1.links = (l ++ { x with peer := p } :: r).map Conn.abs ∧
        s1 = { table := st, online := son, connected := scn, slots := ssl, loop := wlp.abs, links := s1.links,
               opened := sop, next := snx, quit := sqt, closers := wcl.map fun e => (e.1, e.2.abs),
               banning := sbn, panicked := false, kept := skp, seen := wlp.seen, raced := src } := by
      by_cases hu : x.phase = .up ∧ p.flag = true
      · refine ⟨_, go.next rfl (.fall _ (l.map Conn.abs) (r.map Conn.abs) x.abs map_split hu.1), ?_, rfl⟩
        obtain ⟨h1, h2⟩ := hu
        unfold Conn.phase at h1
        cases hw : x.watch <;> rw [hw] at h1 <;> simp_all [Conn.abs, Conn.phase]
      · refine ⟨_, go, ?_, rfl⟩
        have : x.phase = Conn.phase { x with peer := p } := by
          unfold Conn.phase at hu ⊢
          have hm := flag_step hs
          cases hw : x.watch <;> rw [hw] at hu <;> simp only
          all_goals cases hf : x.peer.flag <;> simp_all
        simp [Conn.abs, this]
    by_cases hc : 0 < p.conn
    · have hf := conn_flag (.step hx.peer hs) hc
      refine ⟨_, hr1.next (by rw [e]) (.shut s1 (Conn.abs { x with peer := p }) (by rw [el]; simp)
        (phase_down hf)), ?_⟩
      rw [e, el, if_pos hc]
      exact ⟨rfl, rfl, rfl, rfl, rfl, by rw [map_split, map_split, hab], rfl, rfl, rfl, rfl, e11, rfl, rfl⟩
    · refine ⟨s1, hr1, ?_⟩
      rw [e, el, if_neg hc]
      exact ⟨rfl, rfl, rfl, rfl, rfl, by rw [map_split, map_split, hab], rfl, rfl, rfl, rfl, e11, rfl, rfl⟩
  | relay l r x m hx =>
    cases hx
    refine stutter _ ⟨rfl, rfl, rfl, rfl, rfl, ?_, rfl, rfl, rfl, rfl, e11, rfl, rfl⟩
    simp [Conn.abs, Conn.phase, Conn.calls]
  | want l r x a hx hrd ha hb0 =>
    cases hx
    refine ⟨_, go.next rfl (.want _ (l.map Conn.abs) (r.map Conn.abs) x.abs map_split ?_),
      ⟨rfl, rfl, rfl, rfl, rfl, ?_, rfl, rfl, rfl, rfl, e11, rfl, rfl⟩⟩
    · have hx := hi.conns x (by simp)
      have hn : ¬ x.watch.past := by
        intro h
        have := (Props.woken_still hx.peer (hx.past h)).2.1
        rw [hrd] at this
        simp at this
      show x.phase = .up ∨ x.phase = .down
      unfold Conn.phase
      cases hw : x.watch <;> rw [hw] at hn <;> simp_all [Watch.past]
    · simp [Conn.abs, Conn.phase]
  | record l r x td height hx hw hl =>
    cases hx
    refine ⟨_, go.next rfl (.record _ (l.map Conn.abs) (r.map Conn.abs) x.abs td height map_split (by simp [Conn.abs, hw]) (unlock hl)),
      ⟨rfl, rfl, rfl, rfl, rfl, ?_, rfl, rfl, rfl, rfl, e11, rfl, rfl⟩⟩
    simp [Conn.abs, Conn.phase]
  | mark l r x k hx hw hk hl =>
    cases hx
    have hx := hi.conns x (by simp)
    have hm := call_mem hk
    refine ⟨_, go.next rfl (.mark _ (l.map Conn.abs) (r.map Conn.abs) x.abs map_split ?_ ?_ (unlock hl)),
      ⟨rfl, rfl, rfl, rfl, rfl, ?_, rfl, rfl, rfl, rfl, e11, rfl, rfl⟩⟩
    · show x.phase = .down
      unfold Conn.phase
      rw [hw, (Lifecycle.woken_inv hx.peer hm).1]
      rfl
    · show decide (x.lock = .waiting) = false
      refine decide_eq_false fun ha => ?_
      · obtain ⟨a, e, -⟩ := hx.atLock ha
        have := (Props.woken_still hx.peer hm).2.1
        rw [e] at this
        simp at this
    · simp [Conn.abs, Conn.phase]
  | seeDown l r x hx hw =>
    cases hx
    refine ⟨_, go.next rfl (.seeDown _ (l.map Conn.abs) (r.map Conn.abs) x.abs map_split ?_),
      ⟨rfl, rfl, rfl, rfl, rfl, ?_, rfl, rfl, rfl, rfl, e11, rfl, rfl⟩⟩
    · simp [Conn.abs, Conn.phase, hw]
    · simp [Conn.abs, Conn.phase]
  | count l r x n hx hw =>
    cases hx
    refine ⟨_, go.next rfl (.count _ (l.map Conn.abs) (r.map Conn.abs) x.abs n map_split ?_),
      ⟨rfl, rfl, rfl, rfl, rfl, ?_, rfl, rfl, rfl, rfl, e11, rfl, rfl⟩⟩
    · simp [Conn.abs, Conn.phase, hw]
    · simp [Conn.abs, Conn.phase]
  | drop l r x hx hw =>
    cases hx
    refine ⟨_, go.next rfl (.drop _ (l.map Conn.abs) (r.map Conn.abs) x.abs map_split ?_),
      ⟨rfl, rfl, rfl, rfl, rfl, ?_, rfl, rfl, rfl, rfl, e11, rfl, rfl⟩⟩
    · simp [Conn.abs, Conn.phase, hw]
    · simp [Conn.abs, Conn.phase]
  | free l r x hx hw hs =>
    cases hx
    refine ⟨_, go.next rfl (.free _ (l.map Conn.abs) (r.map Conn.abs) x.abs map_split ?_ hs),
      ⟨rfl, rfl, rfl, rfl, rfl, ?_, rfl, rfl, rfl, rfl, e11, rfl, rfl⟩⟩
    · simp [Conn.abs, Conn.phase, hw]
    · simp [Conn.abs, Conn.phase]
  | add a resolve hres =>
    exact ⟨_, go.next rfl (.add _ a resolve hres), ⟨rfl, rfl, rfl, rfl, rfl, rfl, rfl, rfl, rfl, rfl, e11, rfl, rfl⟩⟩
  | banSelf a i l r x hx hrd ht hpe hb =>
    cases hx
    refine ⟨_, go.next rfl (.banOther _ a i ht), ⟨rfl, rfl, rfl, rfl, rfl, ?_, rfl, rfl, rfl, rfl, ?_, rfl, rfl⟩⟩
    · simp [Conn.abs, Conn.phase]
    · simpa using e11
  | banOther a i l r y b hx ht hpe hb =>
    cases hx
    refine ⟨_, go.next rfl (.banOther _ a i ht), ⟨rfl, rfl, rfl, rfl, rfl, ?_, rfl, rfl, rfl, rfl, ?_, rfl, rfl⟩⟩
    · simp [Conn.abs, Conn.phase, Conn.calls]
    · simpa using e11
  | banNil a i ht hpe =>
    refine ⟨_, (go.next rfl (.banOther _ a i ht)).next rfl (.banCrash _ (Nat.succ_pos _)),
      ⟨rfl, rfl, rfl, rfl, rfl, rfl, rfl, rfl, rfl, rfl, Nat.le_succ_of_le e11, rfl, rfl⟩⟩
  | banEnd b hb x hx hc h =>
    exact ⟨_, go.next rfl (.banCrash _ (Nat.lt_of_lt_of_le (List.length_pos_of_mem hb) e11)), ⟨rfl, rfl, rfl, rfl, rfl, rfl, rfl, rfl, rfl, rfl, e11, rfl, rfl⟩⟩
  | stop => exact ⟨_, go.next rfl (.stop _), ⟨rfl, rfl, rfl, rfl, rfl, rfl, rfl, rfl, rfl, rfl, e11, rfl, rfl⟩⟩
  | quitting h hq =>
    cases h; cases hq
    refine ⟨_, go.next rfl (.quitting _ rfl rfl), ⟨rfl, rfl, rfl, rfl, rfl, rfl, rfl, rfl, rfl, ?_, e11, rfl, rfl⟩⟩
    simp [Closer.abs]
  | closeLock l r a hx hl =>
    cases hx
    refine stutter _ ⟨rfl, rfl, rfl, rfl, rfl, rfl, rfl, rfl, rfl, ?_, e11, rfl, rfl⟩
    simp [Closer.abs]
  | closeNil a i hx ht hpe =>
    obtain ⟨l, r, rfl⟩ := List.append_of_mem hx
    refine ⟨_, go.next rfl (.closeNil _ (l.map fun e => (e.1, e.2.abs)) (r.map fun e => (e.1, e.2.abs)) a i
      (by simp [Closer.abs]) (closing _ (by simp)) ht hpe), ⟨rfl, rfl, rfl, rfl, rfl, rfl, rfl, rfl, rfl, rfl, e11, rfl, rfl⟩⟩
  | closeCall l r a i l' r' x hx ht hpe hx' =>
    cases hx; cases hx'
    refine stutter _ ⟨rfl, rfl, rfl, rfl, rfl, ?_, rfl, rfl, rfl, ?_, e11, rfl, rfl⟩
    · simp [Conn.abs, Conn.phase, Conn.calls]
    · simp [Closer.abs]
  | closeDone l r a k x hx hx' hk =>
    cases hx
    obtain ⟨i, ht, hpe⟩ := hi.target a x.id k (by simp)
    have hf := disc_flag (hi.conns x hx').peer (call_mem hk) (by simp)
    refine ⟨_, go.next rfl (.closeDown _ (l.map fun e => (e.1, e.2.abs)) (r.map fun e => (e.1, e.2.abs)) a i x.abs
      (by simp [Closer.abs]) (closing _ (by simp)) ht hpe (List.mem_map.2 ⟨x, hx', rfl⟩) (phase_down hf)),
      ⟨rfl, rfl, rfl, rfl, rfl, rfl, rfl, rfl, rfl, ?_, e11, rfl, rfl⟩⟩
    simp [Closer.abs]

theorem rel_new : Rel (State.new M) PoolRun.Pool.new :=
  ⟨rfl, rfl, rfl, rfl, rfl, rfl, rfl, rfl, rfl, rfl, Nat.le_refl _, rfl, rfl⟩

/-- Every run of the model of Model/Whole.lean is one of Model/PoolRun.lean. -/
theorem refines {w : State M} (h : Reachable frame ping ask w) :
    Inv frame w ∧ ∃ s, PoolRun.Reachable .new s ∧ Rel w s := by
  induction h with
  | new =>
    exact ⟨⟨(fun _ h => by cases h), (fun _ _ _ _ h => by cases h), (fun _ _ _ h => by cases h), fun _ => rfl,
      fun _ h => by cases h⟩, _, .here, rel_new⟩
  | @next w w' k _ hp hs ih =>
    obtain ⟨hi, s, hr, h⟩ := ih
    obtain ⟨s', hr', h'⟩ := simulate hs hp hi h
    refine ⟨inv_step hs hi ?_, s', hr.trans hr', h'⟩
    intro a c t n hl x hx e
    have := (PoolRun.inv_reachable hr).conns.greeting a c (by rw [h.loop, hl]; rfl)
    exact this.2 x.abs (by rw [h.links]; exact List.mem_map.2 ⟨x, hx, rfl⟩) e

theorem inv_reachable {w : State M} (h : Reachable frame ping ask w) : Inv frame w := (refines h).1

theorem Later.reachable {w w' : State M} (h : Reachable frame ping ask w) (h' : Later frame ping ask w w') :
    Reachable frame ping ask w' := by
  induction h' with
  | here => exact h
  | next _ hp hs ih => exact ih.next hp hs

theorem refines_later {w w' : State M} (h : Reachable frame ping ask w) (h' : Later frame ping ask w w')
    {s : PoolRun.Pool} (hr : Rel w s) : ∃ s', PoolRun.Reachable s s' ∧ Rel w' s' := by
  induction h' with
  | here => exact ⟨s, .here, hr⟩
  | next h' hp hs ih =>
    obtain ⟨s1, h1, r1⟩ := ih
    obtain ⟨s2, h2, r2⟩ := simulate hs hp (inv_reachable (h'.reachable h)) r1
    exact ⟨s2, h1.trans h2, r2⟩

end Gringo.Whole
