import Verif.Props.PoolRun
import Verif.Props.ReadLoop
/-
C56, C67, C80: what a ban does to the running pool; C62: relaying in the running pool; C07: what an interrupted read
loop has done.
-/
namespace Gringo.Props
open Gringo.Spec Gringo.P2P Gringo.PoolRun

/-- **C56, how it fails.** Banning a known address that was never connected dereferences a nil pointer. If its
connection is the caller's own and not closing, the caller waits for itself; in every other case the write to the nil
map panics. -/
theorem C56_refuted_how (t : Table) (addr : String) (i : P2P.PeerInfo) (h : t.find addr = some i) (own : Option Nat)
    (closing : Nat → Bool) :
    (i.peer = none →
      (P2P.ban t addr own closing).2 = .panics "invalid memory address or nil pointer dereference") ∧
    (∀ c, i.peer = some c → own = some c → closing c = false → (P2P.ban t addr own closing).2 = .blocks) ∧
    (∀ c, i.peer = some c → own ≠ some c ∨ closing c = true →
      (P2P.ban t addr own closing).2 = .panics "assignment to entry in nil map") := by
  unfold P2P.ban
  rw [h]
  refine ⟨fun hp => by simp only [hp], fun c hp ho hc => ?_, fun c hp hc => ?_⟩
  · simp only [hp]
    rw [if_pos ⟨ho, hc⟩]
  · simp only [hp]
    rw [if_neg]
    rintro ⟨h1, h2⟩
    rcases hc with hc | hc
    · exact hc h1
    · rw [h2] at hc; cases hc

/-- **C56 in the running pool.** In whatever state the pool is, one call of `Ban` for a known address, from elsewhere
than the connection's own handler, marks the entry, and the next step of that call can end the process. -/
theorem C56_refuted_run (s : Pool) (addr : String) (i : P2P.PeerInfo) (h : s.table.find addr = some i) :
    ∃ s1 s2, PoolRun.Step s s1 ∧ (s1.table.find addr).map (·.status) = some .banned ∧ s1.links = s.links ∧
      s1.panicked = s.panicked ∧ PoolRun.Step s1 s2 ∧ s2.panicked = true := by
  refine ⟨_, _, .banOther s addr i h, ?_, rfl, rfl, .banCrash _ (by show 0 < s.banning + 1; omega), rfl⟩
  dsimp only
  rw [find_update, if_pos rfl, h]
  rfl

/-- It applies to a pool with one connection. -/
example (resolve : String → Option TCPAddr) (hr : ∀ a, resolve "" = some a → a.port = 0)
    (addr : String) (ha : Admissible resolve addr) :
    ∃ s i, PoolRun.Reachable Pool.new s ∧ s.panicked = false ∧ s.table.find addr = some i ∧ i.peer = some 0 :=
  ⟨_, _, live_reachable hr ha, rfl, find_one addr _, rfl⟩

/-- **C67, C80: the own handler.** When the handler of a connection that is up bans its peer, the entry is marked, the
handler closes the connection with its next step, and never gets further: it is stuck from then on. -/
theorem C67_refuted_run (s : Pool) (l r : List Link) (x : Link) (hx : s.links = l ++ x :: r) (hu : x.phase = .up)
    (hw : x.waiting = false) (addr : String) (i : P2P.PeerInfo) (h : s.table.find addr = some i) (hp : i.peer = some x.conn) :
    ∃ s', PoolRun.Step s s' ∧ (s'.table.find addr).map (·.status) = some .banned ∧
      PoolRun.Step s' { s' with opened := s'.opened.filter (· ≠ x.conn) } ∧ s'.links = l ++ { x with phase := .stuck } :: r ∧ s'.slots = s.slots ∧
      ∀ s'', PoolRun.Reachable s' s'' → ∃ y ∈ s''.links, y.conn = x.conn ∧ y.addr = x.addr ∧ y.phase = .stuck := by
  have hb : P2P.ban s.table addr (some x.conn) (fun _ => false) = (s.table.update addr (setStatus .banned), .blocks) := by
    unfold P2P.ban
    rw [h]
    simp only [hp]
    rw [if_pos (by simp)]
    rfl
  refine ⟨_, .banSelf s addr l r x hx hu hw hb, ?_, ?_, rfl, rfl, ?_⟩
  · dsimp only
    rw [find_update, if_pos rfl, h]
    rfl
  · exact .shut _ { x with phase := .stuck } (by simp) nofun
  · intro s'' hr
    induction hr with
    | here => exact ⟨{ x with phase := .stuck }, by simp, rfl, rfl, rfl⟩
    | next _ _ hs ih =>
      obtain ⟨y, hy, h0, h1, h2⟩ := ih
      obtain ⟨z, hz, g1, g2, g3⟩ := link_stays hs hy
      refine ⟨z, hz, g1.trans h0, g2.trans h1, ?_⟩
      rw [h2] at g3
      rcases g3 with h | ⟨h, -⟩ | ⟨h, -⟩ | ⟨h, -⟩ | ⟨h, -⟩ | ⟨⟨_, h⟩, -⟩ | ⟨h, -⟩ | ⟨h, -⟩
      · exact h.symm
      all_goals cases h

/-- **C62 in the running pool.** In whatever state the pool is, no address and no connection gets a block twice, and
every connection that gets it was made by dialling that address and is in the table of connected peers. -/
theorem C62_pool (s : Pool) (h : PoolRun.Reachable Pool.new s) (height td : UInt64) :
    ((relayTargets s.table s.online height td).map (·.1)).Nodup ∧
    ((relayTargets s.table s.online height td).map (·.2)).Nodup ∧
    ∀ a c, (a, c) ∈ relayTargets s.table s.online height td →
      a ∈ s.online ∧ ∃ x ∈ s.links, x.addr = a ∧ x.conn = c := by
  have hi := inv_reachable h
  have hn := C62_once s.table s.online hi.online.nodup height td
  have hf : ∀ a c, (a, c) ∈ relayTargets s.table s.online height td → ∃ i, s.table.find a = some i ∧ i.peer = some c :=
    fun a c hm => by
      obtain ⟨-, i, h1, h2, -⟩ := (C62_targets _ _ _ _ _ _).1 hm
      exact ⟨i, h1, h2⟩
  have hl := (C77_partial s h).2 height td
  refine ⟨hn.map_on ?_, hn.map_on ?_, fun a c hm => ⟨((C62_targets _ _ _ _ _ _).1 hm).1, hl a c hm⟩⟩
  · rintro ⟨a, c⟩ h1 ⟨b, d⟩ h2 e
    simp only at e
    subst e
    obtain ⟨i, g1, g2⟩ := hf _ _ h1
    obtain ⟨j, f1, f2⟩ := hf _ _ h2
    rw [g1] at f1
    cases f1
    rw [g2] at f2
    cases f2
    rfl
  · rintro ⟨a, c⟩ h1 ⟨b, d⟩ h2 e
    simp only at e
    subst e
    obtain ⟨x, hx, x1, x2⟩ := hl _ _ h1
    obtain ⟨y, hy, y1, y2⟩ := hl _ _ h2
    have : x = y := List.inj_on_of_nodup_map hi.conns.nodup hx hy (x2.trans y2.symm)
    subst this
    rw [← x1, y1]

/-- A pool in which a block is relayed. -/
example (resolve : String → Option TCPAddr) (hr : ∀ a, resolve "" = some a → a.port = 0)
    (addr : String) (ha : Admissible resolve addr) :
    ∃ s, PoolRun.Reachable Pool.new s ∧ (addr, 0) ∈ relayTargets s.table s.online 1 1 := by
  refine ⟨_, live_reachable hr ha, (C62_targets _ _ _ _ _ _).2 ⟨by simp [Pool.live], _, find_one addr _, rfl, ?_⟩⟩
  left
  decide

/-- **C07, interrupted.** If the disconnect flag is seen after `n` frames, exactly the first `n` messages were
dispatched and exactly their bytes were counted, whatever else the peer has sent. -/
theorem C07_interrupted (E : Env) (hmem : 20000000 ≤ E.maxAlloc) (fs : List (GoodFrame E)) (s : Bytes) :
    (readLoop E fs.length (streamOf fs ++ s)).dispatched = messagesOf fs ∧
    (readLoop E fs.length (streamOf fs ++ s)).received = UInt64.ofNat (streamOf fs).length ∧
    (readLoop E fs.length (streamOf fs ++ s)).ending = .flagged := by
  have h := readLoop_good E hmem fs 0 s
  rw [Nat.add_zero] at h
  rw [h]
  simp [readLoop]

end Gringo.Props
