import Verif.Model.PoolRun
import Verif.Props.Pool
/-
Invariants of the pool's goroutines.
-/
namespace Gringo.PoolRun
open Gringo.P2P Gringo.Spec

/-- The connection's goroutine has not ended. -/
def holding (x : Link) : Bool := x.phase != .gone
/-- Between registration and line 266. -/
def occupies (x : Link) : Bool := x.phase == .up || x.phase == .down || x.phase == .stuck
def counts : Phase → Bool
  | .up | .down | .marked | .reading _ | .uncounted | .stuck => true
  | .dropped | .gone => false
/-- Between registration and line 273. -/
def counted (x : Link) : Bool := counts x.phase
def tallies : Phase → Bool
  | .up | .down | .marked | .reading _ | .stuck => true
  | .uncounted | .dropped | .gone => false
/-- Between registration and the write of line 271. -/
def tallied (x : Link) : Bool := tallies x.phase

/-- 1 if the loop has a slot that it has not handed over. -/
def token : Loop → Nat
  | .choosing | .connecting _ | .dialing _ | .greeting _ _ | .failed => 1
  | .select | .announcing _ | .sleeping | .stopped => 0

structure Counts (s : Pool) : Prop where
  slots : s.slots = token s.loop + s.links.countP holding + s.kept
  cap : s.slots ≤ maxOnlineConnections
  connected : s.raced = false → s.connected = s.links.countP tallied

theorem countP_replaced (p : Link → Bool) {l r : List Link} {x y : Link} (h : p y = p x) :
    (l ++ y :: r).countP p = (l ++ x :: r).countP p := by
  simp only [List.countP_append, List.countP_cons, h]

theorem counts_step {s s' : Pool} (hs : Step s s') (h : Counts s) :
    Counts s' := by
  obtain ⟨h1, h2, h3⟩ := h
  cases hs with
  | want l r x hx h =>
    refine ⟨?_, h2, ?_⟩
    · show s.slots = token s.loop + (l ++ _ :: r).countP holding + s.kept
      rw [countP_replaced holding (x := x) (y := { x with waiting := true }) rfl, ← hx]; exact h1
    · show s.raced = false → s.connected = ((l ++ _ :: r).countP tallied : Nat)
      rw [countP_replaced tallied (x := x) (y := { x with waiting := true }) rfl, ← hx]; exact h3
  | record l r x td hh hx h hl =>
    refine ⟨?_, h2, ?_⟩
    · show s.slots = token s.loop + (l ++ _ :: r).countP holding + s.kept
      rw [countP_replaced holding (x := x) (y := { x with waiting := false }) rfl, ← hx]; exact h1
    · show s.raced = false → s.connected = ((l ++ _ :: r).countP tallied : Nat)
      rw [countP_replaced tallied (x := x) (y := { x with waiting := false }) rfl, ← hx]; exact h3
  | _ =>
    refine ⟨?_, ?_, ?_⟩ <;>
      simp_all [token, holding, tallied, tallies, List.countP_append, List.countP_cons] <;> omega

/-- The counter may be wrong, but not beyond this: it does not exceed 16, and 15 only while a connection is counted. -/
structure Tally (s : Pool) : Prop where
  top : s.connected ≤ 16
  some_ : s.connected ≤ 15 ∨ 0 < s.links.countP tallied
  room : ∀ a, (s.loop = .dialing a ∨ ∃ c, s.loop = .greeting a c) → s.connected ≤ 15
  seen : ∀ n, s.seen = some n → n ≤ 15
  reading : ∀ x ∈ s.links, ∀ n, x.phase = .reading n → n ≤ 16

theorem reading_replaced {l r : List Link} {x y : Link} (h : ∀ z ∈ l ++ x :: r, ∀ n, z.phase = .reading n → n ≤ 16)
    (hy : ∀ n, y.phase = .reading n → n ≤ 16) : ∀ z ∈ l ++ y :: r, ∀ n, z.phase = .reading n → n ≤ 16 := by
  intro z hz n hn
  rcases List.mem_append.1 hz with hz | hz
  · exact h z (by simp [hz]) n hn
  rcases List.mem_cons.1 hz with rfl | hz
  · exact hy n hn
  · exact h z (by simp [hz]) n hn

theorem tally_step {s s' : Pool} (hs : Step s s') (h : Tally s) : Tally s' := by
  obtain ⟨h1, h2, h3, h4, h5⟩ := h
  have rep : ∀ {l r : List Link} {x y : Link}, s.links = l ++ x :: r → tallied y = tallied x →
      (∀ n, y.phase = .reading n → n ≤ 16) →
      (s.connected ≤ 15 ∨ 0 < (l ++ y :: r).countP tallied) ∧
        ∀ z ∈ l ++ y :: r, ∀ n, z.phase = .reading n → n ≤ 16 := by
    intro l r x y hx ht hr
    refine ⟨?_, reading_replaced (by rw [← hx]; exact h5) hr⟩
    rw [countP_replaced tallied ht, ← hx]
    exact h2
  have e15 : (maxOnlineConnections : Int) = 15 := rfl
  cases hs with
  | dial addr i hl hne hc ht hlk hst =>
    exact ⟨h1, h2, fun _ _ => by rw [← e15]; exact hc, h4, h5⟩
  | opens addr h => exact ⟨h1, h2, fun _ _ => h3 addr (.inl h), h4, h5⟩
  | see addr c h hn => exact ⟨h1, h2, h3, fun n hn => by cases hn; exact h3 addr (.inr ⟨c, h⟩), h5⟩
  | register addr c told now n h hv hn =>
    have := h4 n hn
    refine ⟨by show n + 1 ≤ 16; omega, .inr ?_, by simp, nofun, ?_⟩
    · simp [List.countP_append, tallied, tallies]
    · intro z hz m hm
      rcases List.mem_append.1 hz with hz | hz
      · exact h5 z hz m hm
      · rw [List.mem_singleton.1 hz] at hm; cases hm
  | seeDown l r x hx h =>
    obtain ⟨a, b⟩ := rep (y := { x with phase := .reading s.connected }) hx (by simp [tallied, tallies, h])
      (fun n hn => by cases hn; exact h1)
    exact ⟨h1, a, h3, h4, b⟩
  | count l r x n hx h =>
    have := h5 x (by rw [hx]; simp) n h
    refine ⟨by show n - 1 ≤ 16; omega, .inl (by show n - 1 ≤ 15; omega), fun _ _ => by show n - 1 ≤ 15; omega, h4, ?_⟩
    exact reading_replaced (by rw [← hx]; exact h5) nofun
  | fall l r x hx h =>
    obtain ⟨a, b⟩ := rep (y := { x with phase := .down }) hx (by simp [tallied, tallies, h]) nofun
    exact ⟨h1, a, h3, h4, b⟩
  | want l r x hx h =>
    obtain ⟨a, b⟩ := rep (y := { x with waiting := true }) hx rfl (h5 x (by rw [hx]; simp))
    exact ⟨h1, a, h3, h4, b⟩
  | record l r x td hh hx h hl =>
    obtain ⟨a, b⟩ := rep (y := { x with waiting := false }) hx rfl (h5 x (by rw [hx]; simp))
    exact ⟨h1, a, h3, h4, b⟩
  | mark l r x hx h hw hl =>
    obtain ⟨a, b⟩ := rep (y := { x with phase := .marked }) hx (by simp [tallied, tallies, h]) nofun
    exact ⟨h1, a, h3, h4, b⟩
  | drop l r x hx h =>
    obtain ⟨a, b⟩ := rep (y := { x with phase := .dropped }) hx (by simp [tallied, tallies, h]) nofun
    exact ⟨h1, a, h3, h4, b⟩
  | free l r x hx h hp =>
    obtain ⟨a, b⟩ := rep (y := { x with phase := .gone }) hx (by simp [tallied, tallies, h]) nofun
    exact ⟨h1, a, h3, h4, b⟩
  | banSelf addr l r x hx h hw hb =>
    obtain ⟨a, b⟩ := rep (y := { x with phase := .stuck }) hx (by simp [tallied, tallies, h]) nofun
    exact ⟨h1, a, h3, h4, b⟩
  | closeUp l r addr i l' r' x hx hl ht hp hx' hu =>
    obtain ⟨a, b⟩ := rep (y := { x with phase := .down }) hx' (by simp [tallied, tallies, hu]) nofun
    exact ⟨h1, a, h3, h4, b⟩
  | _ => exact ⟨h1, h2, by first | exact h3 | simp, h4, h5⟩

/-! ### addresses -/

/-- Nothing is ever removed from the table. -/
theorem keys_grow {s s' : Pool} (hs : Step s s') {a : String}
    (h : a ∈ s.table.map (·.1)) : a ∈ s'.table.map (·.1) := by
  cases hs with
  | add addr resolve hr =>
    obtain ⟨rest, e, -⟩ := Props.add_prefix resolve s.table addr
    simp only [e, List.map_append, List.mem_append]
    exact .inl h
  | _ => first | exact h | (simp only [Props.update_keys]; exact h)

/-- The phases a connection can go through in one step. -/
def Follows (p q : Phase) : Prop :=
  p = q ∨ (p = .up ∧ q = .down) ∨ (p = .up ∧ q = .stuck) ∨ (p = .down ∧ q = .marked) ∨
    (p = .marked ∧ ∃ n, q = .reading n) ∨ ((∃ n, p = .reading n) ∧ q = .uncounted) ∨
    (p = .uncounted ∧ q = .dropped) ∨ (p = .dropped ∧ q = .gone)

/-- What a step does to the connections: nothing, one is registered, or one changes. -/
theorem links_cases {s s' : Pool} (hs : Step s s') : s'.links = s.links ∨
    (∃ addr c, s.loop = .greeting addr c ∧ s'.loop = .announcing addr ∧
      s'.links = s.links ++ [⟨c, addr, .up, false⟩] ∧
      ∀ i, s'.table.find addr = some i → i.status = .connected ∧ i.peer = some c) ∨
    (∃ l r x y, s.links = l ++ x :: r ∧ s'.links = l ++ y :: r ∧ y.addr = x.addr ∧ y.conn = x.conn ∧
      Follows x.phase y.phase) := by
  cases hs with
  | register addr c told now n h hv hn =>
    refine .inr (.inl ⟨addr, c, h, rfl, rfl, fun i hi => ?_⟩)
    simp only [Props.find_update, if_true] at hi
    cases hf : s.table.find addr with
    | none => rw [hf] at hi; cases hi
    | some i0 => rw [hf] at hi; cases hi; exact ⟨rfl, rfl⟩
  | fall l r x hx h => exact .inr (.inr ⟨l, r, x, _, hx, rfl, rfl, rfl, .inr (.inl ⟨h, rfl⟩)⟩)
  | want l r x hx h => exact .inr (.inr ⟨l, r, x, _, hx, rfl, rfl, rfl, .inl rfl⟩)
  | record l r x td hh hx h hl => exact .inr (.inr ⟨l, r, x, _, hx, rfl, rfl, rfl, .inl rfl⟩)
  | mark l r x hx h hw hl => exact .inr (.inr ⟨l, r, x, _, hx, rfl, rfl, rfl, .inr (.inr (.inr (.inl ⟨h, rfl⟩)))⟩)
  | seeDown l r x hx h =>
    exact .inr (.inr ⟨l, r, x, _, hx, rfl, rfl, rfl, .inr (.inr (.inr (.inr (.inl ⟨h, _, rfl⟩))))⟩)
  | count l r x n hx h =>
    exact .inr (.inr ⟨l, r, x, _, hx, rfl, rfl, rfl, .inr (.inr (.inr (.inr (.inr (.inl ⟨⟨n, h⟩, rfl⟩)))))⟩)
  | drop l r x hx h =>
    exact .inr (.inr ⟨l, r, x, _, hx, rfl, rfl, rfl, .inr (.inr (.inr (.inr (.inr (.inr (.inl ⟨h, rfl⟩))))))⟩)
  | free l r x hx h hp =>
    exact .inr (.inr ⟨l, r, x, _, hx, rfl, rfl, rfl, .inr (.inr (.inr (.inr (.inr (.inr (.inr ⟨h, rfl⟩))))))⟩)
  | banSelf addr l r x hx h hw hb => exact .inr (.inr ⟨l, r, x, _, hx, rfl, rfl, rfl, .inr (.inr (.inl ⟨h, rfl⟩))⟩)
  | closeUp l r addr i l' r' x hx hl ht hp hx' hu =>
    exact .inr (.inr ⟨l', r', x, _, hx', rfl, rfl, rfl, .inr (.inl ⟨hu, rfl⟩)⟩)
  | _ => exact .inl rfl

/-- What a step does to one entry of the table. -/
theorem find_cases {s s' : Pool} (hs : Step s s') (a : String) :
    s'.table.find a = s.table.find a ∨
    (s.table.find a = none ∧ a ≠ "" ∧ s'.table.find a = some PeerInfo.fresh ∧ s'.links = s.links) ∨
    (∃ i, s.table.find a = some i ∧
      (((s.loop = .dialing a ∨ ∃ c, s.loop = .greeting a c) ∧ s'.links = s.links ∧
          s'.table.find a = some (setStatus .failedConn i)) ∨
       (∃ c now told, s.loop = .greeting a c ∧ s'.table.find a = some (registered c now told i) ∧
          s'.links = s.links ++ [⟨c, a, .up, false⟩]) ∨
       (∃ td height, s'.table.find a = some { i with totalDifficulty := td, height := height }) ∨
       (∃ l r x y, s.links = l ++ x :: r ∧ s'.links = l ++ y :: r ∧ x.addr = a ∧ y.addr = a ∧ x.phase = .down ∧
          y.phase = .marked ∧ s'.table.find a = some (setStatus .disconnected i)) ∨
       s'.table.find a = some (setStatus .banned i) ∨
       (s.closers ≠ [] ∧ s'.loop = s.loop ∧ s'.table.find a = some (setStatus .disconnected i)))) := by
  have upd : ∀ (b : String) (f : PeerInfo → PeerInfo),
      (s.table.update b f).find a = s.table.find a ∨
      (a = b ∧ ∃ i, s.table.find a = some i ∧ (s.table.update b f).find a = some (f i)) := by
    intro b f
    rw [Props.find_update]
    by_cases e : a = b
    · rw [if_pos e]
      cases hf : s.table.find a with
      | none => exact .inl rfl
      | some i => exact .inr ⟨e, i, rfl, rfl⟩
    · rw [if_neg e]; exact .inl rfl
  cases hs with
  | add addr resolve hr =>
    obtain ⟨l, e, h⟩ := Props.add_prefix resolve s.table addr
    simp only [e]
    rcases h with rfl | ⟨rfl, hadm, -, hnew⟩
    · exact .inl (by rw [List.append_nil])
    · unfold Table.find
      rw [List.lookup_append]
      cases hf : List.lookup a s.table with
      | some i => exact .inl rfl
      | none =>
        by_cases ea : a = addr
        · subst ea
          refine .inr (.inl ⟨rfl, ?_, ?_, trivial⟩)
          · rintro rfl
            obtain ⟨x, hx, hp, -⟩ := hadm
            exact hp (hr x hx)
          · simp [List.lookup]
        · refine .inl ?_
          have : (a == addr) = false := by simpa using ea
          simp [List.lookup, this]
  | noAnswer addr h =>
    rcases upd addr (setStatus .failedConn) with e | ⟨rfl, i, hi, e⟩
    · exact .inl e
    · exact .inr (.inr ⟨i, hi, .inl ⟨.inl h, rfl, e⟩⟩)
  | noShake addr c h hn =>
    rcases upd addr (setStatus .failedConn) with e | ⟨rfl, i, hi, e⟩
    · exact .inl e
    · exact .inr (.inr ⟨i, hi, .inl ⟨.inr ⟨c, h⟩, rfl, e⟩⟩)
  | register addr c told now n h hv hn =>
    rcases upd addr (registered c now told) with e | ⟨rfl, i, hi, e⟩
    · exact .inl e
    · exact .inr (.inr ⟨i, hi, .inr (.inl ⟨c, now, told, h, e, rfl⟩)⟩)
  | record l r x td hh hx h hl =>
    rcases upd x.addr (fun i => { i with totalDifficulty := td, height := hh }) with e | ⟨rfl, i, hi, e⟩
    · exact .inl e
    · exact .inr (.inr ⟨i, hi, .inr (.inr (.inl ⟨td, hh, e⟩))⟩)
  | mark l r x hx h hw hl =>
    rcases upd x.addr (setStatus .disconnected) with e | ⟨rfl, i, hi, e⟩
    · exact .inl e
    · exact .inr (.inr ⟨i, hi, .inr (.inr (.inr (.inl ⟨l, r, x, _, hx, rfl, rfl, rfl, h, rfl, e⟩)))⟩)
  | banSelf addr l r x hx h hw hb =>
    rcases upd addr (setStatus .banned) with e | ⟨rfl, i, hi, e⟩
    · exact .inl e
    · exact .inr (.inr ⟨i, hi, .inr (.inr (.inr (.inr (.inl e))))⟩)
  | banOther addr i0 h =>
    rcases upd addr (setStatus .banned) with e | ⟨rfl, i, hi, e⟩
    · exact .inl e
    · exact .inr (.inr ⟨i, hi, .inr (.inr (.inr (.inr (.inl e))))⟩)
  | closeDown l r addr i0 x hx hl ht hp hx' hu =>
    rcases upd addr (setStatus .disconnected) with e | ⟨rfl, i, hi, e⟩
    · exact .inl e
    · exact .inr (.inr ⟨i, hi, .inr (.inr (.inr (.inr (.inr ⟨by rw [hx]; simp, rfl, e⟩))))⟩)
  | closed l r addr x hx hx' hw =>
    rcases upd addr (setStatus .disconnected) with e | ⟨rfl, i, hi, e⟩
    · exact .inl e
    · exact .inr (.inr ⟨i, hi, .inr (.inr (.inr (.inr (.inr ⟨by rw [hx]; simp, rfl, e⟩))))⟩)
  | _ => exact .inl rfl

/-- The address the loop is connecting to. -/
def target : Loop → Option String
  | .dialing a | .greeting a _ | .announcing a => some a
  | _ => none

theorem target_step {s s' : Pool} (hs : Step s s') {a : String} (h : target s'.loop = some a) :
    target s.loop = some a ∨ ∃ i, s.loop = .connecting a ∧ s.table.find a = some i ∧ Dialable i ∧
      s'.loop = .dialing a ∧ s'.links = s.links := by
  cases hs with
  | dial addr i hl hne hc ht hlk hst =>
    simp only [target, Option.some.injEq] at h
    subst h
    refine .inr ⟨i, hl, ht, ?_, rfl, rfl⟩
    unfold Dialable
    cases e : i.status <;> simp_all
  | opens addr hl => left; simpa [target, hl] using h
  | register addr c told now n hl hv hn => left; simpa [target, hl] using h
  | _ => first | exact .inl h | cases h

theorem dialing_from {s s' : Pool} (hs : Step s s') {a : String} (h : s'.loop = .dialing a) :
    s.loop = .dialing a ∨ ∃ i, s.loop = .connecting a ∧ s.table.find a = some i ∧ Dialable i ∧
      s'.links = s.links := by
  have ht : target s'.loop = some a := by rw [h]; rfl
  rcases target_step hs ht with h' | ⟨i, h1, h2, h3, -, h4⟩
  · left
    cases hs <;> simp_all [target]
  · exact .inr ⟨i, h1, h2, h3, h4⟩

theorem greeting_from {s s' : Pool} (hs : Step s s') {a : String} {c : Nat} (h : s'.loop = .greeting a c) :
    s.loop = .greeting a c ∨ s.loop = .dialing a := by
  cases hs <;> simp_all

structure Known (s : Pool) : Prop where
  links : ∀ x ∈ s.links, x.addr ∈ s.table.map (·.1)
  loop : ∀ a, target s.loop = some a → a ∈ s.table.map (·.1)

theorem known_step {s s' : Pool} (hs : Step s s') (h : Known s) : Known s' := by
  have g := @keys_grow s s' hs
  obtain ⟨h1, h2⟩ := h
  constructor
  · rcases links_cases hs with e | ⟨addr, c, hl, -, e, -⟩ | ⟨l, r, x, y, e, e', ha, -, -⟩
    · rw [e]; exact fun x hx => g (h1 x hx)
    · rw [e]
      intro x hx
      rcases List.mem_append.1 hx with hx | hx
      · exact g (h1 x hx)
      · rw [List.mem_singleton.1 hx]
        exact g (h2 addr (by rw [hl]; rfl))
    · rw [e']
      intro z hz
      refine g ?_
      rw [e] at h1
      rcases List.mem_append.1 hz with hz | hz
      · exact h1 z (by simp [hz])
      rcases List.mem_cons.1 hz with rfl | hz
      · rw [ha]; exact h1 x (by simp)
      · exact h1 z (by simp [hz])
  · intro a ha
    rcases target_step hs ha with h | ⟨i, -, h, -⟩
    · exact g (h2 a h)
    · exact g ((Props.find_isSome_iff _ _).1 (by rw [h]; rfl))

/-! ### connections -/

/-- How many registrations of the address have not reached line 266. -/
def holders (s : Pool) (a : String) : Nat := s.links.countP fun x => decide (x.addr = a) && occupies x

theorem holders_step {s s' : Pool} (hs : Step s s') (a : String) : holders s' a ≤ holders s a ∨
    ∃ c, s.loop = .greeting a c ∧ s'.loop = .announcing a ∧ holders s' a = holders s a + 1 ∧
      ∀ i, s'.table.find a = some i → i.status = .connected := by
  unfold holders
  rcases links_cases hs with e | ⟨addr, c, hl, hl', e, hst⟩ | ⟨l, r, x, y, e, e', ha, -, hf⟩
  · rw [e]; exact .inl (Nat.le_refl _)
  · rw [e, List.countP_append]
    by_cases h : addr = a
    · subst h
      exact .inr ⟨c, hl, hl', by simp [occupies], fun i hi => (hst i hi).1⟩
    · exact .inl (by simp [h])
  · left
    rw [e, e']
    simp only [List.countP_append, List.countP_cons, ha]
    have : occupies y = true → occupies x = true := by
      unfold occupies
      rcases hf with h | ⟨h, h'⟩ | ⟨h, h'⟩ | ⟨h, h'⟩ | ⟨h, _, h'⟩ | ⟨⟨_, h⟩, h'⟩ | ⟨h, h'⟩ | ⟨h, h'⟩
      · rw [h]; exact id
      all_goals simp [h, h']
    by_cases hx : x.addr = a <;> cases hox : occupies x <;> cases hoy : occupies y <;> simp_all

structure Single (s : Pool) : Prop where
  one : ∀ a, holders s a ≤ 1
  status : s.loop ≠ .stopped → ∀ a i, s.table.find a = some i → Dialable i → holders s a = 0
  dialing : ∀ a, s.loop = .dialing a → holders s a = 0
  greeting : ∀ a c, s.loop = .greeting a c → holders s a = 0
  stopped : s.loop ≠ .stopped → s.closers = []

theorem loop_stopped {s s' : Pool} (hs : Step s s') (h : s'.loop ≠ .stopped) : s.loop ≠ .stopped := by
  cases hs <;> simp_all

theorem single_step {s s' : Pool} (hs : Step s s') (hk : Known s) (h : Single s) : Single s' := by
  obtain ⟨h1, h2, h3, h4, h5⟩ := h
  refine ⟨?_, ?_, ?_, ?_, ?_⟩
  · intro a
    rcases holders_step hs a with h | ⟨c, hl, -, h, -⟩
    · exact Nat.le_trans h (h1 a)
    · rw [h, h4 a c hl]
  · intro hns a i' hf hd
    have hns0 := loop_stopped hs hns
    rcases find_cases hs a with e | ⟨e, -, -, el⟩ | ⟨i, hi, h⟩
    · rcases holders_step hs a with h | ⟨c, -, -, -, h⟩
      · rw [e] at hf
        have h0 := h2 hns0 a i' hf hd
        omega
      · have := h i' hf
        rcases hd with h | h | h <;> rw [this] at h <;> cases h
    · unfold holders
      rw [el, List.countP_eq_zero]
      intro x hx
      have := hk.links x hx
      rw [← Props.find_isSome_iff] at this
      by_cases ea : x.addr = a
      · rw [ea, e] at this; cases this
      · simp [ea]
    · rcases h with ⟨hl, el, e⟩ | ⟨c, now, told, hl, e, el⟩ | ⟨td, hh, e⟩ | ⟨l, r, x, y, e1, e2, hx, hy, px, py, e⟩ | e | ⟨hc, hl, e⟩
      · have : holders s' a = holders s a := by unfold holders; rw [el]
        rw [this]
        rcases hl with hl | ⟨c, hl⟩
        · exact h3 a hl
        · exact h4 a c hl
      · rw [e] at hf
        cases hf
        rcases hd with h | h | h <;> cases h
      · rcases holders_step hs a with h | ⟨c, -, -, -, h⟩
        · rw [e] at hf
          cases hf
          have h0 := h2 hns0 a i hi hd
          omega
        · have := h i' hf
          rcases hd with h | h | h <;> rw [this] at h <;> cases h
      · have := h1 a
        unfold holders at this ⊢
        rw [e1] at this
        rw [e2]
        have ox : occupies x = true := by simp [occupies, px]
        have oy : occupies y = false := by simp [occupies, py]
        simp only [List.countP_append, List.countP_cons, hx, hy, ox, oy, decide_true, Bool.and_self,
          Bool.and_false, if_true, Bool.false_eq_true, if_false] at this ⊢
        omega
      · rw [e] at hf
        cases hf
        rcases hd with h | h | h <;> cases h
      · exact absurd (h5 hns0) hc
  · intro a ha
    rcases dialing_from hs ha with h | ⟨i, hl, hf, hd, el⟩
    · rcases holders_step hs a with h' | ⟨c, -, hl', -⟩
      · have := h3 a h; omega
      · rw [ha] at hl'; cases hl'
    · have : holders s' a = holders s a := by unfold holders; rw [el]
      rw [this]
      exact h2 (by rw [hl]; nofun) a i hf hd
  · intro a c ha
    have : holders s a = 0 := by
      rcases greeting_from hs ha with h | h
      · exact h4 a c h
      · exact h3 a h
    rcases holders_step hs a with h' | ⟨c, -, hl', -⟩
    · omega
    · rw [ha] at hl'; cases hl'
  · intro hns
    have := h5 (loop_stopped hs hns)
    cases hs <;> simp_all

theorem mem_replaced {l r : List Link} {x y z : Link} (h : z ∈ l ++ y :: r) : z = y ∨ z ∈ l ++ x :: r := by
  rcases List.mem_append.1 h with h | h
  · exact .inr (by simp [h])
  rcases List.mem_cons.1 h with h | h
  · exact .inl h
  · exact .inr (by simp [h])

theorem map_replaced {l r : List Link} {x y : Link} (h : y.conn = x.conn) :
    (l ++ y :: r).map (·.conn) = (l ++ x :: r).map (·.conn) := by
  simp [h]

/-- How a step opens and closes connections. -/
theorem opened_cases {s s' : Pool} (hs : Step s s') :
    (s'.opened = s.opened ∧ s'.next = s.next ∧ (s'.links = s.links ∨
      (∃ addr c, s.loop = .greeting addr c ∧ s'.links = s.links ++ [⟨c, addr, .up, false⟩]) ∨
      (∃ l r x y, s.links = l ++ x :: r ∧ s'.links = l ++ y :: r ∧ y.conn = x.conn ∧
        (y.phase = .up → x.phase = .up)))) ∨
    (∃ addr, s.loop = .dialing addr ∧ s'.loop = .greeting addr s.next ∧ s'.opened = s.next :: s.opened ∧
      s'.next = s.next + 1 ∧ s'.links = s.links) ∨
    (∃ x ∈ s.links, x.phase ≠ .up ∧ s'.links = s.links ∧ s'.opened = s.opened.filter (· ≠ x.conn) ∧
      s'.next = s.next) := by
  cases hs with
  | opens addr h => exact .inr (.inl ⟨addr, h, rfl, rfl, rfl, rfl⟩)
  | register addr c told now n h hv hn => exact .inl ⟨rfl, rfl, .inr (.inl ⟨addr, c, h, rfl⟩)⟩
  | fall l r x hx h => exact .inl ⟨rfl, rfl, .inr (.inr ⟨l, r, x, _, hx, rfl, rfl, nofun⟩)⟩
  | shut x hx h => exact .inr (.inr ⟨x, hx, h, rfl, rfl, rfl⟩)
  | want l r x hx h => exact .inl ⟨rfl, rfl, .inr (.inr ⟨l, r, x, _, hx, rfl, rfl, id⟩)⟩
  | record l r x td hh hx h hl => exact .inl ⟨rfl, rfl, .inr (.inr ⟨l, r, x, _, hx, rfl, rfl, id⟩)⟩
  | mark l r x hx h hw hl => exact .inl ⟨rfl, rfl, .inr (.inr ⟨l, r, x, _, hx, rfl, rfl, nofun⟩)⟩
  | seeDown l r x hx h => exact .inl ⟨rfl, rfl, .inr (.inr ⟨l, r, x, _, hx, rfl, rfl, nofun⟩)⟩
  | count l r x n hx h => exact .inl ⟨rfl, rfl, .inr (.inr ⟨l, r, x, _, hx, rfl, rfl, nofun⟩)⟩
  | drop l r x hx h => exact .inl ⟨rfl, rfl, .inr (.inr ⟨l, r, x, _, hx, rfl, rfl, nofun⟩)⟩
  | free l r x hx h hp => exact .inl ⟨rfl, rfl, .inr (.inr ⟨l, r, x, _, hx, rfl, rfl, nofun⟩)⟩
  | banSelf addr l r x hx h hw hb => exact .inl ⟨rfl, rfl, .inr (.inr ⟨l, r, x, _, hx, rfl, rfl, nofun⟩)⟩
  | closeUp l r addr i l' r' x hx hl ht hp hx' hu =>
    exact .inl ⟨rfl, rfl, .inr (.inr ⟨l', r', x, _, hx', rfl, rfl, nofun⟩)⟩
  | _ => exact .inl ⟨rfl, rfl, .inl rfl⟩

structure Conns (s : Pool) : Prop where
  small : ∀ x ∈ s.links, x.conn < s.next
  nodup : (s.links.map (·.conn)).Nodup
  openedSmall : ∀ c ∈ s.opened, c < s.next
  openedNodup : s.opened.Nodup
  greeting : ∀ a c, s.loop = .greeting a c → c ∈ s.opened ∧ ∀ x ∈ s.links, x.conn ≠ c
  up : ∀ x ∈ s.links, x.phase = .up → x.conn ∈ s.opened

theorem conns_step {s s' : Pool} (hs : Step s s') (h : Conns s) : Conns s' := by
  obtain ⟨h1, h2, h3, h4, h5, h6⟩ := h
  rcases opened_cases hs with ⟨eo, en, hl⟩ | ⟨addr, hl, hl', eo, en, el⟩ | ⟨x, hx, hu, el, eo, en⟩
  · have g : ∀ a c, s'.loop = .greeting a c → s.loop = .greeting a c := by
      intro a c hg
      rcases greeting_from hs hg with h | h
      · exact h
      · cases hs <;> simp_all
    rcases hl with el | ⟨addr, c, hl, el⟩ | ⟨l, r, x, y, el, el', ec, hup⟩
    · refine ⟨by rw [el, en]; exact h1, by rw [el]; exact h2, by rw [eo, en]; exact h3, by rw [eo]; exact h4, ?_,
        by rw [el, eo]; exact h6⟩
      intro a c hg
      rw [eo, el]
      exact h5 a c (g a c hg)
    · obtain ⟨hc, hnew⟩ := h5 addr c hl
      refine ⟨?_, ?_, by rw [eo, en]; exact h3, by rw [eo]; exact h4, ?_, ?_⟩
      · intro z hz
        rw [el] at hz
        rw [en]
        rcases List.mem_append.1 hz with hz | hz
        · exact h1 z hz
        · rw [List.mem_singleton.1 hz]; exact h3 c hc
      · rw [el, List.map_append, List.nodup_append]
        refine ⟨h2, by simp, ?_⟩
        intro u hu v hv huv
        obtain ⟨z, hz, rfl⟩ := List.mem_map.1 hu
        simp at hv
        exact hnew z hz (huv.trans hv)
      · intro a' c' hg
        exfalso
        have := g a' c' hg
        rcases links_cases hs with e | ⟨_, _, _, e, _⟩ | ⟨l, r, x, y, e1, e2, _⟩
        · rw [el] at e
          have := congrArg List.length e
          simp at this
        · rw [hg] at e; cases e
        · rw [el, e1] at e2
          have := congrArg List.length e2
          simp at this
      · intro z hz
        rw [el] at hz
        rw [eo]
        rcases List.mem_append.1 hz with hz | hz
        · exact h6 z hz
        · rw [List.mem_singleton.1 hz]; exact fun _ => hc
    · have hm : s'.links.map (·.conn) = s.links.map (·.conn) := by rw [el, el', map_replaced ec]
      have hz : ∀ z ∈ s'.links, (z = y) ∨ z ∈ s.links := by
        intro z hz; rw [el'] at hz; rw [el]; exact mem_replaced hz
      have hx0 : x ∈ s.links := by rw [el]; simp
      refine ⟨?_, by rw [hm]; exact h2, by rw [eo, en]; exact h3, by rw [eo]; exact h4, ?_, ?_⟩
      · intro z hz'
        rw [en]
        rcases hz z hz' with rfl | h
        · rw [ec]; exact h1 x hx0
        · exact h1 z h
      · intro a c hg
        obtain ⟨g1, g2⟩ := h5 a c (g a c hg)
        refine ⟨by rw [eo]; exact g1, fun z hz' => ?_⟩
        rcases hz z hz' with rfl | h
        · rw [ec]; exact g2 x hx0
        · exact g2 z h
      · intro z hz'
        rw [eo]
        rcases hz z hz' with rfl | h
        · rw [ec]; exact fun h => h6 x hx0 (hup h)
        · exact h6 z h
  · refine ⟨?_, by rw [el]; exact h2, ?_, ?_, ?_, ?_⟩
    · intro z hz; rw [el] at hz; rw [en]; have := h1 z hz; omega
    · intro c hc
      rw [eo] at hc
      rw [en]
      rcases List.mem_cons.1 hc with rfl | hc
      · omega
      · have := h3 c hc; omega
    · rw [eo, List.nodup_cons]
      exact ⟨fun h => absurd (h3 _ h) (by omega), h4⟩
    · intro a c hg
      rw [hl'] at hg
      cases hg
      refine ⟨by rw [eo]; simp, fun z hz => ?_⟩
      rw [el] at hz
      have := h1 z hz
      omega
    · intro z hz
      rw [el] at hz
      rw [eo, List.mem_cons]
      exact fun h => .inr (h6 z hz h)
  · have hloop : ∀ a c, s'.loop = .greeting a c → s.loop = .greeting a c := by
      intro a c hg
      rcases greeting_from hs hg with h | h
      · exact h
      · cases hs <;> simp_all
    refine ⟨by rw [el, en]; exact h1, by rw [el]; exact h2, ?_, by rw [eo]; exact h4.filter _, ?_, ?_⟩
    · intro c hc
      rw [eo] at hc
      rw [en]
      exact h3 c (List.mem_of_mem_filter hc)
    · intro a c hg
      obtain ⟨g1, g2⟩ := h5 a c (hloop a c hg)
      refine ⟨?_, fun z hz' => g2 z (by rwa [el] at hz')⟩
      rw [eo, List.mem_filter]
      exact ⟨g1, by simpa using fun e => g2 x hx e.symm⟩
    · intro z hz hzu
      rw [el] at hz
      rw [eo, List.mem_filter]
      refine ⟨h6 z hz hzu, ?_⟩
      have : z.conn ≠ x.conn := fun e => by
        have := List.inj_on_of_nodup_map h2 hz hx e
        exact hu (this ▸ hzu)
      simpa using this

/-! ### entries and connections -/

theorem peer_cases {s s' : Pool} (hs : Step s s') {a : String} {i' : PeerInfo} (h : s'.table.find a = some i') :
    (∃ i, s.table.find a = some i ∧ i.peer = i'.peer) ∨ (s.table.find a = none ∧ i'.peer = none) ∨
    (∃ c, s.loop = .greeting a c ∧ i'.peer = some c ∧ s'.links = s.links ++ [⟨c, a, .up, false⟩]) := by
  rcases find_cases hs a with e | ⟨e, -, e', -⟩ | ⟨i, hi, hc⟩
  · rw [e] at h; exact .inl ⟨i', h, rfl⟩
  · rw [e'] at h; cases h; exact .inr (.inl ⟨e, rfl⟩)
  · rcases hc with ⟨-, -, e⟩ | ⟨c, now, told, hl, e, el⟩ | ⟨td, hh, e⟩ | ⟨l, r, x, y, -, -, -, -, -, -, e⟩ | e | ⟨-, -, e⟩ <;>
      rw [e] at h <;> cases h
    · exact .inl ⟨i, hi, rfl⟩
    · exact .inr (.inr ⟨c, hl, rfl, el⟩)
    all_goals exact .inl ⟨i, hi, rfl⟩

theorem link_stays {s s' : Pool} (hs : Step s s') {x : Link} (hx : x ∈ s.links) :
    ∃ y ∈ s'.links, y.conn = x.conn ∧ y.addr = x.addr ∧ Follows x.phase y.phase := by
  rcases links_cases hs with e | ⟨addr, c, -, -, e, -⟩ | ⟨l, r, u, v, e, e', ha, hc, hf⟩
  · exact ⟨x, by rw [e]; exact hx, rfl, rfl, .inl rfl⟩
  · exact ⟨x, by rw [e]; simp [hx], rfl, rfl, .inl rfl⟩
  · rw [e] at hx
    rcases List.mem_append.1 hx with h | h
    · exact ⟨x, by rw [e']; simp [h], rfl, rfl, .inl rfl⟩
    rcases List.mem_cons.1 h with rfl | h
    · exact ⟨v, by rw [e']; simp, hc, ha, hf⟩
    · exact ⟨x, by rw [e']; simp [h], rfl, rfl, .inl rfl⟩

theorem link_from {s s' : Pool} (hs : Step s s') {y : Link} (hy : y ∈ s'.links) :
    (∃ x ∈ s.links, y.conn = x.conn ∧ y.addr = x.addr ∧ Follows x.phase y.phase) ∨
    (s.loop = .greeting y.addr y.conn ∧ y.phase = .up ∧ s'.links = s.links ++ [y] ∧
      ∀ i, s'.table.find y.addr = some i → i.peer = some y.conn) := by
  rcases links_cases hs with e | ⟨addr, c, hl, -, e, hst⟩ | ⟨l, r, u, v, e, e', ha, hc, hf⟩
  · exact .inl ⟨y, by rw [← e]; exact hy, rfl, rfl, .inl rfl⟩
  · rw [e] at hy
    rcases List.mem_append.1 hy with h | h
    · exact .inl ⟨y, h, rfl, rfl, .inl rfl⟩
    · rw [List.mem_singleton.1 h]; exact .inr ⟨hl, rfl, e, fun i hi => (hst i hi).2⟩
  · rw [e'] at hy
    rcases mem_replaced (x := u) hy with rfl | h
    · exact .inl ⟨u, by rw [e]; simp, hc, ha, hf⟩
    · exact .inl ⟨y, by rw [e]; exact h, rfl, rfl, .inl rfl⟩

theorem Follows.occupies {x y : Link} (h : Follows x.phase y.phase) (hy : occupies y = true) :
    occupies x = true := by
  unfold PoolRun.occupies at *
  rcases h with h | ⟨h, h'⟩ | ⟨h, h'⟩ | ⟨h, h'⟩ | ⟨h, _, h'⟩ | ⟨⟨_, h⟩, h'⟩ | ⟨h, h'⟩ | ⟨h, h'⟩ <;> simp_all

theorem holders_pos {s : Pool} {x : Link} (hx : x ∈ s.links) (ho : occupies x = true) : holders s x.addr ≠ 0 := by
  unfold holders
  intro h
  rw [List.countP_eq_zero] at h
  exact h x hx (by simp [ho])

structure Entries (s : Pool) : Prop where
  noEmpty : s.table.find "" = none
  unique : UniqueKeys s.table
  peer : ∀ a i c, s.table.find a = some i → i.peer = some c → ∃ x ∈ s.links, x.conn = c ∧ x.addr = a
  owner : ∀ x ∈ s.links, occupies x = true → ∀ i, s.table.find x.addr = some i → i.peer = some x.conn

theorem unique_step {s s' : Pool} (hs : Step s s') (h : UniqueKeys s.table) : UniqueKeys s'.table := by
  unfold UniqueKeys at *
  cases hs with
  | add addr resolve hr =>
    obtain ⟨l, e, h'⟩ := Props.add_prefix resolve s.table addr
    simp only [e]
    rcases h' with rfl | ⟨rfl, -, -, h3⟩
    · simpa using h
    · rw [List.map_append, List.nodup_append]
      refine ⟨h, by simp, ?_⟩
      intro a ha b hb he
      simp at hb
      exact h3 (by rw [← hb, ← he]; exact ha)
  | _ => first | exact h | (simp only [Props.update_keys]; exact h)

theorem entries_step {s s' : Pool} (hs : Step s s') (hk : Known s) (h1 : Single s) (h : Entries s) : Entries s' := by
  obtain ⟨he, hu, hp, ho⟩ := h
  refine ⟨?_, unique_step hs hu, ?_, ?_⟩
  · rcases find_cases hs "" with e | ⟨-, h, -⟩ | ⟨i, hi, -⟩
    · rw [e]; exact he
    · exact absurd rfl h
    · rw [he] at hi; cases hi
  · intro a i' c hf hc
    rcases peer_cases hs hf with ⟨i, hi, e⟩ | ⟨-, e⟩ | ⟨c', hl, e, el⟩
    · obtain ⟨x, hx, g1, g2⟩ := hp a i c hi (e.trans hc)
      obtain ⟨y, hy, f1, f2, -⟩ := link_stays hs hx
      exact ⟨y, hy, f1.trans g1, f2.trans g2⟩
    · rw [e] at hc; cases hc
    · rw [e] at hc
      cases hc
      exact ⟨⟨c, a, .up, false⟩, by rw [el]; simp, rfl, rfl⟩
  · intro y hy hoy i' hf
    rcases link_from hs hy with ⟨x, hx, g1, g2, g3⟩ | ⟨-, -, -, h⟩
    · have hox := g3.occupies hoy
      rcases peer_cases hs hf with ⟨i, hi, e⟩ | ⟨e, -⟩ | ⟨c', hl, -, -⟩
      · rw [g1, ← e]
        exact ho x hx hox i (by rw [← g2]; exact hi)
      · exfalso
        have := (Props.find_isSome_iff s.table y.addr).2 (by rw [g2]; exact hk.links x hx)
        rw [e] at this; cases this
      · exact absurd (h1.greeting _ _ hl) (by rw [g2]; exact holders_pos hx hox)
    · exact h i' hf

theorem Follows.counted {x y : Link} (h : Follows x.phase y.phase) (hy : counted y = true) : counted x = true := by
  unfold PoolRun.counted at *
  rcases h with h | ⟨h, h'⟩ | ⟨h, h'⟩ | ⟨h, h'⟩ | ⟨h, _, h'⟩ | ⟨⟨_, h⟩, h'⟩ | ⟨h, h'⟩ | ⟨h, h'⟩ <;> simp_all [counts]

/-- Which steps change the set of connected peers, or take a connection out of `counted`. -/
theorem online_cases {s s' : Pool} (hs : Step s s') :
    (s'.online = s.online ∧ (∀ x ∈ s.links, counted x = true → ∃ y ∈ s'.links, y.conn = x.conn ∧ y.addr = x.addr ∧
      counted y = true) ∧ ∀ y ∈ s'.links, ∃ x ∈ s.links, y.conn = x.conn ∧ y.addr = x.addr ∧
        counted y = counted x) ∨
    (∃ addr c, s.loop = .greeting addr c ∧ s'.online = addr :: s.online.filter (· ≠ addr) ∧
      s'.links = s.links ++ [⟨c, addr, .up, false⟩]) ∨
    (∃ l r x y, s.links = l ++ x :: r ∧ s'.links = l ++ y :: r ∧ y.conn = x.conn ∧ y.addr = x.addr ∧
      counted y = false ∧ s'.online = s.online.filter (· ≠ x.addr)) := by
  have rep : ∀ l r x y, s.links = l ++ x :: r → s'.links = l ++ y :: r → y.conn = x.conn → y.addr = x.addr →
      counted x = counted y →
      (∀ x ∈ s.links, counted x = true → ∃ y ∈ s'.links, y.conn = x.conn ∧ y.addr = x.addr ∧
      counted y = true) ∧ ∀ y ∈ s'.links, ∃ x ∈ s.links, y.conn = x.conn ∧ y.addr = x.addr ∧
        counted y = counted x := by
    intro l r x y e e' hc ha hcc
    constructor
    · intro z hz hcz
      rw [e] at hz
      rcases mem_replaced (x := y) hz with rfl | h
      · exact ⟨y, by rw [e']; simp, hc, ha, by rw [← hcc]; exact hcz⟩
      · exact ⟨z, by rw [e']; exact h, rfl, rfl, hcz⟩
    · intro z hz
      rw [e'] at hz
      rcases mem_replaced (x := x) hz with rfl | h
      · exact ⟨x, by rw [e]; simp, hc, ha, hcc.symm⟩
      · exact ⟨z, by rw [e]; exact h, rfl, rfl, rfl⟩
  cases hs with
  | register addr c told now n h hv hn => exact .inr (.inl ⟨addr, c, h, rfl, rfl⟩)
  | drop l r x hx h =>
    exact .inr (.inr ⟨l, r, x, _, hx, rfl, rfl, rfl, by simp [counted, counts], rfl⟩)
  | fall l r x hx h => exact .inl ⟨rfl, rep l r x _ hx rfl rfl rfl (by simp [counted, counts, h])⟩
  | want l r x hx h => exact .inl ⟨rfl, rep l r x _ hx rfl rfl rfl rfl⟩
  | record l r x td hh hx h hl => exact .inl ⟨rfl, rep l r x _ hx rfl rfl rfl rfl⟩
  | mark l r x hx h hw hl => exact .inl ⟨rfl, rep l r x _ hx rfl rfl rfl (by simp [counted, counts, h])⟩
  | seeDown l r x hx h => exact .inl ⟨rfl, rep l r x _ hx rfl rfl rfl (by simp [counted, counts, h])⟩
  | count l r x n hx h => exact .inl ⟨rfl, rep l r x _ hx rfl rfl rfl (by simp [counted, counts, h])⟩
  | free l r x hx h hp => exact .inl ⟨rfl, rep l r x _ hx rfl rfl rfl (by simp [counted, counts, h])⟩
  | banSelf addr l r x hx h hw hb => exact .inl ⟨rfl, rep l r x _ hx rfl rfl rfl (by simp [counted, counts, h])⟩
  | closeUp l r addr i l' r' x hx hl ht hp hx' hu =>
    exact .inl ⟨rfl, rep l' r' x _ hx' rfl rfl rfl (by simp [counted, counts, hu])⟩
  | _ => exact .inl ⟨rfl, fun x hx hc => ⟨x, hx, rfl, rfl, hc⟩, fun y hy => ⟨y, hy, rfl, rfl, rfl⟩⟩

structure Online (s : Pool) : Prop where
  sub : ∀ a ∈ s.online, ∃ x ∈ s.links, x.addr = a ∧ counted x = true
  nodup : s.online.Nodup
  listed : ∀ x ∈ s.links, counted x = true → x.addr ∈ s.online ∨
    ∃ y ∈ s.links, y.addr = x.addr ∧ y.conn ≠ x.conn ∧ counted y = false

theorem online_step {s s' : Pool} (hs : Step s s') (hc : Conns s) (h : Online s) : Online s' := by
  obtain ⟨h1, h2, h3⟩ := h
  rcases online_cases hs with ⟨e, f, b⟩ | ⟨addr, c, hl, eo, el⟩ | ⟨l, r, x, y, el, el', ec, ea, hy, eo⟩
  · refine ⟨?_, by rw [e]; exact h2, ?_⟩
    · intro a ha
      rw [e] at ha
      obtain ⟨x, hx, g1, g2⟩ := h1 a ha
      obtain ⟨y, hy, f1, f2, f3⟩ := f x hx g2
      exact ⟨y, hy, f2.trans g1, f3⟩
    · intro y hy hcy
      obtain ⟨x, hx, g1, g2, g3⟩ := b y hy
      rw [e]
      rcases h3 x hx (by rw [← g3]; exact hcy) with h | ⟨z, hz, z1, z2, z3⟩
      · exact .inl (by rw [g2]; exact h)
      · right
        obtain ⟨z', hz', w1, w2, w3⟩ := link_stays hs hz
        refine ⟨z', hz', w2.trans (z1.trans g2.symm), by rw [w1, g1]; exact z2, ?_⟩
        cases h : counted z'
        · rfl
        · exact absurd (w3.counted h) (by simp [z3])
  · refine ⟨?_, ?_, ?_⟩
    · intro a ha
      rw [eo] at ha
      rw [el]
      rcases List.mem_cons.1 ha with rfl | ha
      · exact ⟨⟨c, a, .up, false⟩, by simp, rfl, rfl⟩
      · obtain ⟨x, hx, g⟩ := h1 a (List.mem_of_mem_filter ha)
        exact ⟨x, by simp [hx], g⟩
    · rw [eo, List.nodup_cons]
      exact ⟨by simp, h2.filter _⟩
    · intro z hz hcz
      rw [el] at hz
      rw [eo]
      by_cases ez : z.addr = addr
      · exact .inl (by simp [ez])
      · rcases List.mem_append.1 hz with hz | hz
        · rcases h3 z hz hcz with h | ⟨w, hw, g⟩
          · exact .inl (by simp [ez, h])
          · exact .inr ⟨w, by rw [el]; simp [hw], g⟩
        · rw [List.mem_singleton.1 hz] at ez; exact absurd rfl ez
  · have hx0 : x ∈ s.links := by rw [el]; simp
    have hy0 : y ∈ s'.links := by rw [el']; simp
    have hne : ∀ z ∈ s'.links, z = y ∨ (z ∈ s.links ∧ z.conn ≠ x.conn) := by
      intro z hz
      have h2 := hc.nodup
      rw [el, List.map_append, List.map_cons, List.nodup_append, List.nodup_cons] at h2
      obtain ⟨-, ⟨n1, -⟩, n2⟩ := h2
      rw [el'] at hz
      rw [el]
      rcases List.mem_append.1 hz with hz | hz
      · exact .inr ⟨by simp [hz], n2 _ (List.mem_map.2 ⟨z, hz, rfl⟩) _ List.mem_cons_self⟩
      rcases List.mem_cons.1 hz with h | hz
      · exact .inl h
      · refine .inr ⟨by simp [hz], fun e => n1 ?_⟩
        rw [← e]; exact List.mem_map.2 ⟨z, hz, rfl⟩
    refine ⟨?_, by rw [eo]; exact h2.filter _, ?_⟩
    · intro a ha
      rw [eo, List.mem_filter] at ha
      obtain ⟨z, hz, g1, g2⟩ := h1 a ha.1
      have hza : z.addr ≠ x.addr := by rw [g1]; simpa using ha.2
      rw [el] at hz
      rcases mem_replaced (x := y) hz with rfl | h
      · exact absurd rfl hza
      · exact ⟨z, by rw [el']; exact h, g1, g2⟩
    · intro z hz hcz
      rcases hne z hz with rfl | ⟨hz0, hzc⟩
      · rw [hy] at hcz; cases hcz
      by_cases ez : z.addr = x.addr
      · exact .inr ⟨y, hy0, by rw [ea, ez], by rw [ec]; exact fun e => hzc e.symm, hy⟩
      · rcases h3 z hz0 hcz with h | ⟨w, hw, w1, w2, w3⟩
        · exact .inl (by rw [eo, List.mem_filter]; exact ⟨h, by simpa using ez⟩)
        · obtain ⟨w', hw', v1, v2, v3⟩ := link_stays hs hw
          refine .inr ⟨w', hw', v2.trans w1, by rw [v1]; exact w2, ?_⟩
          cases h : counted w'
          · rfl
          · exact absurd (v3.counted h) (by simp [w3])

/-- All invariants. -/
structure Inv (s : Pool) : Prop where
  counts : Counts s
  known : Known s
  single : Single s
  conns : Conns s
  entries : Entries s
  online : Online s
  tally : Tally s

theorem inv_new : Inv Pool.new where
  counts := ⟨rfl, by decide, fun _ => rfl⟩
  known := ⟨nofun, nofun⟩
  single := ⟨fun _ => Nat.zero_le _, (fun _ _ _ h => by cases h), nofun, nofun, fun _ => rfl⟩
  conns := ⟨nofun, List.nodup_nil, nofun, List.nodup_nil, nofun, nofun⟩
  entries := ⟨rfl, List.nodup_nil, (fun _ _ _ h => by cases h), nofun⟩
  online := ⟨nofun, List.nodup_nil, nofun⟩
  tally := ⟨by decide, .inl (by decide), fun _ _ => by decide, nofun, nofun⟩

theorem inv_step {s s' : Pool} (hs : Step s s') (h : Inv s) : Inv s' where
  counts := counts_step hs h.counts
  known := known_step hs h.known
  single := single_step hs h.known h.single
  conns := conns_step hs h.conns
  entries := entries_step hs h.known h.single h.entries
  online := online_step hs h.conns h.online
  tally := tally_step hs h.tally

theorem inv_reachable {s : Pool} (h : Reachable Pool.new s) : Inv s := by
  induction h with
  | here => exact inv_new
  | next _ _ hs ih => exact inv_step hs ih

theorem Reachable.trans {a b c : Pool} (h1 : Reachable a b) (h2 : Reachable b c) : Reachable a c := by
  induction h2 with
  | here => exact h1
  | next _ hp hs ih => exact .next ih hp hs

end Gringo.PoolRun
