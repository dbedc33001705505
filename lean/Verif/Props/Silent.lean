import Verif.Props.PoolRun
/-
C105: a remote peer that accepts the connection and then says nothing.
-/
namespace Gringo.Props
open Gringo.Spec Gringo.P2P Gringo.PoolRun

/-- The steps by which a handshake comes to an end: it fails, the remote peer has another version, or it has the right
one and the pool goes on with the connection. -/
inductive Answers : Pool → Pool → Prop
  | fails (s : Pool) (addr : String) (c : Nat) (h : s.loop = .greeting addr c) :
      Answers s { s with loop := .failed, table := s.table.update addr (setStatus .failedConn) }
  | otherVersion (s : Pool) (addr : String) (c : Nat) (h : s.loop = .greeting addr c) :
      Answers s { s with loop := .failed }
  | rightVersion (s : Pool) (addr : String) (c : Nat) (h : s.loop = .greeting addr c) :
      Answers s { s with seen := some s.connected }

/-- Everything that may happen while the remote peer of the handshake neither answers nor closes the connection:
all other connections, all callers and `Stop` go on. -/
inductive Quiet (start : Pool) : Pool → Prop
  | here : Quiet start start
  | next {s s' : Pool} : Quiet start s → s.panicked = false → Step s s' → ¬ Answers s s' → Quiet start s'

theorem quiet_step {s s' : Pool} {addr : String} {c : Nat} (hl : s.loop = .greeting addr c) (hn : s.seen = none)
    (hs : Step s s') (ha : ¬ Answers s s') : s'.loop = .greeting addr c ∧ s'.seen = none ∧ s'.next = s.next := by
  cases hs with
  | noShake a c' h _ => exact absurd (.fails s a c' h) ha
  | otherVersion a c' told h _ _ => exact absurd (.otherVersion s a c' h) ha
  | see a c' h _ => exact absurd (.rightVersion s a c' h) ha
  | register a c' told now n h hv hs' => rw [hn] at hs'; cases hs'
  | _ => first | exact ⟨hl, hn, rfl⟩ | (exfalso; simp_all)

/-- While the remote peer is silent the loop stays where it is: nobody else is dialled and `Stop` is not noticed. -/
theorem quiet_stays {s s' : Pool} {addr : String} {c : Nat} (hl : s.loop = .greeting addr c) (hn : s.seen = none)
    (hq : Quiet s s') : s'.loop = .greeting addr c ∧ s'.seen = none ∧ s'.next = s.next := by
  induction hq with
  | here => exact ⟨hl, hn, rfl⟩
  | next _ _ hs ha ih =>
    obtain ⟨h1, h2, h3⟩ := quiet_step ih.1 ih.2.1 hs ha
    exact ⟨h1, h2, h3.trans ih.2.2⟩

theorem greeting_reachable {resolve : String → Option TCPAddr} (hr : ∀ a, resolve "" = some a → a.port = 0)
    {addr : String} (ha : Admissible resolve addr) :
    Reachable Pool.new { Pool.one addr PeerInfo.fresh with loop := .greeting addr 0, slots := 1, opened := [0], next := 1 } := by
  have d := (one_reachable hr ha).trans (dials _ addr PeerInfo.fresh rfl (.inl rfl) (admissible_ne hr ha) rfl (by show 0 < 15; decide)
    (by show (0 : Int) ≤ 15; decide) rfl rfl)
  exact d.next rfl (.opens _ addr rfl)

/-- **C105 is false of the code.** Take any two addresses. If the first one accepts the connection and then stays
silent, the pool waits for it for ever, since the handshake has no time limit: the second address is never dialled,
and `Stop`, though it was called, does not end the loop. -/
theorem C105_refuted (resolve : String → Option TCPAddr) (hr : ∀ a, resolve "" = some a → a.port = 0)
    (addr other : String) (ha : Admissible resolve addr) (hb : Admissible resolve other) (hne : other ≠ addr) :
    ∃ s c, Reachable Pool.new s ∧ s.panicked = false ∧ s.quit = true ∧ s.loop = .greeting addr c ∧
      (∃ i, s.table.find other = some i ∧ Dialable i) ∧
      ∀ s', Quiet s s' → s'.loop = .greeting addr c ∧ s'.next = s.next := by
  have h1 := (greeting_reachable hr ha).next rfl (.add _ other resolve hr)
  have e : P2P.add resolve [(addr, PeerInfo.fresh)] other = [(addr, PeerInfo.fresh), (other, PeerInfo.fresh)] :=
    (C55_add resolve _ other).1 ⟨hb, by simp, by simpa using hne⟩
  have e' : P2P.add resolve (Pool.one addr PeerInfo.fresh).table other = _ := e
  rw [e'] at h1
  have h2 := h1.next rfl (.stop _)
  refine ⟨_, 0, h2, rfl, rfl, rfl, ⟨PeerInfo.fresh, ?_, .inl rfl⟩, ?_⟩
  · show List.lookup other [(addr, PeerInfo.fresh), (other, PeerInfo.fresh)] = _
    rw [List.lookup_cons, beq_false_of_ne hne]; simp [List.lookup]
  · intro s' hq
    obtain ⟨h1, -, h3⟩ := quiet_stays (addr := addr) (c := 0) rfl rfl hq
    exact ⟨h1, h3⟩

/-- **C105, the part that holds.** The loop waits for nothing else: when it is neither dialling, nor in a handshake, nor
telling a new peer about itself, it can go on, unless all fifteen slots are taken or it has ended; and it goes on from
each of the ways in which a handshake ends. -/
theorem C105_moves_partial (s : Pool) (h : Reachable Pool.new s) (hs : s.loop ≠ .stopped)
    (hd : ∀ a, s.loop ≠ .dialing a) (hg : ∀ a c, s.loop ≠ .greeting a c) (ha : ∀ a, s.loop ≠ .announcing a) :
    (∃ s', Step s s' ∧ s'.loop ≠ s.loop) ∨
      s.loop = .select ∧ s.quit = false ∧ (s.links.filter fun x => decide (x.phase ≠ .gone)).length + s.kept = 15 := by
  have hi := inv_reachable h
  have hcl := hi.single.stopped hs
  have e : (fun x : Link => decide (x.phase ≠ .gone)) = holding := by
    funext x; unfold holding; cases x.phase <;> rfl
  rw [e, countP_eq_length_filter']
  have hslots := hi.counts.slots
  cases hl : s.loop with
  | select =>
    rw [hl] at hslots
    simp only [token] at hslots
    cases hq : s.quit with
    | true => exact .inl ⟨_, .quitting s hl hq, by simp⟩
    | false =>
      have hc : s.slots ≤ 15 := hi.counts.cap
      by_cases hr : s.slots < 15
      · exact .inl ⟨_, .take s hl hr, by simp⟩
      · exact .inr ⟨rfl, rfl, by omega⟩
  | choosing => exact .inl ⟨_, .choose s s.table s.table hl (.refl _) (.refl _), by simp⟩
  | connecting addr =>
    left
    by_cases hne : addr = ""
    · subst hne; exact ⟨_, .nothing s hl, by simp⟩
    · by_cases hc : s.connected > maxOnlineConnections
      · exact ⟨_, .tooMany s addr hl hne hc, by simp⟩
      · have hc' : s.connected ≤ maxOnlineConnections := Int.not_lt.1 hc
        cases ht : s.table.find addr with
        | none => exact ⟨_, .missing s addr hl hne hc' ht, by simp⟩
        | some i =>
          by_cases hst : i.status = .banned ∨ i.status = .connected
          · exact ⟨_, .skip s addr i hl hne hc' ht (not_locked hl hcl) hst, by simp⟩
          · exact ⟨_, .dial s addr i hl hne hc' ht (not_locked hl hcl) hst, by simp⟩
  | dialing a => exact absurd hl (hd a)
  | greeting a c => exact absurd hl (hg a c)
  | announcing a => exact absurd hl (ha a)
  | failed =>
    rw [hl] at hslots
    simp only [token] at hslots
    exact .inl ⟨_, .release s hl (by omega), by simp⟩
  | sleeping => exact .inl ⟨_, .wake s hl, by simp⟩
  | stopped => exact absurd hl hs

/-- `C105_refuted`: two addresses that resolve to themselves. -/
example : ∃ s c, Reachable Pool.new s ∧ s.quit = true ∧ s.loop = .greeting "10.0.0.1:13414" c ∧
    ∀ s', Quiet s s' → s'.loop = .greeting "10.0.0.1:13414" c ∧ s'.next = s.next := by
  let resolve : String → Option TCPAddr := fun a =>
    if a = "10.0.0.1:13414" then some ⟨[10, 0, 0, 1], 13414⟩
    else if a = "10.0.0.2:13414" then some ⟨[10, 0, 0, 2], 13414⟩ else none
  have hr : ∀ a, resolve "" = some a → a.port = 0 := by intro a h; simp [resolve] at h
  have adm : ∀ x : UInt8, ∀ name, resolve name = some ⟨[10, 0, 0, x], 13414⟩ → Admissible resolve name := by
    intro x name h
    refine ⟨_, h, by simp, ?_, ?_⟩
    · rintro ⟨a, b, c, d, h1 | h1, h2, h3⟩
      · simp at h1; obtain ⟨rfl, -⟩ := h1; simp at h2
      · simp at h1
    · rintro ⟨r, -, h⟩; simp at h
  obtain ⟨s, c, h1, -, h2, h3, -, h4⟩ := C105_refuted resolve hr "10.0.0.1:13414" "10.0.0.2:13414" (adm 1 _ (by simp [resolve]))
    (adm 2 _ (by simp [resolve])) (by decide)
  exact ⟨s, c, h1, h2, h3, h4⟩

/-- `C105_moves_partial`: a new pool. -/
example : ∃ s', Step Pool.new s' ∧ s'.loop ≠ Pool.new.loop := by
  rcases C105_moves_partial _ .here (by decide) nofun nofun nofun with h | ⟨-, -, h⟩
  · exact h
  · simp [Pool.new] at h

end Gringo.Props
