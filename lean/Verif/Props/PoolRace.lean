import Verif.Props.PoolRun
/-
C58: what lost updates of the counter of connections do to the pool.
-/
namespace Gringo.Props
open Gringo.Spec Gringo.P2P Gringo.PoolRun

/-- Statuses that `notConnected` looks for first. -/
def FirstChoice (i : PeerInfo) : Prop := i.status = .new ∨ i.status = .disconnected

/-- The loop connects to some address of the table and goes back to `select`. -/
theorem connects_to (s : Pool) (addr : String) (i : PeerInfo) (hch : notConnected s.table s.table = addr)
    (ht : s.table.find addr = some i) (hd : FirstChoice i)
    (hne : addr ≠ "") (hl : s.loop = .select) (hs : s.slots < 15) (hcn : s.connected ≤ 15) (hc : s.closers = [])
    (hp : s.panicked = false) (hn : s.seen = none) :
    Reachable s { s with
      slots := s.slots + 1
      opened := s.next :: s.opened
      next := s.next + 1
      connected := s.connected + 1
      table := s.table.update addr (registered s.next (Time.unix 0) Told.good)
      online := addr :: s.online.filter (· ≠ addr)
      links := s.links ++ [⟨s.next, addr, .up, false⟩] } := by
  have h1 := Reachable.next (.here (start := s)) hp (.take s hl hs)
  have h2 := h1.next hp (.choose _ s.table s.table rfl (.refl _) (.refl _))
  simp only [hch] at h2
  have hst : ¬ (i.status = .banned ∨ i.status = .connected) := by
    rcases hd with h | h <;> simp [h]
  have h3 := h2.next hp (.dial _ addr i rfl hne hcn ht (not_locked rfl hc) hst)
  have d1 := h3.next hp (.opens _ addr rfl)
  have d1' := d1.next hp (.see _ addr s.next rfl hn)
  have d2 := d1'.next hp (.register _ addr s.next Told.good (Time.unix 0) s.connected rfl rfl rfl)
  have d3 := d2.next hp (.announced _ addr rfl)
  have d4 := d3.next hp (.wake _ rfl)
  simp only [ne_eq, not_true_eq_false, decide_false, Bool.or_false] at d4
  rw [← hl, ← hn] at d4
  exact d4

/-- A connection ends, its socket is closed and its goroutine sets the status. -/
theorem ends (s : Pool) (l r : List Link) (c : Nat) (addr : String) (hx : s.links = l ++ ⟨c, addr, .up, false⟩ :: r)
    (hl : s.loop = .select) (hc : s.closers = []) (hp : s.panicked = false) :
    Reachable s { s with
      links := l ++ ⟨c, addr, .marked, false⟩ :: r
      opened := s.opened.filter (· ≠ c)
      table := s.table.update addr (setStatus .disconnected) } := by
  have h1 := Reachable.next (.here (start := s)) hp (.fall s l r ⟨c, addr, .up, false⟩ hx rfl)
  have h1 := h1.next hp (.shut _ ⟨c, addr, .down, false⟩ (by simp) nofun)
  exact h1.next hp (.mark _ l r ⟨c, addr, .down, false⟩ rfl rfl rfl (by unfold Pool.locked; simp [hl, hc]))

/-- What is left of the goroutine after the write of the counter. -/
theorem finishes (s : Pool) (l r : List Link) (c : Nat) (addr : String)
    (hx : s.links = l ++ ⟨c, addr, .uncounted, false⟩ :: r) (hs : 0 < s.slots) (hp : s.panicked = false) :
    Reachable s { s with
      links := l ++ ⟨c, addr, .gone, false⟩ :: r
      online := s.online.filter (· ≠ addr)
      slots := s.slots - 1 } := by
  have h1 := Reachable.next (.here (start := s)) hp (.drop s l r ⟨c, addr, .uncounted, false⟩ hx rfl)
  exact h1.next hp (.free _ l r ⟨c, addr, .dropped, false⟩ rfl rfl hs)

/-- A pool that has no connections and two addresses to dial; its counter says `k`. -/
structure Worn (a b : String) (k : Int) (s : Pool) : Prop where
  reachable : Reachable Pool.new s
  table : ∃ ia ib, s.table = [(a, ia), (b, ib)] ∧ FirstChoice ia ∧ FirstChoice ib
  loop : s.loop = .select
  slots : s.slots = 0
  connected : s.connected = k
  closers : s.closers = []
  panicked : s.panicked = false
  seen : s.seen = none
  quit : s.quit = false
  kept : s.kept = 0
  opened : s.opened = []
  links : ∀ x ∈ s.links, x.phase = .gone

theorem update_two_a {a b : String} (hab : a ≠ b) (ia ib : PeerInfo) (f : PeerInfo → PeerInfo) :
    Table.update [(a, ia), (b, ib)] a f = [(a, f ia), (b, ib)] := by
  simp [Table.update, hab.symm]

theorem update_two_b {a b : String} (hab : a ≠ b) (ia ib : PeerInfo) (f : PeerInfo → PeerInfo) :
    Table.update [(a, ia), (b, ib)] b f = [(a, ia), (b, f ib)] := by
  simp [Table.update, hab]

theorem find_two_b {a b : String} (hab : a ≠ b) (ia ib : PeerInfo) :
    Table.find [(a, ia), (b, ib)] b = some ib := by
  have : (b == a) = false := by simpa using hab.symm
  simp [Table.find, List.lookup, this]

/-- Two connections are made, both end, and their goroutines read the counter before either writes it: there are no
connections any more, but the counter is one higher. -/
theorem worn_next {a b : String} (hab : a ≠ b) (ha : a ≠ "") (hb : b ≠ "") {k : Int} (hk : k ≤ 14) {s : Pool}
    (h : Worn a b k s) : ∃ s', Worn a b (k + 1) s' := by
  obtain ⟨hr, ⟨ia, ib, ht, hia, hib⟩, hl, hsl, hcn, hcl, hp, hse, hq, hke, hop, hli⟩ := h
  have c1 := connects_to s a ia (by rw [ht]; unfold notConnected; rcases hia with h | h <;> simp [h])
    (by rw [ht]; simp [Table.find]) hia ha hl (by omega) (by omega) hcl hp hse
  have c1 := hr.trans c1
  simp only [ht, update_two_a hab] at c1
  have c2 := c1.trans (connects_to _ b ib (by unfold notConnected; rcases hib with h | h <;> simp [h, registered])
    (by exact find_two_b hab _ _) hib hb hl (by simp only; omega) (by simp only; omega) hcl hp hse)
  simp only [update_two_b hab, List.append_assoc, List.cons_append, List.nil_append] at c2
  have e1 := c2.trans (ends _ s.links [⟨s.next + 1, b, .up, false⟩] s.next a rfl hl hcl hp)
  have e2 := e1.trans (ends _ (s.links ++ [⟨s.next, a, .marked, false⟩]) [] (s.next + 1) b (by simp) hl hcl hp)
  simp only [update_two_a hab, update_two_b hab, List.append_assoc, List.cons_append, List.nil_append] at e2
  have f1 := e2.next hp (.seeDown _ s.links [⟨s.next + 1, b, .marked, false⟩] ⟨s.next, a, .marked, false⟩ rfl rfl)
  have f2 := f1.next hp (.seeDown _ (s.links ++ [⟨s.next, a, .reading (s.connected + 1 + 1), false⟩]) []
    ⟨s.next + 1, b, .marked, false⟩ (by simp) rfl)
  simp only [List.append_assoc, List.cons_append, List.nil_append] at f2
  have f3 := f2.next hp (.count _ s.links [⟨s.next + 1, b, .reading (s.connected + 1 + 1), false⟩]
    ⟨s.next, a, .reading (s.connected + 1 + 1), false⟩ _ rfl rfl)
  have f4 := f3.next hp (.count _ (s.links ++ [⟨s.next, a, .uncounted, false⟩]) []
    ⟨s.next + 1, b, .reading (s.connected + 1 + 1), false⟩ _ (by simp) rfl)
  simp only [List.append_assoc, List.cons_append, List.nil_append] at f4
  have g1 := f4.trans (finishes _ s.links [⟨s.next + 1, b, .uncounted, false⟩] s.next a rfl (by simp) hp)
  have g2 := g1.trans (finishes _ (s.links ++ [⟨s.next, a, .gone, false⟩]) [] (s.next + 1) b (by simp) (by simp) hp)
  refine ⟨_, g2, ⟨_, _, rfl, .inr rfl, .inr rfl⟩, hl, by simp [hsl], by simp only; omega, hcl, hp, hse, hq, hke, ?_, ?_⟩
  · simp [hop]
  · intro x hx
    simp only [List.append_assoc, List.cons_append, List.nil_append, List.mem_append, List.mem_cons,
      List.not_mem_nil, or_false] at hx
    rcases hx with h | rfl | rfl
    · exact hli x h
    · rfl
    · rfl

theorem worn_start {resolve : String → Option TCPAddr} (hr : ∀ a, resolve "" = some a → a.port = 0) {a b : String}
    (hab : a ≠ b) (ha : Admissible resolve a) (hb : Admissible resolve b) : ∃ s, Worn a b 0 s := by
  have h := (one_reachable hr ha).next rfl (.add _ b resolve hr)
  have e : P2P.add resolve (Pool.one a PeerInfo.fresh).table b = [(a, PeerInfo.fresh), (b, PeerInfo.fresh)] :=
    (C55_add resolve [(a, PeerInfo.fresh)] b).1 ⟨hb, by simp, by simpa using hab.symm⟩
  rw [e] at h
  exact ⟨_, h, ⟨_, _, rfl, .inl rfl, .inl rfl⟩, rfl, rfl, rfl, rfl, rfl, rfl, rfl, rfl, rfl, nofun⟩

theorem worn_all {a b : String} (hab : a ≠ b) (ha : a ≠ "") (hb : b ≠ "") (h0 : ∃ s, Worn a b 0 s) :
    ∀ k : Nat, k ≤ 15 → ∃ s, Worn a b k s
  | 0, _ => h0
  | k + 1, h => by
    obtain ⟨s, hs⟩ := worn_all hab ha hb h0 k (by omega)
    obtain ⟨s', hs'⟩ := worn_next hab ha hb (by omega) hs
    exact ⟨s', by simpa using hs'⟩

/-- With the counter at 16 and every other goroutine ended, nothing is dialled while the connection `c` is up. -/
theorem blocked {s : Pool} (h0 : Reachable Pool.new s) (c : Nat) (hc : s.connected = 16)
    (hse : s.seen = none) (hl : s.loop = .select) (hx : ∃ x ∈ s.links, x.conn = c)
    (hg : ∀ x ∈ s.links, x.conn ≠ c → x.phase = .gone) {s' : Pool} (h : Reachable s s') :
    (∃ x ∈ s'.links, x.conn = c) ∧ ((∃ x ∈ s'.links, x.conn = c ∧ x.phase = .up) →
      s'.connected = 16 ∧ s'.seen = none ∧ (∀ x ∈ s'.links, x.conn ≠ c → x.phase = .gone) ∧ s'.next = s.next ∧
      (∀ a, s'.loop ≠ .dialing a) ∧ (∀ a c, s'.loop ≠ .greeting a c)) := by
  induction h with
  | here => exact ⟨hx, fun _ => ⟨hc, hse, hg, rfl, by simp [hl], by simp [hl]⟩⟩
  | @next t t' h1 hp hs ih =>
    obtain ⟨⟨x, hxm, hxc⟩, ih⟩ := ih
    have hi := inv_reachable (h0.trans h1)
    refine ⟨?_, ?_⟩
    · obtain ⟨y, hy, e, -⟩ := link_stays hs hxm
      exact ⟨y, hy, e.trans hxc⟩
    · rintro ⟨y, hy, hyc, hyu⟩
      have hup : ∃ x ∈ t.links, x.conn = c ∧ x.phase = .up := by
        rcases link_from hs hy with ⟨z, hz, e1, e2, e3⟩ | ⟨e, -⟩
        · refine ⟨z, hz, e1.symm.trans hyc, ?_⟩
          rw [hyu] at e3
          rcases e3 with h | ⟨-, h⟩ | ⟨-, h⟩ | ⟨-, h⟩ | ⟨-, _, h⟩ | ⟨-, h⟩ | ⟨-, h⟩ | ⟨-, h⟩
          · exact h
          all_goals cases h
        · rw [hyc] at e
          exact absurd hxc ((hi.conns.greeting _ _ e).2 x hxm)
      obtain ⟨k1, k2, k3, k4, k5, k6⟩ := ih hup
      obtain ⟨u, hum, huc, huu⟩ := hup
      -- the only connection that is not gone is up
      have only : ∀ z ∈ t.links, z.phase = .gone ∨ z.phase = .up := by
        intro z hz
        by_cases e : z.conn = c
        · right
          have : z = u := List.inj_on_of_nodup_map hi.conns.nodup hz hum (e.trans huc.symm)
          rw [this]; exact huu
        · exact .inl (k3 z hz e)
      have gone' : ∀ z ∈ t'.links, z.conn ≠ c → z.phase = .gone := by
        intro z hz hzc
        rcases link_from hs hz with ⟨w, hw, e1, e2, e3⟩ | ⟨e, -⟩
        · rw [k3 w hw (by rw [← e1]; exact hzc)] at e3
          rcases e3 with h | ⟨h, -⟩ | ⟨h, -⟩ | ⟨h, -⟩ | ⟨h, -⟩ | ⟨⟨_, h⟩, -⟩ | ⟨h, -⟩ | ⟨h, -⟩
          · exact h.symm
          all_goals cases h
        · exact absurd e (k6 _ _)
      cases hs with
      | dial addr i hl hne hcc ht hlk hst =>
        exfalso
        rw [k1] at hcc
        exact absurd hcc (by decide)
      | opens addr h => exact absurd h (k5 _)
      | see addr d h hn => exact absurd h (k6 _ _)
      | register addr d told now n h hv hn => exact absurd h (k6 _ _)
      | count l r z n hz h =>
        exfalso
        rcases only z (by rw [hz]; simp) with e | e <;> rw [h] at e <;> cases e
      | _ => exact ⟨k1, k2, gone', k4, by first | exact k5 | simp, by first | exact k6 | simp⟩

/-- A connection is made, somebody begins to close it, and its goroutine ends before the socket is closed. -/
theorem lingers (s : Pool) (addr : String) (i : PeerInfo) (ht : s.table = [(addr, i)]) (hd : FirstChoice i)
    (hne : addr ≠ "") (hl : s.loop = .select) (hs : s.slots < 15) (hcn : s.connected ≤ 15) (hc : s.closers = [])
    (hp : s.panicked = false) (hn : s.seen = none) :
    ∃ s', Reachable s s' ∧ (∃ i, s'.table = [(addr, i)] ∧ FirstChoice i) ∧ s'.loop = .select ∧ s'.slots = s.slots ∧
      s'.connected = s.connected ∧ s'.closers = [] ∧ s'.panicked = false ∧ s'.seen = none ∧ s'.kept = s.kept ∧
      s'.opened = s.next :: s.opened ∧ s'.links = s.links ++ [⟨s.next, addr, .gone, false⟩] := by
  have c1 := connects_to s addr i (by rw [ht]; unfold notConnected; rcases hd with h | h <;> simp [h])
    (by rw [ht]; exact find_one addr i) hd hne hl hs hcn hc hp hn
  have c2 := c1.next hp (.fall _ s.links [] ⟨s.next, addr, .up, false⟩ rfl rfl)
  have c3 := c2.next hp (.mark _ s.links [] ⟨s.next, addr, .down, false⟩ rfl rfl rfl (by
    unfold Pool.locked; simp [hl, hc]))
  have c4 := c3.next hp (.seeDown _ s.links [] ⟨s.next, addr, .marked, false⟩ rfl rfl)
  have c5 := c4.next hp (.count _ s.links [] ⟨s.next, addr, .reading (s.connected + 1), false⟩ _ rfl rfl)
  have c6 := c5.trans (finishes _ s.links [] s.next addr rfl (by simp) hp)
  simp only [ht, update_one] at c6
  exact ⟨_, c6, ⟨_, rfl, .inr rfl⟩, hl, by simp, by simp, hc, hp, hn, rfl, rfl, rfl⟩

/-- **C57 is false of the code: connections that are being closed.** The goroutine of a connection gives back the slot
when both handlers have ended, which can be before the socket is closed. So for every number there is a schedule
that leaves that many connections open to one peer, on all of which the handshake had succeeded. -/
theorem C57_refuted_closing (resolve : String → Option TCPAddr) (hr : ∀ a, resolve "" = some a → a.port = 0)
    (addr : String) (ha : Admissible resolve addr) (n : Nat) :
    ∃ s, Reachable Pool.new s ∧ s.opened.length = n ∧ s.opened.Nodup ∧ s.panicked = false ∧ s.slots = 0 ∧
      ∀ c ∈ s.opened, ∃ x ∈ s.links, x.conn = c ∧ x.addr = addr := by
  have hne := admissible_ne hr ha
  suffices h : ∃ s i, Reachable Pool.new s ∧ s.table = [(addr, i)] ∧ FirstChoice i ∧ s.loop = .select ∧ s.slots = 0 ∧
      s.connected = 0 ∧ s.closers = [] ∧ s.panicked = false ∧ s.seen = none ∧ s.opened.length = n ∧
      ∀ c ∈ s.opened, ∃ x ∈ s.links, x.conn = c ∧ x.addr = addr by
    obtain ⟨s, i, h1, -, -, -, h5, -, -, h8, -, h10, h11⟩ := h
    exact ⟨s, h1, h10, (inv_reachable h1).conns.openedNodup, h8, h5, h11⟩
  induction n with
  | zero => exact ⟨_, _, one_reachable hr ha, rfl, .inl rfl, rfl, rfl, rfl, rfl, rfl, rfl, rfl, nofun⟩
  | succ n ih =>
    obtain ⟨s, i, h1, h2, h3, h4, h5, h6, h7, h8, h9, h10, h11⟩ := ih
    obtain ⟨s', g1, ⟨j, g2, g3⟩, g4, g5, g6, g7, g8, g9, -, g10, g11⟩ :=
      lingers s addr i h2 h3 hne h4 (by omega) (by omega) h7 h8 h9
    refine ⟨s', j, h1.trans g1, g2, g3, g4, g5.trans h5, g6.trans h6, g7, g8, g9, by rw [g10]; simp [h10], ?_⟩
    intro c hc
    rw [g11]
    rw [g10] at hc
    rcases List.mem_cons.1 hc with rfl | hc
    · exact ⟨⟨s.next, addr, .gone, false⟩, by simp, rfl, rfl⟩
    · obtain ⟨x, hx, e⟩ := h11 c hc
      exact ⟨x, List.mem_append_left _ hx, e⟩

/-- **C58 is false of the code: lost updates.** The counter of connections is changed by the loop and by the
goroutines of ended connections without any synchronisation. There is a schedule after which the pool, never
stopped, has a single connection and 14 free slots, and another address to dial; yet it dials nothing for as long as
this connection is up. It takes two addresses, whose connections end at the same moments fifteen times. -/
theorem C58_refuted_race (resolve : String → Option TCPAddr) (hr : ∀ a, resolve "" = some a → a.port = 0)
    (a b : String) (hab : a ≠ b) (ha : Admissible resolve a) (hb : Admissible resolve b) :
    ∃ s c, Reachable Pool.new s ∧ s.panicked = false ∧ s.quit = false ∧ s.kept = 0 ∧ s.slots = 1 ∧ s.opened = [c] ∧
      (∃ x ∈ s.links, x.conn = c ∧ x.addr = a ∧ x.phase = .up) ∧ (∀ x ∈ s.links, x.conn ≠ c → x.phase = .gone) ∧
      (∃ i, s.table.find b = some i ∧ Dialable i) ∧
      ∀ s', Reachable s s' → (∃ x ∈ s'.links, x.conn = c ∧ x.phase = .up) →
        s'.next = s.next ∧ ∀ d, s'.loop ≠ .dialing d := by
  have ha' := admissible_ne hr ha
  have hb' := admissible_ne hr hb
  obtain ⟨s, ⟨h1, ⟨ia, ib, ht, hia, hib⟩, hl, hsl, hcn, hcl, hp, hse, hq, hke, hop, hli⟩⟩ :=
    worn_all hab ha' hb' (worn_start hr hab ha hb) 15 (by omega)
  have c1 := connects_to s a ia (by rw [ht]; unfold notConnected; rcases hia with h | h <;> simp [h])
    (by rw [ht]; simp [Table.find]) hia ha' hl (by omega) (by rw [hcn]; decide) hcl hp hse
  have c1 := h1.trans c1
  simp only [ht, update_two_a hab] at c1
  have hsmall := (inv_reachable h1).conns.small
  refine ⟨_, s.next, c1, hp, hq, hke, by simp [hsl], by simp [hop], ⟨⟨s.next, a, .up, false⟩, by simp, rfl, rfl, rfl⟩, ?_,
    ⟨ib, by exact find_two_b hab _ _, ?_⟩, ?_⟩
  · intro x hx hxc
    rcases List.mem_append.1 hx with hx | hx
    · exact hli x hx
    · rw [List.mem_singleton.1 hx] at hxc; exact absurd rfl hxc
  · rcases hib with h | h
    · exact .inl h
    · exact .inr (.inl h)
  · intro s' h' hup
    obtain ⟨-, h⟩ := blocked c1 s.next (by simp only [hcn]; rfl) hse hl ⟨⟨s.next, a, .up, false⟩, by simp, rfl⟩ (by
      intro x hx hxc
      rcases List.mem_append.1 hx with hx | hx
      · exact hli x hx
      · rw [List.mem_singleton.1 hx] at hxc; exact absurd rfl hxc) h'
    obtain ⟨-, -, -, h4, h5, -⟩ := h hup
    exact ⟨h4, h5⟩

/-- **C58, the counter.** Under every schedule the counter of connections never exceeds 16, and exceeds 15 only while
some connection has not been taken off it; while no update was lost it is exact. -/
theorem C58_counter (s : Pool) (h : Reachable Pool.new s) :
    s.connected ≤ 16 ∧
    ((∀ x ∈ s.links, x.phase = .uncounted ∨ x.phase = .dropped ∨ x.phase = .gone) → s.connected ≤ 15) ∧
    (s.raced = false → s.connected =
      (s.links.filter fun x => decide (¬ (x.phase = .uncounted ∨ x.phase = .dropped ∨ x.phase = .gone))).length) := by
  have hi := inv_reachable h
  refine ⟨hi.tally.top, fun hg => ?_, fun hr => ?_⟩
  · rcases hi.tally.some_ with h | h
    · exact h
    · obtain ⟨x, hx, ht⟩ := List.countP_pos_iff.1 h
      rcases hg x hx with h | h | h <;> simp [tallied, tallies, h] at ht
  · rw [hi.counts.connected hr, ← countP_eq_length_filter']
    congr 3
    funext x
    unfold tallied
    cases x.phase <;> simp [tallies]

end Gringo.Props
