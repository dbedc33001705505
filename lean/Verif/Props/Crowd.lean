import Verif.Props.Dial
import Verif.Props.Alias
/-
C143: who can take the places for connections.
-/
namespace Gringo.Props
open Gringo.Spec Gringo.P2P Gringo.PoolRun Gringo.Dial Gringo.Net

/-- There is a connection to each of the addresses that nobody has begun to close. -/
def AllUp (as : List String) (s : Pool) : Prop := ∀ a ∈ as, ∃ x ∈ s.links, x.addr = a ∧ x.phase = .up

/-- **C143, the part that holds.** If all texts in the table are written as the node itself writes addresses, then no two
connections that nobody has begun to close are with the same address and port. Texts that come in messages are written like
this (`C107_literal`). What is missing: connections that are being closed (`C78_refuted`), texts that are given to `Add`
(`C143_refuted`), and that one host may have many ports (`C143_refuted_wire`). -/
theorem C143_distinct_partial (s : Pool) (h : Reachable Pool.new s) (hl : Literal s.table) (r : Resolver) (x y : Link)
    (hx : x ∈ s.links) (hy : y ∈ s.links) (ux : x.phase = .up) (uy : y.phase = .up)
    (he : resolve r x.addr.toList = resolve r y.addr.toList) : x.conn = y.conn := by
  have hi := inv_reachable h
  by_cases hxy : x.addr = y.addr
  · exact (C78_one_connection_partial s h).1 x hx y hy ux uy hxy
  · obtain ⟨a, b, h1, h2, h3⟩ := literal_apart hl r x.addr y.addr (hi.known.links x hx) (hi.known.links y hy) hxy
    rw [h1, h2] at he
    exact absurd (Option.some.inj he) h3

theorem lookup_mid {l r : Table} {a : String} {i : PeerInfo} (h : a ∉ l.map (·.1)) :
    Table.find (l ++ (a, i) :: r) a = some i := by
  induction l with
  | nil => simp [Table.find]
  | cons e l ih =>
    rw [List.map_cons, List.mem_cons, not_or] at h
    have hb : (a == e.1) = false := by simpa using h.1
    unfold Table.find at ih ⊢
    rw [List.cons_append, List.lookup_cons, hb]
    exact ih h.2

theorem update_mid {l r : Table} {a : String} {i : PeerInfo} (f : PeerInfo → PeerInfo) (h : a ∉ l.map (·.1))
    (h' : a ∉ r.map (·.1)) : Table.update (l ++ (a, i) :: r) a f = l ++ (a, f i) :: r := by
  have hl := update_absent l a f h
  have hr := update_absent r a f h'
  unfold Table.update at hl hr ⊢
  rw [List.map_append, List.map_cons, hl, hr]
  simp

/-- The loop dials an address that was never tried, connects and goes back to `select`. -/
theorem connects_mid (s : Pool) (l r : Table) (addr : String) (i : PeerInfo) (ht : s.table = l ++ (addr, i) :: r)
    (h1 : addr ∉ l.map (·.1)) (h2 : addr ∉ r.map (·.1)) (hd : i.status = .new)
    (hne : addr ≠ "") (hl : s.loop = .select) (hs : s.slots < 15) (hcn : s.connected ≤ 15) (hc : s.closers = [])
    (hp : s.panicked = false) (hn : s.seen = none) :
    ∃ s' j, Reachable s s' ∧ s'.table = l ++ (addr, j) :: r ∧ s'.loop = .select ∧ s'.slots = s.slots + 1 ∧
      s'.connected = s.connected + 1 ∧ s'.closers = [] ∧ s'.panicked = false ∧ s'.seen = none ∧
      s'.links = s.links ++ [⟨s.next, addr, .up, false⟩] := by
  have g1 := Reachable.next (.here (start := s)) hp (.take s hl hs)
  have hperm : ((addr, i) :: (l ++ r)).Perm s.table := by rw [ht]; exact List.perm_middle.symm
  have g2 := g1.next hp (.choose _ ((addr, i) :: (l ++ r)) s.table rfl hperm (.refl _))
  have hch : notConnected ((addr, i) :: (l ++ r)) s.table = addr := by
    unfold notConnected
    rw [List.find?_cons_of_pos (by simp [hd])]
  rw [hch] at g2
  have hf : s.table.find addr = some i := by rw [ht]; exact lookup_mid h1
  have g3 := g2.next hp (.dial _ addr i rfl hne hcn hf (not_locked rfl hc) (by simp [hd]))
  have g4 := g3.next hp (.opens _ addr rfl)
  have g5 := g4.next hp (.see _ addr s.next rfl hn)
  have g6 := g5.next hp (.register _ addr s.next Told.good (Time.unix 0) s.connected rfl rfl rfl)
  have g7 := g6.next hp (.announced _ addr rfl)
  have g8 := g7.next hp (.wake _ rfl)
  have e : ∀ f, s.table.update addr f = l ++ (addr, f i) :: r := fun f => by rw [ht]; exact update_mid f h1 h2
  exact ⟨_, _, g8, e _, rfl, rfl, rfl, hc, hp, rfl, rfl⟩

/-- Addresses are added. -/
theorem added {resolve : String → Option TCPAddr} (hr : ∀ a, resolve "" = some a → a.port = 0) (as : List String)
    (ha : ∀ a ∈ as, Admissible resolve a) (hn : as.Nodup) (hl : as.length ≤ 10000) :
    Reachable Pool.new { Pool.new with table := as.map fun a => (a, PeerInfo.fresh) } := by
  induction as using List.reverseRecOn with
  | nil => exact .here
  | append_singleton as a ih =>
    rw [List.length_append, List.length_singleton] at hl
    rw [List.nodup_append] at hn
    have h := (ih (fun x hx => ha x (by simp [hx])) hn.1 (by omega)).next rfl (.add _ a resolve hr)
    have e : P2P.add resolve (as.map fun a => (a, PeerInfo.fresh)) a = (as ++ [a]).map fun a => (a, PeerInfo.fresh) := by
      rw [(C55_add resolve _ a).1 ⟨ha a (by simp), by rw [List.length_map]; omega, by
        rw [List.map_map]
        intro hm
        obtain ⟨y, hy, e⟩ := List.mem_map.1 hm
        exact hn.2.2 y hy a (by simp) e⟩]
      simp [fresh_blank]
    simp only [e] at h
    exact h

/-- Some of the added addresses are connected. -/
theorem crowd {resolve : String → Option TCPAddr} (hr : ∀ a, resolve "" = some a → a.port = 0) (as bs : List String)
    (ha : ∀ a ∈ as ++ bs, Admissible resolve a) (hn : (as ++ bs).Nodup) (hl : as.length ≤ 15)
    (hb : (as ++ bs).length ≤ 10000) :
    ∃ s, Reachable Pool.new s ∧ s.panicked = false ∧ s.loop = .select ∧ s.links.map (·.addr) = as ∧
      (∀ x ∈ s.links, x.phase = .up) ∧ s.slots = as.length ∧ ∀ b ∈ bs, New b s := by
  suffices h : ∀ (done : List String) (todo : List String), done ++ todo = as ++ bs → done.length ≤ 15 →
      ∃ s, ∃ t : Table, Reachable Pool.new s ∧ s.panicked = false ∧ s.loop = .select ∧ s.links.map (·.addr) = done ∧
        (∀ x ∈ s.links, x.phase = .up) ∧ s.slots = done.length ∧ s.connected = done.length ∧ s.closers = [] ∧
        s.seen = none ∧ s.table = t ++ todo.map (fun a => (a, PeerInfo.fresh)) ∧ t.map (·.1) = done by
    obtain ⟨s, t, h1, h2, h3, h4, h5, h6, -, -, -, h7, h8⟩ := h as bs rfl hl
    refine ⟨s, h1, h2, h3, h4, h5, h6, fun b hbm => ?_⟩
    obtain ⟨p, q, rfl⟩ := List.append_of_mem hbm
    refine ⟨PeerInfo.fresh, ?_, rfl⟩
    rw [h7, List.map_append, List.map_cons, ← List.append_assoc]
    refine lookup_mid ?_
    rw [List.map_append, h8, List.map_map]
    intro hm
    rw [List.nodup_append] at hn
    rcases List.mem_append.1 hm with hm | hm
    · exact hn.2.2 b hm b (by simp) rfl
    · obtain ⟨y, hy, e⟩ := List.mem_map.1 hm
      have hy' : y = b := e
      subst hy'
      have := hn.2.1
      rw [List.nodup_append] at this
      exact this.2.2 y hy y (by simp) rfl
  intro done
  induction done using List.reverseRecOn with
  | nil =>
    intro todo he _
    rw [List.nil_append] at he
    rw [← he] at ha hn hb
    exact ⟨_, [], added hr todo ha hn hb, rfl, rfl, rfl, nofun, rfl, rfl, rfl, rfl, rfl, rfl⟩
  | append_singleton done a ih =>
    intro todo he hlen
    rw [List.length_append, List.length_singleton] at hlen
    rw [List.append_assoc] at he
    obtain ⟨s, t, h1, h2, h3, h4, h5, h6, h7, h8, h9, h10, h11⟩ := ih ([a] ++ todo) he (by omega)
    have hnd := hn
    rw [← he, List.nodup_append] at hnd
    have hna : a ∉ t.map (·.1) := by
      rw [h11]
      intro hm
      exact hnd.2.2 a hm a (by simp) rfl
    have hnt : a ∉ (todo.map fun a => (a, PeerInfo.fresh)).map (·.1) := by
      rw [List.map_map]
      intro hm
      obtain ⟨y, hy, e⟩ := List.mem_map.1 hm
      have hy' : y = a := e
      subst hy'
      have := hnd.2.1
      rw [List.singleton_append, List.nodup_cons] at this
      exact this.1 hy
    obtain ⟨s', j, g1, g2, g3, g4, g5, g6, g7, g8, g9⟩ := connects_mid s t (todo.map fun a => (a, PeerInfo.fresh)) a
      PeerInfo.fresh (by rw [h10]; rfl) hna hnt rfl (admissible_ne hr (ha a (by rw [← he]; simp))) h3 (by omega)
      (by omega) h8 h2 h9
    refine ⟨s', t ++ [(a, j)], h1.trans g1, g7, g3, by rw [g9, List.map_append, h4]; rfl, ?_, by rw [g4, h6]; simp,
      by rw [g5, h7]; simp, g6, g8, by rw [g2]; simp, by rw [List.map_append, h11]; rfl⟩
    intro x hx
    rw [g9] at hx
    rcases List.mem_append.1 hx with hx | hx
    · exact h5 x hx
    · rw [List.mem_singleton] at hx; rw [hx]

/-- While fifteen connections are up, no address is dialled. -/
theorem full_idle {as : List String} (hn : as.Nodup) (hlen : as.length = 15) {s s' : Pool} {ds : List String} {c u : Nat}
    (h : Reachable Pool.new s) (hr : Run (AllUp as) s ds c u s') : ds = [] := by
  induction hr with
  | here _ => rfl
  | @next ds c u s1 s2 h1 hp hs hP ih =>
    rw [ih, List.nil_append]
    unfold dialled
    split
    · rename_i x a e1 e2
      exfalso
      have hi := inv_reachable (h.trans h1.reachable)
      have hc := hi.counts.slots
      have hcap := hi.counts.cap
      rw [e1] at hc
      have e15 : maxOnlineConnections = 15 := rfl
      have : 15 ≤ s1.links.countP holding := by
        have hall := h1.holds
        rw [← hlen, List.countP_eq_length_filter]
        rw [← List.length_map (f := fun x : Link => x.addr) (as := s1.links.filter holding)]
        refine (List.subperm_of_subset hn fun a ha => ?_).length_le
        obtain ⟨x, hx, rfl, hu⟩ := hall a ha
        exact List.mem_map.2 ⟨x, List.mem_filter.2 ⟨hx, by unfold holding; rw [hu]; rfl⟩, rfl⟩
      simp only [token] at hc
      omega
    · rfl

/-- Any fifteen addresses can take all places. -/
theorem taken {resolve : String → Option TCPAddr} (hr : ∀ a, resolve "" = some a → a.port = 0) (as bs : List String)
    (ha : ∀ a ∈ as ++ bs, Admissible resolve a) (hn : (as ++ bs).Nodup) (hl : as.length = 15)
    (hb : (as ++ bs).length ≤ 10000) :
    ∃ s, Reachable Pool.new s ∧ s.panicked = false ∧ s.links.map (·.addr) = as ∧ AllUp as s ∧ (∀ b ∈ bs, New b s) ∧
      ∀ ds c u s', Run (AllUp as) s ds c u s' → ds = [] := by
  obtain ⟨s, h1, h2, -, h4, h5, -, h7⟩ := crowd hr as bs ha hn (by omega) hb
  refine ⟨s, h1, h2, h4, fun a hm => ?_, h7, fun ds c u s' hrun => ?_⟩
  · rw [← h4] at hm
    obtain ⟨x, hx, e⟩ := List.mem_map.1 hm
    exact ⟨x, hx, e, h5 x hx⟩
  · exact full_idle (List.nodup_append.1 hn).1 hl h1 hrun

theorem resolve_empty (r : Resolver) (a : TCPAddr) (h : resolve r "".toList = some a) : a.port = 0 := by
  have e : "".toList = [] := rfl
  rw [e, resolve, if_pos rfl] at h
  cases h
  rfl

theorem admissible_padded (r : Resolver) (a b c d : UInt8) (port : UInt16) (hp : port ≠ 0)
    (ha : ¬ (224 ≤ a.toNat ∧ a.toNat < 240)) (k : Nat) :
    Admissible (fun s : String => resolve r s.toList) (padded a b c d port k) := by
  obtain ⟨y, hy, h⟩ := (admissible_written r id (fun _ => false) a b c d port).2 ⟨hp, ha⟩
  rw [world_resolve] at hy
  have e := resolve_padded r a b c d port 0
  rw [padded_zero, hy] at e
  cases e
  exact ⟨_, resolve_padded r a b c d port k, h⟩

/-- **C143 is false of the code.** One address and port, added under fifteen texts, can take all places: there are fifteen
connections, all with this address, and while they stay no other address is dialled, among them any that were added and
never tried. -/
theorem C143_refuted (r : Resolver) (a b c d : UInt8) (port : UInt16) (hp : port ≠ 0)
    (ha : ¬ (224 ≤ a.toNat ∧ a.toNat < 240)) (bs : List String)
    (hbs : ∀ b ∈ bs, Admissible (fun s : String => resolve r s.toList) b) (hn : bs.Nodup) (hlen : bs.length ≤ 9985)
    (hother : ∀ x ∈ bs, resolve r x.toList ≠ some ⟨mapped a b c d, port.toNat⟩) :
    ∃ s as, Reachable Pool.new s ∧ s.panicked = false ∧ s.links.map (·.addr) = as ∧ as.length = 15 ∧ AllUp as s ∧
      (∀ x ∈ as, resolve r x.toList = some ⟨mapped a b c d, port.toNat⟩) ∧ (∀ b ∈ bs, New b s) ∧
      ∀ ds c u s', Run (AllUp as) s ds c u s' → ds = [] := by
  have hres : ∀ x ∈ (List.range 15).map (padded a b c d port),
      resolve r x.toList = some ⟨mapped a b c d, port.toNat⟩ := fun x hx => by
    obtain ⟨k, -, rfl⟩ := List.mem_map.1 hx
    exact resolve_padded r a b c d port k
  obtain ⟨s, h1, h2, h3, h4, h5, h6⟩ := taken (resolve := fun s : String => resolve r s.toList) (resolve_empty r)
    ((List.range 15).map (padded a b c d port)) bs
    (fun x hx => by
      rcases List.mem_append.1 hx with hx | hx
      · obtain ⟨k, -, rfl⟩ := List.mem_map.1 hx
        exact admissible_padded r a b c d port hp ha k
      · exact hbs x hx)
    (List.nodup_append.2 ⟨List.Nodup.map (fun j k e => padded_inj e) List.nodup_range, hn,
      fun x hx y hy e => hother y hy (e ▸ hres x hx)⟩)
    (by simp) (by rw [List.length_append]; simp; omega)
  exact ⟨s, _, h1, h2, h3, by simp, h4, hres, h5, h6⟩

/-- **C143 is false of the code, also of addresses that come in messages.** One host with fifteen ports, written as the node
itself writes addresses, can take all places. -/
theorem C143_refuted_wire (r : Resolver) (a b c d : UInt8) (ports : List UInt16) (hp : ∀ p ∈ ports, p ≠ 0)
    (hpn : ports.Nodup) (hpl : ports.length = 15) (ha : ¬ (224 ≤ a.toNat ∧ a.toNat < 240)) (bs : List String)
    (hbs : ∀ b ∈ bs, Admissible (fun s : String => resolve r s.toList) b) (hn : bs.Nodup) (hlen : bs.length ≤ 9985)
    (hother : ∀ x ∈ bs, ∀ p, x ≠ written a b c d p) :
    ∃ s, Reachable Pool.new s ∧ s.panicked = false ∧ s.links.map (·.addr) = ports.map (written a b c d) ∧
      AllUp (ports.map (written a b c d)) s ∧ (∀ b ∈ bs, New b s) ∧
      ∀ ds c' u s', Run (AllUp (ports.map (written a b c d))) s ds c' u s' → ds = [] := by
  have hinj : ∀ p q, written a b c d p = written a b c d q → p = q := fun p q e => by
    have e1 := resolve_padded r a b c d p 0
    have e2 := resolve_padded r a b c d q 0
    rw [padded_zero] at e1 e2
    rw [e, e2] at e1
    have e3 := Option.some.inj e1
    simp only [TCPAddr.mk.injEq, true_and] at e3
    exact UInt16.toNat_inj.1 (Int.ofNat.inj e3).symm
  exact taken (resolve := fun s : String => resolve r s.toList) (resolve_empty r) (ports.map (written a b c d)) bs
    (fun x hx => by
      rcases List.mem_append.1 hx with hx | hx
      · obtain ⟨p, hpm, rfl⟩ := List.mem_map.1 hx
        rw [← padded_zero]
        exact admissible_padded r a b c d p (hp p hpm) ha 0
      · exact hbs x hx)
    (List.nodup_append.2 ⟨List.Nodup.map (fun p q e => hinj p q e) hpn, hn, fun x hx y hy e => by
      obtain ⟨p, -, rfl⟩ := List.mem_map.1 hx
      exact hother y hy p e.symm⟩)
    (by rw [List.length_map, hpl]) (by rw [List.length_append, List.length_map]; omega)

/-- Connections with two addresses. -/
theorem two_up {resolve : String → Option TCPAddr} (hr : ∀ a, resolve "" = some a → a.port = 0) {a b : String}
    (ha : Admissible resolve a) (hb : Admissible resolve b) (hne : a ≠ b) :
    ∃ s x y, Reachable Pool.new s ∧ s.table.map (·.1) = [a, b] ∧ x ∈ s.links ∧ y ∈ s.links ∧ x.phase = .up ∧
      y.phase = .up ∧ x.addr = a ∧ y.addr = b := by
  have h0 := added hr [a, b] (by
      intro x hx
      simp only [List.mem_cons, List.not_mem_nil, or_false] at hx
      rcases hx with rfl | rfl
      · exact ha
      · exact hb) (by simp [hne]) (by simp)
  obtain ⟨s1, i, h1, t1, l1, n1, c1, k1, p1, e1, x1⟩ := connects_mid
    { Pool.new with table := [a, b].map fun a => (a, PeerInfo.fresh) } [] [(b, PeerInfo.fresh)] a PeerInfo.fresh rfl
    (by simp) (by simpa using hne) rfl (admissible_ne hr ha) rfl (by show (0 : Nat) < 15; decide)
    (by show (0 : Int) ≤ 15; decide) rfl rfl rfl
  obtain ⟨s2, j, h2, t2, -, -, -, -, -, -, x2⟩ := connects_mid s1 [(a, i)] [] b PeerInfo.fresh t1
    (by simpa using Ne.symm hne) (by simp) rfl (admissible_ne hr hb) l1 (by rw [n1]; show (1 : Nat) < 15; decide)
    (by rw [c1]; show (0 + 1 : Int) ≤ 15; decide) k1 p1 e1
  rw [x1] at x2
  exact ⟨s2, _, _, (h0.trans h1).trans h2, by rw [t2]; rfl,
    x2 ▸ List.mem_append_left _ (List.mem_append_right _ (List.mem_singleton.2 rfl)),
    x2 ▸ List.mem_append_right _ (List.mem_singleton.2 rfl), rfl, rfl, rfl, rfl⟩

/-- `C143_distinct_partial`: connections with two ports of a host. -/
example (r : Resolver) (a b c d : UInt8) (p q : UInt16) (hp : p ≠ 0) (hq : q ≠ 0)
    (ha : ¬ (224 ≤ a.toNat ∧ a.toNat < 240)) (hne : written a b c d p ≠ written a b c d q) :
    ∃ s x y, Reachable Pool.new s ∧ Literal s.table ∧ x ∈ s.links ∧ y ∈ s.links ∧ x.phase = .up ∧
      y.phase = .up ∧ x.addr = written a b c d p ∧ y.addr = written a b c d q := by
  have h1 := admissible_padded r a b c d p hp ha 0
  have h2 := admissible_padded r a b c d q hq ha 0
  rw [padded_zero] at h1 h2
  obtain ⟨s, x, y, g1, g2, g3⟩ := two_up (resolve_empty r) h1 h2 hne
  refine ⟨s, x, y, g1, fun k hk => ?_, g3⟩
  rw [g2] at hk
  simp only [List.mem_cons, List.not_mem_nil, or_false] at hk
  rcases hk with rfl | rfl
  · exact ⟨a, b, c, d, p, rfl⟩
  · exact ⟨a, b, c, d, q, rfl⟩

example : written 10 0 0 1 13414 ≠ written 10 0 0 1 13415 := by decide

/-- `C143_refuted`: 10.0.0.2 was added too, and is not dialled. -/
example (r : Resolver) : ∃ s as, Reachable Pool.new s ∧ as.length = 15 ∧ AllUp as s ∧
    (∀ x ∈ as, resolve r x.toList = some ⟨mapped 10 0 0 1, 13414⟩) ∧ New (written 10 0 0 2 13414) s := by
  obtain ⟨s, as, h1, -, -, h2, h3, h4, h5, -⟩ := C143_refuted r 10 0 0 1 13414 (by decide) (by decide)
    [written 10 0 0 2 13414]
    (fun x hx => by
      rw [List.mem_singleton] at hx
      rw [hx, ← padded_zero]
      exact admissible_padded r 10 0 0 2 13414 (by decide) (by decide) 0)
    (by simp) (by simp) (fun x hx => by
      rw [List.mem_singleton] at hx
      rw [hx, ← padded_zero, resolve_padded]
      decide)
  exact ⟨s, as, h1, h2, h3, h4, h5 _ (by simp)⟩

/-- `C143_refuted_wire`: the ports from 1 to 15. -/
example (r : Resolver) : ∃ s as, Reachable Pool.new s ∧ s.links.map (·.addr) = as ∧ as.length = 15 ∧ AllUp as s := by
  obtain ⟨s, h1, -, h2, h3, -⟩ := C143_refuted_wire r 10 0 0 1 [1, 2, 3, 4, 5, 6, 7, 8, 9, 10, 11, 12, 13, 14, 15]
    (by decide) (by decide) rfl (by decide) [] (by simp) (by simp) (by simp) (by simp)
  exact ⟨s, _, h1, h2, by simp, h3⟩

end Gringo.Props
