import Verif.Proofs.Dial
import Verif.Props.PoolRun
/-
C140: in which order addresses are dialled.
-/
namespace Gringo.Props
open Gringo.Spec Gringo.P2P Gringo.PoolRun Gringo.Dial

/-! ### C140 -/

/-- **C140, the part that holds.** As long as an address was never tried and is not being tried, other addresses are
dialled at most as often as there were waiting addresses in the beginning, plus how often an address came to be waiting
since then (it was added, or its connection ended), plus how many attempts left their address as if it had not been
tried (another protocol version was told). So if this no longer happens, the address is dialled once the loop has dialled
that often. What is missing: nothing bounds the other two numbers (`C140_refuted`, `C140_refuted_lost`), an address
that failed is not tried again in the meantime (`C140_failed`), and the loop may stop to dial (`C58_refuted`). -/
theorem C140_bound_partial (s s' : Pool) (h : Reachable Pool.new s) (b : String) (ds : List String) (c u : Nat)
    (hr : Run (fun s => New b s ∧ ¬ Trying b s) s ds c u s') :
    b ∉ ds ∧ ds.length ≤ waiting s.table + c + u ∧
    ((∀ a, s.loop ≠ .connecting a) → ds.length < waiting s.table + c + u) := by
  have hlt := busy_lt (inv_reachable (h.trans hr.reachable)).entries.unique hr.holds.1 hr.holds.2
  refine ⟨?_, ?_, fun hn => ?_⟩
  · clear hlt h
    induction hr with
    | here _ => exact List.not_mem_nil
    | next h hp hs hP ih =>
      rw [List.mem_append]
      rintro (hm | hm)
      · exact ih hm
      · unfold dialled at hm
        split at hm
        · rename_i a _ e
          rw [List.mem_singleton] at hm
          exact hP.2 (.inl (hm ▸ e))
        · cases hm
  · rcases run_bound h hr with ⟨h1, -⟩ | ⟨-, -, h1⟩ <;> omega
  · rcases run_bound h hr with ⟨h1, -⟩ | ⟨⟨a, i, h1, -⟩, -⟩
    · omega
    · exact absurd h1 (hn a)

/-- While one address was never tried, or is never marked as tried, an address that failed is not dialled, under any
schedule and in any order of the map. -/
theorem C140_failed (s s' : Pool) (h : Reachable Pool.new s) (a b : String) (ds : List String) (c u : Nat)
    (hr : Run (fun s => New a s ∧ Failed b s) s ds c u s') (hl : s.loop ≠ .connecting b) :
    b ∉ ds := by
  suffices hx : b ∉ ds ∧ s'.loop ≠ .connecting b from hx.1
  induction hr with
  | here _ => exact ⟨List.not_mem_nil, hl⟩
  | @next ds c u s1 s2 h1 hp hs hP ih =>
    have hu := (inv_reachable (h.trans h1.reachable)).entries.unique
    refine ⟨?_, fun he => ?_⟩
    · rw [List.mem_append]
      rintro (hm | hm)
      · exact ih.1 hm
      · unfold dialled at hm
        split at hm
        · rename_i x y e1 e2
          rw [List.mem_singleton] at hm
          subst hm
          rcases dialing_from hs e2 with e | ⟨i, e, -⟩
          · rw [e] at e1; cases e1
          · exact ih.2 e
        · cases hm
    · obtain ⟨j, hj, hf⟩ := hP.2
      obtain ⟨x, i, hx, hfi, hi⟩ := bad_from hs hu h1.holds.1 ⟨b, j, he, hj, hf⟩
      cases hs with
      | choose o1 o2 h0 h2 h3 => rw [h0] at hx; cases hx
      | _ => first | exact ih.2 he | cases he

/-- One more step. -/
theorem run_by {P : Pool → Prop} {s s' s'' : Pool} {ds d : List String} {c u x n : Nat} (h : Run P s ds c u s')
    (hp : s'.panicked = false) (hs : Step s' s'') (hP : P s'') (hd : dialled s' s'' = d)
    (hw : waiting s''.table - waiting s'.table = x) (hn : undone s' s'' = n) : Run P s (ds ++ d) (c + x) (u + n) s'' := by
  have := h.next hp hs hP
  rw [hd, hw, hn] at this
  exact this

/-- One more step that dials nothing. -/
theorem run_in {P : Pool → Prop} {s s' s'' : Pool} {ds : List String} {c u : Nat} (x n : Nat) (h : Run P s ds c u s')
    (hp : s'.panicked = false) (hs : Step s' s'') (hP : P s'') (hd : dialled s' s'' = [])
    (hw : waiting s''.table - waiting s'.table = x) (hn : undone s' s'' = n) : Run P s ds (c + x) (u + n) s'' := by
  have := run_by h hp hs hP hd hw hn
  rwa [List.append_nil] at this

/-- One more step that dials nothing and does not change the table. -/
theorem run_on {P : Pool → Prop} {s s' s'' : Pool} {ds : List String} {c u : Nat} (h : Run P s ds c u s')
    (hp : s'.panicked = false) (hs : Step s' s'') (hP : P s'') (ht : s''.table = s'.table)
    (hd : dialled s' s'' = []) (hn : undone s' s'' = 0) : Run P s ds c u s'' := by
  have := h.next hp hs hP
  rw [ht, hd, hn, List.append_nil, Nat.sub_self] at this
  exact this

/-- The loop takes a slot, chooses the first of two addresses and dials it. -/
theorem run_dials {P : Pool → Prop} {s s' : Pool} {a b : String} {i j : PeerInfo} {ds : List String} {c u : Nat}
    (h : Run P s ds c u s') (hne : a ≠ "") (hi : Waiting i)
    (ht : s'.table = [(a, i), (b, j)]) (hP : ∀ x : Pool, x.table = [(a, i), (b, j)] → (x.loop = .choosing ∨
      x.loop = .connecting a ∨ x.loop = .dialing a) → P x) (hl : s'.loop = .select) (hs : s'.slots = 0)
    (hcn : s'.connected = 0) (hc : s'.closers = []) (hp : s'.panicked = false) :
    Run P s (ds ++ [a]) c u { s' with loop := .dialing a, slots := 1 } := by
  have h1 := run_on h hp (.take s' hl (by rw [hs]; decide)) (hP _ ht (.inl rfl)) rfl
    (by unfold dialled; rw [hl]) (by unfold undone; rw [hl])
  have hch : notConnected s'.table s'.table = a := by
    have : a = ((a, i) : String × PeerInfo).1 := rfl
    unfold notConnected
    rw [ht, List.find?_cons_of_pos (by simpa [Waiting] using hi)]
  have h2 := run_on h1 hp (.choose _ s'.table s'.table rfl (.refl _) (.refl _)) (hP _ ht (.inr (.inl (by
    simp only [hch])))) rfl rfl rfl
  rw [hch] at h2
  have hf : s'.table.find a = some i := by rw [ht]; simp [Table.find, List.lookup]
  have hst : ¬ (i.status = .banned ∨ i.status = .connected) := by
    rcases hi with e | e <;> simp [e]
  have h3 := h2.next hp (.dial _ a i rfl hne (by simp only [hcn]; decide) hf (not_locked rfl hc) hst)
    (hP _ ht (.inr (.inr rfl)))
  simp only [dialled, undone, Nat.sub_self, Nat.add_zero, hs] at h3
  exact h3

/-- The pool after two addresses were added. -/
def Pool.two (a b : String) (j : PeerInfo) : Pool := { Pool.new with table := [(a, PeerInfo.fresh), (b, j)] }

theorem two_reachable {resolve : String → Option TCPAddr} (hr : ∀ a, resolve "" = some a → a.port = 0) {a b : String}
    (ha : Admissible resolve a) (hb : Admissible resolve b) (hab : a ≠ b) :
    Reachable Pool.new (Pool.two a b PeerInfo.fresh) := by
  have h := (one_reachable hr ha).next rfl (.add _ b resolve hr)
  have e : P2P.add resolve (Pool.one a PeerInfo.fresh).table b = [(a, PeerInfo.fresh), (b, PeerInfo.fresh)] :=
    (C55_add resolve [(a, PeerInfo.fresh)] b).1 ⟨hb, by simp, by simpa using Ne.symm hab⟩
  rw [e] at h
  exact h

/-- Turns of the loop in which `a` tells another version. -/
theorem other_turns {P : Pool → Prop} {a b : String} {j : PeerInfo} (hne : a ≠ "") (hab : a ≠ b)
    (hP : ∀ x : Pool, x.table = [(a, PeerInfo.fresh), (b, j)] → x.loop ≠ .connecting b → ¬ Trying b x → P x)
    (s : Pool) (ht : s.table = [(a, PeerInfo.fresh), (b, j)]) (hl : s.loop = .select) (hs : s.slots = 0)
    (hcn : s.connected = 0) (hc : s.closers = []) (hp : s.panicked = false) (hn : s.seen = none) (k : Nat) :
    ∃ s', Run P s (List.replicate k a) 0 k s' ∧ s'.table = [(a, PeerInfo.fresh), (b, j)] ∧ s'.loop = .select ∧
      s'.slots = 0 ∧ s'.connected = 0 ∧ s'.closers = [] ∧ s'.panicked = false ∧ s'.seen = none ∧
      s'.opened.length = s.opened.length + k := by
  induction k with
  | zero =>
    exact ⟨s, .here (hP s ht (by rw [hl]; simp) (by unfold Trying; rw [hl]; simp)), ht, hl, hs, hcn, hc, hp, hn, rfl⟩
  | succ k ih =>
    obtain ⟨s', h0, ht, hl, hs, hcn, hc, hp, hn, ho⟩ := ih
    have h1 := run_dials h0 hne (.inl rfl) ht (fun x hx hlx => hP x hx
      (by rcases hlx with e | e | e <;> rw [e] <;> simp [hab])
      (by unfold Trying; rcases hlx with e | e | e <;> rw [e] <;> simp [hab])) hl hs hcn hc hp
    have h2 := run_on h1 hp (.opens _ a rfl) (hP _ ht (by simp) (by simp [Trying, hab])) rfl rfl rfl
    have h3 := run_in 0 1 h2 hp (.otherVersion _ a _ ⟨0, 0, 0⟩ rfl (by decide) hn)
      (hP _ ht (by simp) (by simp [Trying])) rfl (Nat.sub_self _) (by
        simp only [undone, ht]
        simp [Table.find, List.lookup, Waiting, PeerInfo.fresh])
    have h4 := run_on h3 hp (.release _ rfl (by simp)) (hP _ ht (by simp) (by simp [Trying])) rfl rfl rfl
    have h5 := run_on h4 hp (.wake _ rfl) (hP _ ht (by simp) (by simp [Trying])) rfl rfl rfl
    rw [← List.replicate_succ'] at h5
    exact ⟨_, h5, ht, rfl, rfl, hcn, hc, hp, hn, by simp [ho]; omega⟩

/-- **C140 is false of the code.** Two addresses are added. The first one always answers with another protocol version:
then it counts as never tried and may be chosen every time, so that the other one is not dialled, however often the loop
dials. Each time the connection is left open. -/
theorem C140_refuted (resolve : String → Option TCPAddr) (hr : ∀ a, resolve "" = some a → a.port = 0) (a b : String)
    (ha : Admissible resolve a) (hb : Admissible resolve b) (hab : a ≠ b) :
    ∃ s, Reachable Pool.new s ∧ ∀ k, ∃ s', Run (fun s => New b s ∧ ¬ Trying b s) s (List.replicate k a) 0 k s' ∧
      s'.opened.length = k := by
  refine ⟨_, two_reachable hr ha hb hab, fun k => ?_⟩
  obtain ⟨s', h, -, -, -, -, -, -, -, ho⟩ := other_turns (P := fun s => New b s ∧ ¬ Trying b s) (admissible_ne hr ha)
    hab (fun x hx _ ht => ⟨⟨PeerInfo.fresh, by
      have : (b == a) = false := by simpa using Ne.symm hab
      rw [hx]; simp [Table.find, List.lookup, this], rfl⟩, ht⟩)
    (Pool.two a b PeerInfo.fresh) rfl rfl rfl rfl rfl rfl rfl k
  exact ⟨s', h, by rw [ho]; exact Nat.zero_add k⟩

/-- **An address that failed is not tried again.** Two addresses are added, and the second one does not answer. If the
first one answers with another protocol version every time, it counts as never tried, and the loop dials it for ever;
in no schedule does it dial the second one (`C140_failed`). -/
theorem C140_refuted_failed (resolve : String → Option TCPAddr) (hr : ∀ a, resolve "" = some a → a.port = 0)
    (a b : String) (ha : Admissible resolve a) (hb : Admissible resolve b) (hab : a ≠ b) :
    ∃ s, Reachable Pool.new s ∧ s.loop = .select ∧
      (∀ k, ∃ s', Run (fun s => New a s ∧ Failed b s) s (List.replicate k a) 0 k s') ∧
      ∀ ds c u s', Run (fun s => New a s ∧ Failed b s) s ds c u s' → b ∉ ds := by
  have hba : (b == a) = false := by simpa using Ne.symm hab
  have hab' : (a == b) = false := by simpa using hab
  -- `b` is dialled first and does not answer
  have h0 := two_reachable hr ha hb hab
  have h1 := h0.next rfl (.take _ rfl (by show (0 : Nat) < 15; decide))
  have hch : notConnected [(b, PeerInfo.fresh), (a, PeerInfo.fresh)] [(b, PeerInfo.fresh), (a, PeerInfo.fresh)] = b := rfl
  have h2 := h1.next rfl (.choose _ [(b, PeerInfo.fresh), (a, PeerInfo.fresh)]
    [(b, PeerInfo.fresh), (a, PeerInfo.fresh)] rfl (.swap _ _ _) (.swap _ _ _))
  rw [hch] at h2
  have hf : Table.find [(a, PeerInfo.fresh), (b, PeerInfo.fresh)] b = some PeerInfo.fresh := by
    simp [Table.find, List.lookup, hba]
  have h3 := h2.next rfl (.dial _ b PeerInfo.fresh rfl (admissible_ne hr hb) (by show (0 : Int) ≤ 15; decide) hf (not_locked rfl rfl)
    (by decide))
  have h4 := h3.next rfl (.noAnswer _ b rfl)
  have h5 := h4.next rfl (.release _ rfl (by show (0 : Nat) < 1; decide))
  have h6 := h5.next rfl (.wake _ rfl)
  have e : Table.update [(a, PeerInfo.fresh), (b, PeerInfo.fresh)] b (setStatus .failedConn) =
      [(a, PeerInfo.fresh), (b, setStatus .failedConn PeerInfo.fresh)] := by
    simp [Table.update, hab]
  obtain ⟨s, hs, ht, hl, hsl, hcn, hc, hp, hn⟩ : ∃ s, Reachable Pool.new s ∧
      s.table = [(a, PeerInfo.fresh), (b, setStatus .failedConn PeerInfo.fresh)] ∧ s.loop = .select ∧ s.slots = 0 ∧
      s.connected = 0 ∧ s.closers = [] ∧ s.panicked = false ∧ s.seen = none :=
    ⟨_, h6, e, rfl, rfl, rfl, rfl, rfl, rfl⟩
  refine ⟨s, hs, hl, fun k => ?_, fun ds c u s' hrun => C140_failed _ s' hs a b ds c u hrun (by rw [hl]; nofun)⟩
  obtain ⟨s', h, -⟩ := other_turns (P := fun s => New a s ∧ Failed b s) (j := setStatus .failedConn PeerInfo.fresh)
    (admissible_ne hr ha) hab (fun x hx _ _ => by
      refine ⟨⟨PeerInfo.fresh, ?_, rfl⟩, ⟨setStatus .failedConn PeerInfo.fresh, ?_, rfl⟩⟩
      · rw [hx]; simp [Table.find, List.lookup]
      · rw [hx]; simp [Table.find, List.lookup, hba])
    s ht hl hsl hcn hc hp hn k
  exact ⟨s', h⟩

theorem waiting_pair {a b : String} {i j : PeerInfo} :
    waiting [(a, i), (b, j)] = (if Waiting j then 1 else 0) + (if Waiting i then 1 else 0) := by
  rw [waiting_cons, waiting_cons, op_some, op_some]
  simp [waiting]

/-- **The same with peers that keep to the protocol.** The first address accepts every connection and then loses it: it
may be chosen every time. -/
theorem C140_refuted_lost (resolve : String → Option TCPAddr) (hr : ∀ a, resolve "" = some a → a.port = 0) (a b : String)
    (ha : Admissible resolve a) (hb : Admissible resolve b) (hab : a ≠ b) :
    ∃ s, Reachable Pool.new s ∧ ∀ k, ∃ s', Run (fun s => New b s ∧ ¬ Trying b s) s (List.replicate k a) k 0 s' ∧
      s'.links.length = k ∧ ∀ x ∈ s'.links, x.addr = a := by
  have hne := admissible_ne hr ha
  have hba : (b == a) = false := by simpa using Ne.symm hab
  have hP : ∀ (x : Pool) (i : PeerInfo), x.table = [(a, i), (b, PeerInfo.fresh)] → ¬ Trying b x →
      New b x ∧ ¬ Trying b x := fun x i hx ht =>
    ⟨⟨PeerInfo.fresh, by rw [hx]; simp [Table.find, List.lookup, hba], rfl⟩, ht⟩
  have hup : ∀ (i : PeerInfo) (f : PeerInfo → PeerInfo), Table.update [(a, i), (b, PeerInfo.fresh)] a f =
      [(a, f i), (b, PeerInfo.fresh)] := fun i f => by simp [Table.update, Ne.symm hab]
  suffices hk : ∀ k, ∃ s' i, Run (fun s => New b s ∧ ¬ Trying b s) (Pool.two a b PeerInfo.fresh) (List.replicate k a) k 0 s' ∧
      s'.table = [(a, i), (b, PeerInfo.fresh)] ∧ Waiting i ∧ s'.loop = .select ∧ s'.slots = 0 ∧ s'.connected = 0 ∧
      s'.closers = [] ∧ s'.panicked = false ∧ s'.seen = none ∧ s'.links.length = k ∧ ∀ x ∈ s'.links, x.addr = a by
    refine ⟨_, two_reachable hr ha hb hab, fun k => ?_⟩
    obtain ⟨s', i, h, -, -, -, -, -, -, -, -, h1, h2⟩ := hk k
    exact ⟨s', h, h1, h2⟩
  intro k
  induction k with
  | zero =>
    exact ⟨_, PeerInfo.fresh, .here (hP _ PeerInfo.fresh rfl (by simp [Trying, Pool.two, Pool.new])), rfl, .inl rfl, rfl,
      rfl, rfl, rfl, rfl, rfl, rfl, nofun⟩
  | succ k ih =>
    obtain ⟨s', i, h0, ht, hi, hl, hs, hcn, hc, hp, hn, hlen, hal⟩ := ih
    have h1 := run_dials h0 hne hi ht (fun x hx hlx => hP x i hx
      (by unfold Trying; rcases hlx with e | e | e <;> rw [e] <;> simp [hab])) hl hs hcn hc hp
    rw [← List.replicate_succ'] at h1
    have h2 := run_on h1 hp (.opens _ a rfl) (hP _ i ht (by simp [Trying, hab])) rfl rfl rfl
    have h3 := run_on h2 hp (.see _ a _ rfl hn) (hP _ i ht (by simp [Trying, hab])) rfl rfl rfl
    have e1 : s'.table.update a (registered s'.next (Time.unix 0) ⟨ProtocolVersion, 0, 0⟩) =
        [(a, registered s'.next (Time.unix 0) ⟨ProtocolVersion, 0, 0⟩ i), (b, PeerInfo.fresh)] := by rw [ht, hup]
    have h4 := run_in 0 0 h3 hp
      (.register _ a s'.next ⟨ProtocolVersion, 0, 0⟩ (Time.unix 0) 0 rfl rfl (by simp only [hcn]))
      (hP _ _ e1 (by simp [Trying])) rfl (by
        show waiting (s'.table.update a (registered s'.next (Time.unix 0) ⟨ProtocolVersion, 0, 0⟩)) - waiting s'.table = 0
        rw [e1, ht, waiting_pair, waiting_pair]
        simp [Waiting, registered, PeerInfo.fresh]) rfl
    have h5 := run_on h4 hp (.announced _ a rfl) (hP _ _ e1 (by simp [Trying])) rfl rfl rfl
    have h6 := run_on h5 hp (.wake _ rfl) (hP _ _ e1 (by simp [Trying])) rfl rfl rfl
    have h7 := run_on h6 hp (.fall _ s'.links [] ⟨s'.next, a, .up, false⟩ rfl rfl) (hP _ _ e1 (by simp [Trying])) rfl rfl rfl
    have e2 : (s'.table.update a (registered s'.next (Time.unix 0) ⟨ProtocolVersion, 0, 0⟩)).update a
          (setStatus .disconnected) =
        [(a, setStatus .disconnected (registered s'.next (Time.unix 0) ⟨ProtocolVersion, 0, 0⟩ i)),
          (b, PeerInfo.fresh)] := by rw [e1, hup]
    have h8 := run_in 1 0 h7 hp (.mark _ s'.links [] ⟨s'.next, a, .down, false⟩ rfl rfl rfl (by
        simp [Pool.locked, hc])) (hP _ _ e2 (by simp [Trying])) rfl (by
        show waiting ((s'.table.update a (registered s'.next (Time.unix 0) ⟨ProtocolVersion, 0, 0⟩)).update a
          (setStatus .disconnected)) -
          waiting (s'.table.update a (registered s'.next (Time.unix 0) ⟨ProtocolVersion, 0, 0⟩)) = 1
        rw [e2, e1, waiting_pair, waiting_pair]
        simp [Waiting, registered, setStatus, PeerInfo.fresh]) rfl
    have h9 := run_on h8 hp (.seeDown _ s'.links [] ⟨s'.next, a, .marked, false⟩ rfl rfl) (hP _ _ e2 (by simp [Trying]))
      rfl rfl rfl
    have h10 := run_on h9 hp (.count _ s'.links [] ⟨s'.next, a, .reading (0 + 1), false⟩ (0 + 1) rfl rfl) (hP _ _ e2 (by simp [Trying]))
      rfl rfl rfl
    have h11 := run_on h10 hp (.drop _ s'.links [] ⟨s'.next, a, .uncounted, false⟩ rfl rfl) (hP _ _ e2 (by simp [Trying]))
      rfl rfl rfl
    have h12 := run_on h11 hp (.free _ s'.links [] ⟨s'.next, a, .dropped, false⟩ rfl rfl (by show (0 : Nat) < 1; decide))
      (hP _ _ e2 (by simp [Trying])) rfl rfl rfl
    refine ⟨_, _, h12, e2, .inr rfl, rfl, rfl, rfl, hc, hp, rfl, by simp [hlen], fun x hx => ?_⟩
    rcases List.mem_append.1 hx with hx | hx
    · exact hal x hx
    · rw [List.mem_singleton] at hx; rw [hx]

/-- A run as in `C140_bound_partial`: two addresses are known, the first one is dialled and does not answer. The bound
is met: one of the two was dialled, and the other one is next. -/
example (a b : String) (hne : a ≠ "") (hab : a ≠ b) :
    ∃ s', Run (fun s => New b s ∧ ¬ Trying b s) (Pool.two a b PeerInfo.fresh) [a] 0 0 s' ∧ Failed a s' ∧
      [a].length < waiting (Pool.two a b PeerInfo.fresh).table ∧ waiting s'.table = 1 := by
  have hba : (b == a) = false := by simpa using Ne.symm hab
  have hP : ∀ (x : Pool) (i : PeerInfo), x.table = [(a, i), (b, PeerInfo.fresh)] → ¬ Trying b x →
      New b x ∧ ¬ Trying b x := fun x i hx ht =>
    ⟨⟨PeerInfo.fresh, by rw [hx]; simp [Table.find, List.lookup, hba], rfl⟩, ht⟩
  have h0 : Run (fun s => New b s ∧ ¬ Trying b s) (Pool.two a b PeerInfo.fresh) [] 0 0 (Pool.two a b PeerInfo.fresh) :=
    .here (hP _ PeerInfo.fresh rfl (by simp [Trying, Pool.two, Pool.new]))
  have h1 := run_dials h0 hne (.inl rfl) rfl (fun x hx hlx => hP x _ hx
    (by unfold Trying; rcases hlx with e | e | e <;> rw [e] <;> simp [hab])) rfl rfl rfl rfl rfl
  have e : Table.update [(a, PeerInfo.fresh), (b, PeerInfo.fresh)] a (setStatus .failedConn) =
      [(a, setStatus .failedConn PeerInfo.fresh), (b, PeerInfo.fresh)] := by
    simp [Table.update, Ne.symm hab]
  have h2 := run_in 0 0 h1 rfl (.noAnswer _ a rfl) (hP _ _ e (by simp [Trying])) rfl (by
    show waiting (Table.update [(a, PeerInfo.fresh), (b, PeerInfo.fresh)] a (setStatus .failedConn)) -
      waiting [(a, PeerInfo.fresh), (b, PeerInfo.fresh)] = 0
    rw [e, waiting_pair, waiting_pair]
    simp [Waiting, setStatus, PeerInfo.fresh]) rfl
  refine ⟨_, h2, ⟨setStatus .failedConn PeerInfo.fresh, ?_, rfl⟩, ?_, ?_⟩
  · show Table.find (Table.update [(a, PeerInfo.fresh), (b, PeerInfo.fresh)] a (setStatus .failedConn)) a = _
    rw [e]; simp [Table.find, List.lookup]
  · show 1 < waiting [(a, PeerInfo.fresh), (b, PeerInfo.fresh)]
    rw [waiting_pair]; simp [Waiting, PeerInfo.fresh]
  · show waiting (Table.update [(a, PeerInfo.fresh), (b, PeerInfo.fresh)] a (setStatus .failedConn)) = 1
    rw [e, waiting_pair]; simp [Waiting, setStatus, PeerInfo.fresh]

/-- Two addresses as in the theorems above. -/
example : ∃ resolve : String → Option TCPAddr, (∀ a, resolve "" = some a → a.port = 0) ∧
    Admissible resolve "10.0.0.1:13414" ∧ Admissible resolve "10.0.0.2:13414" ∧ "10.0.0.1:13414" ≠ "10.0.0.2:13414" :=
  ⟨fun s => if s = "10.0.0.1:13414" then some ⟨[10, 0, 0, 1], 13414⟩ else
      if s = "10.0.0.2:13414" then some ⟨[10, 0, 0, 2], 13414⟩ else none,
    fun a h => by simp at h, ⟨⟨[10, 0, 0, 1], 13414⟩, by simp, by decide, by simp, by simp⟩,
    ⟨⟨[10, 0, 0, 2], 13414⟩, by simp, by decide, by simp, by simp⟩, by decide⟩

end Gringo.Props
