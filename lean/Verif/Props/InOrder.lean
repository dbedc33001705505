import Verif.Props.Relay
/-
C146: in which order two blocks are passed on to a peer.
-/
namespace Gringo.Props
open Gringo.Spec Gringo.P2P Gringo.PoolRun Gringo.Relay

theorem mem_sentBy (s : State) (n : Nat) (a : String) (c : Nat) :
    (a, c) ∈ sentBy s n ↔ ∃ j ∈ s.jobs, j.call = n ∧ j.addr = a ∧ j.stage = .sent c := by
  unfold sentBy jobsOf
  rw [List.mem_filterMap]
  constructor
  · rintro ⟨j, hj, e⟩
    obtain ⟨h1, h2⟩ := List.mem_filter.1 hj
    exact ⟨j, h1, by simpa using h2, sentTo_addr e⟩
  · rintro ⟨j, hj, e1, e2, e3⟩
    exact ⟨j, List.mem_filter.2 ⟨hj, by simpa using e1⟩, by unfold sentTo; rw [e3]; simp [e2]⟩

theorem relay_trans {P : State → Prop} {s s' s'' : State} (h : RunWhile P s s') (h' : RunWhile P s' s'') :
    RunWhile P s s'' := by
  induction h' with
  | refl _ => exact h
  | step _ hs hp ih => exact ih.step hs hp

/-- **C146, the part that holds.** When all goroutines of one call of `PropagateBlock` have ended, the block of this call is
not sent to anybody any more, and the blocks of later calls have not been sent to anybody yet. What is missing: the
goroutines of a call may still run when the next one is made (`C146_refuted`). -/
theorem C146_order_partial (s s' : State) (h : Relay.Reachable s) (m : Nat) (hm : m < s.calls.length)
    (hend : ∀ j ∈ jobsOf s m, Job.Ended j) (hr : RunWhile (fun _ => True) s s') :
    sentBy s' m = sentBy s m ∧ ∀ n, s.calls.length ≤ n → sentBy s n = [] := by
  constructor
  · suffices hx : jobsOf s' m = jobsOf s m ∧ m < s'.calls.length by unfold sentBy; rw [hx.1]
    induction hr with
    | refl _ => exact ⟨rfl, hm⟩
    | @step s1 s2 _ hs _ ih =>
      obtain ⟨h1, h2⟩ := ih
      cases hs with
      | pool p hp hst => exact ⟨h1, h2⟩
      | propagate height td =>
        refine ⟨?_, by simp [State.propagate]; omega⟩
        rw [← h1]
        unfold jobsOf State.propagate
        rw [List.filter_append, List.append_right_eq_self, List.filter_eq_nil_iff]
        intro j hj
        obtain ⟨a, -, rfl⟩ := List.mem_map.1 hj
        simp; omega
      | read l r j i st hj hi hn =>
        refine ⟨?_, h2⟩
        have hne : j.call ≠ m := by
          intro e
          have : j ∈ jobsOf s m := by
            rw [← h1]
            exact List.mem_filter.2 ⟨by rw [hj]; simp, by simpa using e⟩
          unfold Job.next at hn
          rcases hend j this with ⟨c, e⟩ | e | e <;> rw [e] at hn <;> cases hn
        rw [← h1]
        unfold jobsOf
        rw [hj, List.filter_append, List.filter_append, List.filter_cons_of_neg (by simpa using hne),
          List.filter_cons_of_neg (by simpa using hne)]
  · intro n hn
    rw [List.eq_nil_iff_forall_not_mem]
    rintro ⟨a, c⟩ hac
    obtain ⟨j, hj, e, -⟩ := (mem_sentBy s n a c).1 hac
    obtain ⟨call, hc, -⟩ := (good_reachable h).call j hj
    have := (List.getElem?_eq_some_iff.1 hc).1
    omega

/-- A goroutine that finds a peer that is behind sends the block. -/
theorem sends (s : State) (l r : List Job) (j : Job) (i : PeerInfo) (c : Nat) (hj : s.jobs = l ++ j :: r)
    (hst : j.stage = .height) (hi : s.pool.table.find j.addr = some i) (hp : i.peer = some c)
    (hb : i.height.toNat < j.height.toNat) :
    RunWhile (fun _ => True) s { s with jobs := l ++ { j with stage := .sent c } :: r } := by
  have h1 : RunWhile (fun _ => True) s { s with jobs := l ++ { j with stage := .peer } :: r } :=
    .step (.refl trivial) (.read s l r j i .peer hj hi (by
      unfold Job.next; rw [hst]; simp only; rw [if_pos (UInt64.lt_iff_toNat_lt.2 hb)])) trivial
  exact .step h1 (.read _ l r { j with stage := .peer } i (.sent c) rfl hi (by unfold Job.next; simp only [hp])) trivial

/-- **C146 is false of the code.** At any time, two blocks are passed on one after the other, and a connected peer is behind
both. It may happen that the second one is handed to the connection of this peer, and after that the first one: the
goroutines of the two calls do not wait for each other. -/
theorem C146_refuted (s : State) (h : Relay.Reachable s) (addr : String) (ha : addr ∈ s.pool.online) (i : PeerInfo)
    (hi : s.pool.table.find addr = some i) (c : Nat) (hp : i.peer = some c) (h1 td1 h2 td2 : UInt64)
    (b1 : i.height.toNat < h1.toNat) (b2 : i.height.toNat < h2.toNat) :
    let n := s.calls.length
    ∃ s1 s2, RunWhile (fun _ => True) s s1 ∧
      s1.calls = s.calls ++ [⟨s.pool.online, h1, td1⟩, ⟨s.pool.online, h2, td2⟩] ∧
      sentBy s1 n = [] ∧ sentBy s1 (n + 1) = [(addr, c)] ∧
      RunWhile (fun _ => True) s1 s2 ∧ sentBy s2 n = [(addr, c)] ∧ sentBy s2 (n + 1) = [(addr, c)] := by
  intro n
  obtain ⟨l, r, hl⟩ := List.append_of_mem ha
  have hold : ∀ j ∈ s.jobs, j.call < n := fun j hj => by
    obtain ⟨call, hc, -⟩ := (good_reachable h).call j hj
    exact (List.getElem?_eq_some_iff.1 hc).1
  let A (a : String) : Job := ⟨n, a, h1, td1, .height⟩
  let B (a : String) : Job := ⟨n + 1, a, h2, td2, .height⟩
  have hjobs : ((s.propagate h1 td1).propagate h2 td2).jobs =
      (s.jobs ++ (l ++ addr :: r).map A ++ l.map B) ++ B addr :: r.map B := by
    simp [State.propagate, hl, A, B, n, List.append_assoc]
  have r1 := sends _ _ _ (B addr) i c hjobs rfl hi hp b2
  have r2 := sends { ((s.propagate h1 td1).propagate h2 td2) with
      jobs := (s.jobs ++ (l ++ addr :: r).map A ++ l.map B) ++ { B addr with stage := .sent c } :: r.map B }
    (s.jobs ++ l.map A) (r.map A ++ l.map B ++ { B addr with stage := .sent c } :: r.map B) (A addr) i c
    (by simp [List.append_assoc]) rfl hi hp b1
  have fold : ∀ (k : Nat), n ≤ k → (s.jobs.filter fun j => decide (j.call = k)) = [] := by
    intro k hk
    rw [List.filter_eq_nil_iff]
    intro j hj
    have := hold j hj
    simp; omega
  have fA : ∀ (x : List String), (x.map A).filter (fun j => decide (j.call = n)) = x.map A := by
    intro x; rw [List.filter_eq_self]; intro j hj; obtain ⟨a, -, rfl⟩ := List.mem_map.1 hj; simp [A]
  have fA' : ∀ (x : List String), (x.map A).filter (fun j => decide (j.call = n + 1)) = [] := by
    intro x; rw [List.filter_eq_nil_iff]; intro j hj; obtain ⟨a, -, rfl⟩ := List.mem_map.1 hj; simp [A]
  have fB : ∀ (x : List String), (x.map B).filter (fun j => decide (j.call = n + 1)) = x.map B := by
    intro x; rw [List.filter_eq_self]; intro j hj; obtain ⟨a, -, rfl⟩ := List.mem_map.1 hj; simp [B]
  have fB' : ∀ (x : List String), (x.map B).filter (fun j => decide (j.call = n)) = [] := by
    intro x; rw [List.filter_eq_nil_iff]; intro j hj; obtain ⟨a, -, rfl⟩ := List.mem_map.1 hj; simp [B]
  have gA : ∀ (x : List String), (x.map A).filterMap sentTo = [] := by
    intro x; rw [List.filterMap_eq_nil_iff]; intro j hj; obtain ⟨a, -, rfl⟩ := List.mem_map.1 hj; rfl
  have gB : ∀ (x : List String), (x.map B).filterMap sentTo = [] := by
    intro x; rw [List.filterMap_eq_nil_iff]; intro j hj; obtain ⟨a, -, rfl⟩ := List.mem_map.1 hj; rfl
  have r0 : RunWhile (fun _ => True) s ((s.propagate h1 td1).propagate h2 td2) :=
    .step (.step (.refl trivial) (.propagate s h1 td1) trivial) (.propagate _ h2 td2) trivial
  refine ⟨_, _, relay_trans r0 r1, by simp [State.propagate], ?_, ?_, r2, ?_, ?_⟩
  all_goals unfold sentBy jobsOf
  all_goals simp only [List.filter_append, List.filter_cons, fold n (Nat.le_refl _), fold (n + 1) (by omega), fA, fA', fB, fB',
    List.nil_append, List.append_nil, List.filterMap_append, gA, gB]
  all_goals simp [A, B, sentTo, gA, gB]

/-- Both apply to the pool with one connection: after the second block of `C146_refuted` has been sent its call has ended,
and the call before it has not. -/
example (resolve : String → Option TCPAddr) (hr : ∀ a, resolve "" = some a → a.port = 0) (addr : String)
    (ha : Admissible resolve addr) :
    ∃ s, Relay.Reachable s ∧ sentBy s 0 = [] ∧ sentBy s 1 = [(addr, 0)] ∧
      ∃ s', Relay.Reachable s' ∧ sentBy s' 0 = [(addr, 0)] ∧ sentBy s' 1 = [(addr, 0)] := by
  have lift : ∀ {p}, PoolRun.Reachable Pool.new p → Relay.Reachable { State.new with pool := p } := by
    intro p h
    induction h with
    | here => exact .refl trivial
    | next _ hp hs ih => exact .step ih (.pool _ _ hp hs) trivial
  have h0 := lift (live_reachable hr ha)
  obtain ⟨s1, s2, r1, -, e1, e2, r2, e3, e4⟩ := C146_refuted { State.new with pool := Pool.live addr } h0 addr
    (by simp [Pool.live]) _ (find_one addr _) 0 rfl 1 1 2 2 (by show (0 : Nat) < 1; decide) (by show (0 : Nat) < 2; decide)
  have h1 : Relay.Reachable s1 := relay_trans h0 r1
  exact ⟨s1, h1, e1, e2, s2, relay_trans h1 r2, e3, e4⟩

/-- A call whose only goroutine has ended: what it sent stays what it sent. -/
example (resolve : String → Option TCPAddr) (hr : ∀ a, resolve "" = some a → a.port = 0) (addr : String)
    (ha : Admissible resolve addr) :
    ∃ s, Relay.Reachable s ∧ 0 < s.calls.length ∧ sentBy s 0 = [(addr, 0)] ∧ ∀ j ∈ jobsOf s 0, Job.Ended j := by
  have lift : ∀ {p}, PoolRun.Reachable Pool.new p → Relay.Reachable { State.new with pool := p } := by
    intro p h
    induction h with
    | here => exact .refl trivial
    | next _ hp hs ih => exact .step ih (.pool _ _ hp hs) trivial
  have h0 : Relay.Reachable ({ State.new with pool := Pool.live addr }.propagate 1 1) :=
    .step (lift (live_reachable hr ha)) (.propagate _ 1 1) trivial
  have h1 := sends ({ State.new with pool := Pool.live addr }.propagate 1 1) [] [] ⟨0, addr, 1, 1, .height⟩
    (registered 0 (Time.unix 0) Told.good PeerInfo.fresh) 0 rfl rfl
    (find_one addr _) rfl (by show (0 : Nat) < 1; decide)
  refine ⟨_, relay_trans h0 h1, by simp [State.propagate], by simp [sentBy, jobsOf, sentTo], ?_⟩
  intro j hj
  simp [jobsOf] at hj
  subst hj
  exact .inl ⟨0, rfl⟩

end Gringo.Props
