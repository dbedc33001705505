import Verif.Model.Relay
import Verif.Props.PoolRun
/-
C115, C116: `PropagateBlock` and its goroutines among everything else that happens.
-/
namespace Gringo.Props
open Gringo.Spec Gringo.P2P Gringo.PoolRun Gringo.Relay

/-! ### What is said -/

/-- The goroutines of the `n`-th call. -/
def jobsOf (s : State) (n : Nat) : List Job := s.jobs.filter fun j => decide (j.call = n)

/-- The address and connection of a goroutine that has called `SendBlock`. -/
def sentTo (j : Job) : Option (String × Nat) :=
  match j.stage with
  | .sent c => some (j.addr, c)
  | _ => none

/-- Where the `n`-th call has sent its block so far. -/
def sentBy (s : State) (n : Nat) : List (String × Nat) := (jobsOf s n).filterMap sentTo

/-- A goroutine that has ended. -/
def Job.Ended (j : Job) : Prop := (∃ c, j.stage = .sent c) ∨ j.stage = .known ∨ j.stage = .noPeer

/-- The record of the address says less than this height or less than this total difficulty. -/
def Behind (addr : String) (height td : UInt64) (s : State) : Prop :=
  ∃ i, s.pool.table.find addr = some i ∧ (i.height.toNat < height.toNat ∨ i.totalDifficulty.toNat < td.toNat)

/-! ### Invariants -/

/-- Whoever was connected once has a connection in the table. -/
def Peered (p : Pool) : Prop := ∀ x ∈ p.links, ∀ i, p.table.find x.addr = some i → i.peer ≠ none

theorem peered_step {p p' : Pool} (hs : PoolRun.Step p p') (hk : PoolRun.Known p) (h : Peered p) : Peered p' := by
  intro y hy i' hi'
  rcases link_from hs hy with ⟨x, hx, -, e, -⟩ | ⟨-, -, -, hp⟩
  · rcases peer_cases hs hi' with ⟨i, hi, e'⟩ | ⟨hn, -⟩ | ⟨c, -, e', -⟩
    · rw [← e']; exact h x hx i (by rw [← e]; exact hi)
    · have := (find_isSome_iff _ _).2 (hk.links x hx)
      rw [← e, hn] at this; cases this
    · rw [e']; simp
  · rw [hp i' hi']; simp

theorem peered_reachable {p : Pool} (h : PoolRun.Reachable Pool.new p) : Peered p := by
  induction h with
  | here => exact nofun
  | next hr _ hs ih => exact peered_step hs (inv_reachable hr).known ih

/-- What is true of the goroutines at any time. -/
structure Good (s : State) : Prop where
  pool : PoolRun.Reachable Pool.new s.pool
  jobs : ∀ n call, s.calls[n]? = some call → (jobsOf s n).map (·.addr) = call.online ∧ call.online.Nodup
  call : ∀ j ∈ s.jobs, ∃ call, s.calls[j.call]? = some call ∧ j.height = call.height ∧
    j.totalDifficulty = call.totalDifficulty
  addr : ∀ j ∈ s.jobs, ∃ x ∈ s.pool.links, x.addr = j.addr
  sent : ∀ j ∈ s.jobs, ∀ c, j.stage = .sent c → ∃ x ∈ s.pool.links, x.addr = j.addr ∧ x.conn = c
  noPeer : ∀ j ∈ s.jobs, j.stage ≠ .noPeer

theorem filter_none {s : State} (h : ∀ j ∈ s.jobs, ∃ call, s.calls[j.call]? = some call) :
    jobsOf s s.calls.length = [] := by
  unfold jobsOf
  rw [List.filter_eq_nil_iff]
  intro j hj
  obtain ⟨call, hc⟩ := h j hj
  have := (List.getElem?_eq_some_iff.1 hc).1
  simp; omega

theorem mem_moved {l r : List Job} {j k : Job} {st : Stage} (h : k ∈ l ++ { j with stage := st } :: r) :
    k = { j with stage := st } ∨ k ∈ l ++ j :: r := by
  rcases List.mem_append.1 h with h | h
  · exact .inr (by simp [h])
  rcases List.mem_cons.1 h with h | h
  · exact .inl h
  · exact .inr (by simp [h])

theorem good_step {s s' : State} (hs : Relay.Step s s') (h : Good s) : Good s' := by
  obtain ⟨hp, hj, hc, ha, hsn, hn⟩ := h
  cases hs with
  | pool p hnp hs =>
    have stays : ∀ {x}, x ∈ s.pool.links → ∃ y ∈ p.links, y.conn = x.conn ∧ y.addr = x.addr := fun hx => by
      obtain ⟨y, hy, h1, h2, -⟩ := link_stays hs hx
      exact ⟨y, hy, h1, h2⟩
    refine ⟨hp.next hnp hs, hj, hc, fun j hj' => ?_, fun j hj' c hst => ?_, hn⟩
    · obtain ⟨x, hx, e⟩ := ha j hj'
      obtain ⟨y, hy, -, e'⟩ := stays hx
      exact ⟨y, hy, e'.trans e⟩
    · obtain ⟨x, hx, e, e2⟩ := hsn j hj' c hst
      obtain ⟨y, hy, f, f'⟩ := stays hx
      exact ⟨y, hy, f'.trans e, f.trans e2⟩
  | propagate height td =>
    have hi := inv_reachable hp
    have hnew : ∀ {j}, j ∈ (s.propagate height td).jobs → j ∈ s.jobs ∨
        ∃ a ∈ s.pool.online, j = ⟨s.calls.length, a, height, td, .height⟩ := by
      intro j hj
      rcases List.mem_append.1 hj with h | h
      · exact .inl h
      · obtain ⟨a, ha, e⟩ := List.mem_map.1 h
        exact .inr ⟨a, ha, e.symm⟩
    refine ⟨hp, fun n call hcall => ?_, fun j hj' => ?_, fun j hj' => ?_, fun j hj' c hst => ?_, fun j hj' => ?_⟩
    · have hsplit : jobsOf (s.propagate height td) n = jobsOf s n ++
          (s.pool.online.map fun a => (⟨s.calls.length, a, height, td, .height⟩ : Job)).filter
            fun j => decide (j.call = n) := by
        simp [jobsOf, State.propagate, List.filter_append]
      rcases Nat.lt_trichotomy n s.calls.length with hlt | he | hgt
      · have hcall' : s.calls[n]? = some call := by
          simpa [State.propagate, List.getElem?_append_left hlt] using hcall
        have : (s.pool.online.map fun a => (⟨s.calls.length, a, height, td, .height⟩ : Job)).filter
            (fun j => decide (j.call = n)) = [] := by
          rw [List.filter_eq_nil_iff]
          intro j hj
          obtain ⟨a, -, rfl⟩ := List.mem_map.1 hj
          simp; omega
        rw [hsplit, this, List.append_nil]
        exact hj n call hcall'
      · subst he
        have hcall' : call = ⟨s.pool.online, height, td⟩ := by
          simp [State.propagate] at hcall
          exact hcall.symm
        subst hcall'
        have h0 : jobsOf s s.calls.length = [] := filter_none fun j hj => by
          obtain ⟨call, h, -⟩ := hc j hj
          exact ⟨call, h⟩
        have : (s.pool.online.map fun a => (⟨s.calls.length, a, height, td, .height⟩ : Job)).filter
            (fun j => decide (j.call = s.calls.length)) =
            s.pool.online.map fun a => (⟨s.calls.length, a, height, td, .height⟩ : Job) := by
          rw [List.filter_eq_self]
          intro j hj
          obtain ⟨a, -, rfl⟩ := List.mem_map.1 hj
          simp
        rw [hsplit, h0, this, List.nil_append, List.map_map]
        exact ⟨by simp [Function.comp_def], hi.online.nodup⟩
      · have : (s.propagate height td).calls[n]? = none := by
          rw [List.getElem?_eq_none]; simp [State.propagate]; omega
        rw [this] at hcall; cases hcall
    · rcases hnew hj' with h | ⟨a, -, rfl⟩
      · obtain ⟨call, h1, h2⟩ := hc j h
        refine ⟨call, ?_, h2⟩
        have := (List.getElem?_eq_some_iff.1 h1).1
        simpa [State.propagate, List.getElem?_append_left this] using h1
      · exact ⟨⟨s.pool.online, height, td⟩, by simp [State.propagate], rfl, rfl⟩
    · rcases hnew hj' with h | ⟨a, ha', rfl⟩
      · exact ha j h
      · obtain ⟨x, hx, e, -⟩ := hi.online.sub a ha'
        exact ⟨x, hx, e⟩
    · rcases hnew hj' with h | ⟨a, -, rfl⟩
      · exact hsn j h c hst
      · cases hst
    · rcases hnew hj' with h | ⟨a, -, rfl⟩
      · exact hn j h
      · simp
  | read l r j i st hj' hi hnx =>
    have hjm : j ∈ s.jobs := by rw [hj']; simp
    have old : ∀ {k}, k ∈ l ++ { j with stage := st } :: r → k = { j with stage := st } ∨ k ∈ s.jobs := fun h => by
      rw [hj']; exact mem_moved h
    have hst : (∀ c, st = .sent c → i.peer = some c) ∧ (st = .noPeer → i.peer = none) := by
      unfold Job.next at hnx
      constructor
      · rintro c rfl
        cases hs : j.stage <;> rw [hs] at hnx <;> simp only [Option.some.injEq] at hnx
        · split at hnx <;> cases hnx
        · split at hnx <;> cases hnx
        · split at hnx <;> simp at hnx
          subst hnx; assumption
        all_goals cases hnx
      · rintro rfl
        cases hs : j.stage <;> rw [hs] at hnx <;> simp only [Option.some.injEq] at hnx
        · split at hnx <;> cases hnx
        · split at hnx <;> cases hnx
        · split at hnx <;> simp at hnx
          assumption
        all_goals cases hnx
    refine ⟨hp, fun n call hcall => ?_, fun k hk => ?_, fun k hk => ?_, fun k hk c hs => ?_, fun k hk => ?_⟩
    · have := hj n call hcall
      refine ⟨?_, this.2⟩
      rw [← this.1]
      unfold jobsOf
      simp only [hj', List.filter_append, List.filter_cons, List.map_append]
      by_cases e : j.call = n <;> simp [e]
    · rcases old hk with rfl | h
      · exact hc j hjm
      · exact hc k h
    · rcases old hk with rfl | h
      · exact ha j hjm
      · exact ha k h
    · rcases old hk with rfl | h
      · obtain ⟨x, hx, h1, h2⟩ := (inv_reachable hp).entries.peer j.addr i c hi (hst.1 c hs)
        exact ⟨x, hx, h2, h1⟩
      · exact hsn k h c hs
    · rcases old hk with rfl | h
      · intro e
        obtain ⟨x, hx, e'⟩ := ha j hjm
        exact peered_reachable hp x hx i (by rw [e']; exact hi) (hst.2 e)
      · exact hn k h

theorem good_new : Good State.new :=
  ⟨.here, by simp [State.new], by simp [State.new], by simp [State.new], by simp [State.new], by simp [State.new]⟩

theorem good_reachable {s : State} (h : Relay.Reachable s) : Good s := by
  unfold Relay.Reachable at h
  generalize hs0 : State.new = s0 at h
  induction h with
  | refl => subst hs0; exact good_new
  | step _ hs _ ih => exact good_step hs ih

/-! ### C115 -/

theorem sentTo_addr {j : Job} {a : String} {c : Nat} (h : sentTo j = some (a, c)) : j.addr = a ∧ j.stage = .sent c := by
  unfold sentTo at h
  split at h <;> simp_all

theorem sent_sublist (l : List Job) : ((l.filterMap sentTo).map (·.1)).Sublist (l.map (·.addr)) := by
  induction l with
  | nil => simp
  | cons j l ih =>
    cases h : sentTo j with
    | none => rw [List.filterMap_cons_none h]; exact ih.cons _
    | some p =>
      obtain ⟨a, c⟩ := p
      rw [List.filterMap_cons_some h]
      simp only [List.map_cons, (sentTo_addr h).1]
      exact ih.cons_cons _

/-- **C115, where a block goes.** Whatever else has happened in between: one call of `PropagateBlock` has called
`SendBlock` for no address that was not connected when it was called, for no address twice, on no connection twice, and
only on connections made by dialling the address. -/
theorem C115_once (s : State) (h : Relay.Reachable s) (n : Nat) (call : Call) (hn : s.calls[n]? = some call) :
    ((sentBy s n).map (·.1)).Nodup ∧ ((sentBy s n).map (·.2)).Nodup ∧
    ∀ a c, (a, c) ∈ sentBy s n → a ∈ call.online ∧ ∃ x ∈ s.pool.links, x.addr = a ∧ x.conn = c := by
  have g := good_reachable h
  obtain ⟨h1, h2⟩ := g.jobs n call hn
  have hsub : ((sentBy s n).map (·.1)).Sublist call.online := by rw [← h1]; exact sent_sublist _
  have hmem : ∀ a c, (a, c) ∈ sentBy s n → a ∈ call.online ∧ ∃ x ∈ s.pool.links, x.addr = a ∧ x.conn = c := by
    intro a c hm
    refine ⟨hsub.subset (List.mem_map.2 ⟨_, hm, rfl⟩), ?_⟩
    obtain ⟨j, hj, e⟩ := List.mem_filterMap.1 hm
    obtain ⟨rfl, e2⟩ := sentTo_addr e
    exact g.sent j (List.mem_of_mem_filter hj) c e2
  refine ⟨hsub.nodup h2, ?_, hmem⟩
  refine (List.Nodup.of_map _ (hsub.nodup h2)).map_on ?_
  rintro ⟨a, c⟩ ha ⟨b, d⟩ hb e
  simp only at e
  subst e
  obtain ⟨-, x, hx, x1, x2⟩ := hmem _ _ ha
  obtain ⟨-, y, hy, y1, y2⟩ := hmem _ _ hb
  have : x = y := List.inj_on_of_nodup_map (inv_reachable g.pool).conns.nodup hx hy (x2.trans y2.symm)
  subst this
  rw [← x1, y1]

/-- **C115, it gets done.** There is exactly one goroutine for every address that was connected; at any time it has
called `SendBlock`, or it has found the peer to have the block or a better one, or it can go on, whatever the rest of
the node does: it needs no lock. It ends after at most three reads and always finds a connection. -/
theorem C115_done (s : State) (h : Relay.Reachable s) (n : Nat) (call : Call) (hn : s.calls[n]? = some call) :
    (jobsOf s n).map (·.addr) = call.online ∧
    ∀ j ∈ jobsOf s n, j.height = call.height ∧ j.totalDifficulty = call.totalDifficulty ∧
      ((∃ c, j.stage = .sent c) ∨ j.stage = .known ∨
        ∃ l r st, s.jobs = l ++ j :: r ∧ Relay.Step s { s with jobs := l ++ { j with stage := st } :: r } ∧
          ((j.stage = .height ∧ (st = .weight ∨ st = .peer)) ∨ (j.stage = .weight ∧ (st = .peer ∨ st = .known)) ∨
            (j.stage = .peer ∧ ∃ c, st = .sent c))) := by
  have g := good_reachable h
  refine ⟨(g.jobs n call hn).1, fun j hj => ?_⟩
  have hjm := List.mem_of_mem_filter hj
  have hjn : j.call = n := by simpa using (List.mem_filter.1 hj).2
  obtain ⟨call', hc, h1, h2⟩ := g.call j hjm
  rw [hjn, hn] at hc
  cases hc
  refine ⟨h1, h2, ?_⟩
  obtain ⟨x, hx, e⟩ := g.addr j hjm
  have hk := (find_isSome_iff _ _).2 ((inv_reachable g.pool).known.links x hx)
  rw [e] at hk
  obtain ⟨i, hi⟩ := Option.isSome_iff_exists.1 hk
  have hp := peered_reachable g.pool x hx i (by rw [e]; exact hi)
  obtain ⟨l, r, hl⟩ := List.append_of_mem hjm
  cases hs : j.stage with
  | sent c => exact .inl ⟨c, rfl⟩
  | known => exact .inr (.inl rfl)
  | noPeer => exact absurd hs (g.noPeer j hjm)
  | height =>
    refine .inr (.inr ⟨l, r, _, hl, .read s l r j i _ hl hi (by unfold Job.next; rw [hs]), .inl ⟨rfl, ?_⟩⟩)
    split
    · exact .inr rfl
    · exact .inl rfl
  | weight =>
    refine .inr (.inr ⟨l, r, _, hl, .read s l r j i _ hl hi (by unfold Job.next; rw [hs]), .inr (.inl ⟨rfl, ?_⟩)⟩)
    split
    · exact .inl rfl
    · exact .inr rfl
  | peer =>
    obtain ⟨c, hc⟩ := Option.ne_none_iff_exists'.1 hp
    exact .inr (.inr ⟨l, r, .sent c, hl, .read s l r j i _ hl hi (by unfold Job.next; rw [hs]; simp [hc]),
      .inr (.inr ⟨rfl, c, rfl⟩)⟩)

/-! ### The goroutines running at once -/

/-- The state of a goroutine agrees with the table. -/
def Agrees (t : Table) (j : Job) : Prop :=
  ∃ i, t.find j.addr = some i ∧
    match j.stage with
    | .height => True
    | .weight => ¬ i.height < j.height
    | .peer => i.height < j.height ∨ i.totalDifficulty < j.totalDifficulty
    | .sent c => (i.height < j.height ∨ i.totalDifficulty < j.totalDifficulty) ∧ i.peer = some c
    | .known => ¬ (i.height < j.height ∨ i.totalDifficulty < j.totalDifficulty)
    | .noPeer => i.peer = none

/-- Only goroutines of `PropagateBlock` run. -/
inductive Reads : State → State → Prop
  | refl (s : State) : Reads s s
  | read {s s' : State} (l r : List Job) (j : Job) (i : PeerInfo) (st : Stage) (h : Reads s s')
      (hj : s'.jobs = l ++ j :: r) (hi : s'.pool.table.find j.addr = some i) (hn : j.next i = some st) :
      Reads s { s' with jobs := l ++ { j with stage := st } :: r }

theorem agrees_next {t : Table} {j : Job} {i : PeerInfo} {st : Stage} (h : Agrees t j) (hi : t.find j.addr = some i)
    (hn : j.next i = some st) : Agrees t { j with stage := st } := by
  obtain ⟨i', hi', h⟩ := h
  rw [hi] at hi'
  cases hi'
  refine ⟨i, hi, ?_⟩
  unfold Job.next at hn
  cases hs : j.stage <;> rw [hs] at hn h <;> simp only [Option.some.injEq] at hn
  · subst hn
    by_cases h' : i.height < j.height
    · simp only [h', if_true]; exact .inl trivial
    · simp only [h', if_false]; exact fun h => h
  · subst hn
    by_cases h' : i.totalDifficulty < j.totalDifficulty
    · simp [h']
    · simp only [h', if_false]; simp_all
  · cases hp : i.peer with
    | none => rw [hp] at hn; simp only [Option.some.injEq] at hn; subst hn; exact rfl
    | some c => rw [hp] at hn; simp only [Option.some.injEq] at hn; subst hn; exact ⟨h, rfl⟩
  all_goals cases hn

theorem reads_facts {s s' : State} (h : Reads s s') : s'.pool = s.pool ∧ s'.calls = s.calls ∧
    s'.jobs.map (fun j => (j.call, j.addr, j.height, j.totalDifficulty)) =
      s.jobs.map (fun j => (j.call, j.addr, j.height, j.totalDifficulty)) ∧
    ∀ n, (∀ j ∈ jobsOf s n, Agrees s.pool.table j) → ∀ j ∈ jobsOf s' n, Agrees s.pool.table j := by
  induction h with
  | refl => exact ⟨rfl, rfl, rfl, fun _ h => h⟩
  | read l r j i st _ hj hi hn ih =>
    obtain ⟨h1, h2, h3, h4⟩ := ih
    refine ⟨h1, h2, ?_, ?_⟩
    · rw [← h3, hj]; simp
    · intro n hall k hk
      have hall' := h4 n hall
      obtain ⟨hk1, hk2⟩ := List.mem_filter.1 hk
      rcases mem_moved hk1 with rfl | hk1
      · refine agrees_next (hall' j (List.mem_filter.2 ⟨by rw [hj]; simp, hk2⟩)) (by rw [← h1]; exact hi) hn
      · exact hall' k (List.mem_filter.2 ⟨by rw [hj]; exact hk1, hk2⟩)

/-- **The link to C62.** When nothing else happens before its goroutines have ended, a call sends the block exactly to the
targets of C62. -/
theorem C115_at_once (s s' : State) (h : Relay.Reachable s) (height td : UInt64)
    (hr : Reads (s.propagate height td) s') (hend : ∀ j ∈ jobsOf s' s.calls.length, Job.Ended j) :
    sentBy s' s.calls.length = relayTargets s.pool.table s.pool.online height td := by
  have g := good_reachable h
  have g' := good_step (.propagate s height td) g
  obtain ⟨f1, f2, f3, f4⟩ := reads_facts hr
  have hcall : (s.propagate height td).calls[s.calls.length]? = some ⟨s.pool.online, height, td⟩ := by
    simp [State.propagate]
  have hmap : ((jobsOf s' s.calls.length).map (fun j => (j.call, j.addr, j.height, j.totalDifficulty))) =
      (jobsOf (s.propagate height td) s.calls.length).map (fun j => (j.call, j.addr, j.height, j.totalDifficulty)) := by
    have e : ∀ l : List Job, (l.filter fun j => decide (j.call = s.calls.length)).map
        (fun j => (j.call, j.addr, j.height, j.totalDifficulty)) =
        (l.map (fun j => (j.call, j.addr, j.height, j.totalDifficulty))).filter
          fun q => decide (q.1 = s.calls.length) := by
      intro l
      rw [List.filter_map]
      rfl
    unfold jobsOf
    rw [e, e, f3]
  have hnewjobs : jobsOf (s.propagate height td) s.calls.length =
      s.pool.online.map fun a => (⟨s.calls.length, a, height, td, .height⟩ : Job) := by
    have h0 : jobsOf s s.calls.length = [] := filter_none fun j hj => by
      obtain ⟨call, h, -⟩ := g.call j hj
      exact ⟨call, h⟩
    have h1 : (s.pool.online.map fun a => (⟨s.calls.length, a, height, td, .height⟩ : Job)).filter
        (fun j => decide (j.call = s.calls.length)) =
        s.pool.online.map fun a => (⟨s.calls.length, a, height, td, .height⟩ : Job) := by
      rw [List.filter_eq_self]
      intro j hj
      obtain ⟨a, -, rfl⟩ := List.mem_map.1 hj
      simp
    unfold jobsOf at h0 ⊢
    simp only [State.propagate, List.filter_append, h0, List.nil_append]
    exact h1
  have hag : ∀ j ∈ jobsOf s' s.calls.length, Agrees s.pool.table j := by
    refine f4 _ ?_
    intro j hj
    rw [hnewjobs] at hj
    obtain ⟨a, ha, rfl⟩ := List.mem_map.1 hj
    obtain ⟨x, hx, e, -⟩ := (inv_reachable g.pool).online.sub a ha
    have hk := (find_isSome_iff _ _).2 ((inv_reachable g.pool).known.links x hx)
    rw [e] at hk
    obtain ⟨i, hi⟩ := Option.isSome_iff_exists.1 hk
    exact ⟨i, hi, trivial⟩
  rw [hnewjobs, List.map_map] at hmap
  unfold sentBy relayTargets
  generalize jobsOf s' s.calls.length = L at hmap hag hend
  generalize s.pool.online = on at hmap
  generalize s.calls.length = n at hmap
  clear hnewjobs hcall f4 f3
  induction on generalizing L with
  | nil =>
    cases L with
    | nil => rfl
    | cons => simp at hmap
  | cons a on ih =>
    cases L with
    | nil => simp at hmap
    | cons j L =>
      simp only [List.map_cons, Function.comp_apply, List.cons.injEq, Prod.mk.injEq] at hmap
      obtain ⟨⟨-, rfl, rfl, rfl⟩, hmap⟩ := hmap
      have hrest := ih L (fun k hk => hag k (by simp [hk])) (fun k hk => hend k (by simp [hk])) hmap
      obtain ⟨i, hi, hst⟩ := hag j (by simp)
      have hsame : sentTo j = if i.height < j.height ∨ i.totalDifficulty < j.totalDifficulty then
          i.peer.map (j.addr, ·) else none := by
        unfold sentTo
        rcases hend j (by simp) with ⟨c, e⟩ | e | e <;> rw [e] at hst ⊢
        · simp only [hst.1, if_true, hst.2, Option.map_some]
        · simp only [hst, if_false]
        · have hst' : i.peer = none := hst
          simp [hst']
      simp only [List.filterMap_cons, hi, hsame, hrest]

/-- A block relayed right away in the pool with one connection, and a goroutine that has not run yet. -/
example (resolve : String → Option TCPAddr) (hr : ∀ a, resolve "" = some a → a.port = 0) (addr : String)
    (ha : Admissible resolve addr) :
    ∃ s : State, Relay.Reachable s ∧ s.pool = Pool.live addr ∧
      (s.propagate 1 1).jobs = [⟨0, addr, 1, 1, .height⟩] ∧
      Reads (s.propagate 1 1) { s.propagate 1 1 with jobs := [⟨0, addr, 1, 1, .sent 0⟩] } := by
  have lift : ∀ {p}, PoolRun.Reachable Pool.new p → Relay.Reachable { State.new with pool := p } := by
    intro p h
    induction h with
    | here => exact .refl trivial
    | next _ hp hs ih => exact .step ih (.pool _ _ hp hs) trivial
  refine ⟨_, lift (live_reachable hr ha), rfl, rfl, ?_⟩
  have h1 := Reads.read [] [] ⟨0, addr, 1, 1, .height⟩ _ .peer
    (.refl ({ State.new with pool := Pool.live addr }.propagate 1 1)) rfl (find_one addr _) rfl
  have h2 := Reads.read [] [] ⟨0, addr, 1, 1, .peer⟩ _ (.sent 0) h1 rfl (find_one addr _) rfl
  exact h2

/-! ### C116 -/

/-- **C116, the part that holds.** If from the call on the height in the record of an address stays below that of the
block, or the total difficulty does, then the goroutine for that address does not leave the address out. -/
theorem C116_stays_behind_partial (s s' : State) (h : Relay.Reachable s) (height td : UInt64) (addr : String)
    (P : State → Prop)
    (hP : (∀ t, P t → ∀ i, t.pool.table.find addr = some i → i.height.toNat < height.toNat) ∨
      (∀ t, P t → ∀ i, t.pool.table.find addr = some i → i.totalDifficulty.toNat < td.toNat))
    (hr : RunWhile P (s.propagate height td) s') :
    ∀ j ∈ jobsOf s' s.calls.length, j.addr = addr → j.stage ≠ .known := by
  have g := good_reachable h
  have key : P s' ∧ s.calls.length < s'.calls.length ∧ Good s' ∧ s'.calls[s.calls.length]? = some ⟨s.pool.online, height, td⟩ ∧
      ∀ j ∈ jobsOf s' s.calls.length, j.addr = addr → j.stage ≠ .known ∧
        (j.stage = .weight → ∀ t, P t → ∀ i, t.pool.table.find addr = some i → i.totalDifficulty.toNat < td.toNat) := by
    generalize hs0 : s.propagate height td = s0 at hr
    induction hr with
    | refl hp =>
      subst hs0
      refine ⟨hp, by simp [State.propagate], good_step (.propagate s height td) g, by simp [State.propagate], ?_⟩
      intro j hj _
      obtain ⟨hj, hn⟩ := List.mem_filter.1 hj
      rcases List.mem_append.1 hj with hj | hj
      · obtain ⟨call, hc, -⟩ := g.call j hj
        have := (List.getElem?_eq_some_iff.1 hc).1
        simp at hn; omega
      · obtain ⟨a, -, rfl⟩ := List.mem_map.1 hj
        simp
    | @step s1 s2 _ hs hp ih =>
      obtain ⟨i1, i2, i3, i4, i5⟩ := ih
      refine ⟨hp, ?_⟩
      cases hs with
      | pool p hnp hs => exact ⟨i2, good_step (.pool _ p hnp hs) i3, i4, i5⟩
      | propagate h' t' =>
        refine ⟨by simp [State.propagate]; omega, good_step (.propagate _ h' t') i3, ?_, ?_⟩
        · simpa [State.propagate, List.getElem?_append_left i2] using i4
        · intro j hj
          obtain ⟨hj, hn⟩ := List.mem_filter.1 hj
          rcases List.mem_append.1 hj with hj | hj
          · exact i5 j (List.mem_filter.2 ⟨hj, hn⟩)
          · obtain ⟨a, -, rfl⟩ := List.mem_map.1 hj
            simp at hn; omega
      | read l r j i st hj hi hn =>
        refine ⟨i2, good_step (.read _ l r j i st hj hi hn) i3, i4, ?_⟩
        intro k hk hka
        obtain ⟨hk, hkn⟩ := List.mem_filter.1 hk
        rcases mem_moved hk with rfl | hk
        · have hjm : j ∈ jobsOf s1 s.calls.length := List.mem_filter.2 ⟨by rw [hj]; simp, hkn⟩
          have hja : j.addr = addr := hka
          obtain ⟨call, hc, e1, e2⟩ := i3.call j (List.mem_of_mem_filter hjm)
          have hjn : j.call = s.calls.length := by simpa using hkn
          rw [hjn, i4] at hc
          cases hc
          obtain ⟨j1, j2⟩ := i5 j hjm hja
          rw [hja] at hi
          unfold Job.next at hn
          cases hst : j.stage <;> rw [hst] at hn <;> simp only [Option.some.injEq] at hn
          · subst hn
            by_cases hlt : i.height < j.height
            · simp [hlt]
            · simp only [hlt, if_false]
              refine ⟨by simp, fun _ => ?_⟩
              rcases hP with hP | hP
              · refine absurd ?_ hlt
                rw [e1]
                exact UInt64.lt_iff_toNat_lt.2 (hP _ i1 i hi)
              · exact hP
          · subst hn
            have : i.totalDifficulty < j.totalDifficulty := by
              rw [e2]
              exact UInt64.lt_iff_toNat_lt.2 (j2 hst _ i1 i hi)
            simp [this]
          · cases hp : i.peer <;> rw [hp] at hn <;> simp only [Option.some.injEq] at hn <;> subst hn <;> simp
          all_goals cases hn
        · exact i5 k (List.mem_filter.2 ⟨by rw [hj]; exact hk, hkn⟩) hka
  exact fun j hj ha => (key.2.2.2.2 j hj ha).1

/-- **C116 is false of the code.** The goroutine looks at height and total difficulty one after the other and takes no
lock. In every state with a connection, a peer that tells its height and difficulty twice while the block is relayed can
be left out although its record is behind the block all the time. -/
theorem C116_refuted (s : State) (h : Relay.Reachable s) (hnp : s.pool.panicked = false) (x : Link)
    (hx : x ∈ s.pool.links) (hup : x.phase = .up) (hon : x.addr ∈ s.pool.online) (hl : ¬ s.pool.locked x.addr)
    (height td : UInt64) (hh : 0 < height.toNat) (ht : 0 < td.toNat) :
    ∃ s1 s2, RunWhile (fun _ => True) s s1 ∧ s1.calls = s.calls ∧ x.addr ∈ s1.pool.online ∧
      RunWhile (Behind x.addr height td) (s1.propagate height td) s2 ∧
      ∃ j ∈ jobsOf s2 s.calls.length, j.addr = x.addr ∧ j.stage = .known := by
  have g := good_reachable h
  have hk := (find_isSome_iff _ _).2 ((inv_reachable g.pool).known.links x hx)
  obtain ⟨i, hi⟩ := Option.isSome_iff_exists.1 hk
  obtain ⟨l, r, hlr⟩ := List.append_of_mem hx
  -- the peer tells a large height and no difficulty
  let p1 : Pool := { s.pool with links := l ++ { x with waiting := true } :: r }
  have st1 : PoolRun.Step s.pool p1 := .want s.pool l r x hlr (.inl hup)
  let p2 : Pool := { p1 with
    links := l ++ { x with waiting := false } :: r
    table := s.pool.table.update x.addr fun i => { i with totalDifficulty := 0, height := height } }
  have st2 : PoolRun.Step p1 p2 := .record p1 l r { x with waiting := true } 0 height rfl rfl hl
  let s1 : State := { s with pool := p2 }
  have r1 : RunWhile (fun _ => True) s s1 :=
    .step (.step (.refl trivial) (.pool s p1 hnp st1) trivial) (.pool { s with pool := p1 } p2 hnp st2) trivial
  let i1 : PeerInfo := { i with totalDifficulty := 0, height := height }
  have f1 : p2.table.find x.addr = some i1 := by
    simp only [p2, find_update, if_pos, hi]; rfl
  -- the block is relayed; the height is read
  obtain ⟨A, B, hAB⟩ := List.append_of_mem (show x.addr ∈ p2.online from hon)
  let J : String → Job := fun a => ⟨s.calls.length, a, height, td, .height⟩
  have hjobs : (s1.propagate height td).jobs = (s.jobs ++ A.map J) ++ J x.addr :: B.map J := by
    show s.jobs ++ p2.online.map J = _
    rw [hAB]; simp
  have b0 : Behind x.addr height td (s1.propagate height td) := ⟨i1, f1, .inr (by simpa [i1] using ht)⟩
  let s2 : State := { s1.propagate height td with
    jobs := (s.jobs ++ A.map J) ++ { J x.addr with stage := .weight } :: B.map J }
  have r2 : Relay.Step (s1.propagate height td) s2 :=
    .read _ _ _ (J x.addr) i1 .weight hjobs f1 (by simp [Job.next, J, i1])
  have b2 : Behind x.addr height td s2 := ⟨i1, f1, .inr (by simpa [i1] using ht)⟩
  -- the peer tells no height and a large difficulty
  let p3 : Pool := { p2 with links := l ++ { x with waiting := true } :: r }
  have st3 : PoolRun.Step p2 p3 := .want p2 l r { x with waiting := false } rfl (.inl hup)
  let p4 : Pool := { p3 with
    links := l ++ { x with waiting := false } :: r
    table := p2.table.update x.addr fun i => { i with totalDifficulty := td, height := 0 } }
  have st4 : PoolRun.Step p3 p4 := .record p3 l r { x with waiting := true } td 0 rfl rfl hl
  let i2 : PeerInfo := { i1 with totalDifficulty := td, height := 0 }
  have f2 : p4.table.find x.addr = some i2 := by
    simp only [p4, find_update, if_pos, f1]; rfl
  let s3 : State := { s2 with pool := p3 }
  let s4 : State := { s2 with pool := p4 }
  let s5 : State := { s4 with jobs := (s.jobs ++ A.map J) ++ { J x.addr with stage := .known } :: B.map J }
  have r5 : Relay.Step s4 s5 :=
    .read s4 _ _ { J x.addr with stage := .weight } i2 .known rfl f2 (by simp [Job.next, J, i2])
  refine ⟨s1, s5, r1, rfl, hon,
    .step (.step (.step (.step (.refl b0) r2 b2) (.pool s2 p3 hnp st3) (?_ : Behind _ _ _ s3))
      (.pool s3 p4 hnp st4) (?_ : Behind _ _ _ s4)) r5 ?_, { J x.addr with stage := .known }, ?_, rfl, rfl⟩
  · exact ⟨i1, f1, .inr (by simpa [i1] using ht)⟩
  · exact ⟨i2, f2, .inl (by simpa [i2] using hh)⟩
  · exact ⟨i2, f2, .inl (by simpa [i2] using hh)⟩
  · exact List.mem_filter.2 ⟨by simp [s5], by simp [J]⟩

/-- It applies to the pool with one connection. -/
example (addr : String) : (⟨0, addr, .up, false⟩ : Link) ∈ (Pool.live addr).links ∧ addr ∈ (Pool.live addr).online ∧
    ¬ (Pool.live addr).locked addr ∧ (Pool.live addr).panicked = false := by
  refine ⟨by simp [Pool.live], by simp [Pool.live], ?_, rfl⟩
  simp [Pool.locked, Pool.live, Pool.new]

end Gringo.Props
