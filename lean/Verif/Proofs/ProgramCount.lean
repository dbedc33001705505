import Mathlib.Data.List.Perm.Subperm
import Verif.Proofs.ProgramSent
/-
How often a block is sent in Model/Program.lean.
-/
namespace Gringo.Program
open Gringo.P2P Gringo.Spec Gringo.Props

variable {E : Env} {remote : Nat → String}

/-! ### Lists -/

theorem blocksOf_append (l r : List (Message E)) : blocksOf (l ++ r) = blocksOf l ++ blocksOf r := List.filterMap_append

theorem range_update {α : Type} (f : Nat → List α) (c n : Nat) (v : List α) (hc : c < n) :
    ((List.range n).flatMap (Function.update f c (f c ++ v))).Perm ((List.range n).flatMap f ++ v) := by
  induction n with
  | zero => omega
  | succ n ih =>
    rw [List.range_succ, List.flatMap_append, List.flatMap_append]
    simp only [List.flatMap_cons, List.flatMap_nil, List.append_nil]
    by_cases h : c = n
    · subst h
      rw [Function.update_self]
      have e : (List.range c).flatMap (Function.update f c (f c ++ v)) = (List.range c).flatMap f := by
        refine List.flatMap_congr fun d hd => Function.update_of_ne ?_ _ _
        have := List.mem_range.1 hd
        omega
      rw [e, List.append_assoc]
    · rw [Function.update_of_ne (by omega)]
      refine ((ih (by omega)).append_right _).trans ?_
      rw [List.append_assoc, List.append_assoc]
      exact List.Perm.append_left _ List.perm_append_comm

theorem range_grow {α : Type} (f : Nat → List α) {n m : Nat} (h : n ≤ m) :
    ((List.range n).flatMap f).Sublist ((List.range m).flatMap f) := by
  obtain ⟨k, rfl⟩ := Nat.exists_eq_add_of_le h
  rw [List.range_add, List.flatMap_append]
  exact List.sublist_append_left _ _

theorem flatMap_sublist {α : Type} {f g : Nat → List α} (h : ∀ c, (f c).Sublist (g c)) (l : List Nat) :
    (l.flatMap f).Sublist (l.flatMap g) := by
  induction l with
  | nil => exact List.Sublist.refl _
  | cons a l ih => exact (h a).append ih

/-- The blocks with the height of the chain, in what was handled on the connections up to number `n`. -/
def fit (chain : Chain E) (n : Nat) (done : Nat → List (Message E)) : List (Block E) :=
  ((List.range n).flatMap fun c => blocksOf (done c)).filter fun b => b.header.height = chain.height

theorem fit_grow {chain : Chain E} {n m : Nat} {done done' : Nat → List (Message E)} (h : n ≤ m)
    (hd : ∀ c, (done c).Sublist (done' c)) : (fit chain n done).Sublist (fit chain m done') :=
  ((range_grow _ h).trans (flatMap_sublist (fun c => (hd c).filterMap _) _)).filter _

theorem fit_update (chain : Chain E) {n c : Nat} (done : Nat → List (Message E)) (m : Message E) (hc : c < n) :
    (fit chain n (Function.update done c (done c ++ [m]))).Perm
      (fit chain n done ++ (blocksOf [m]).filter fun b => b.header.height = chain.height) := by
  unfold fit
  rw [← List.filter_append]
  refine List.Perm.filter _ ?_
  have e : (fun d => blocksOf (Function.update done c (done c ++ [m]) d)) =
      Function.update (fun d => blocksOf (done d)) c (blocksOf (done c) ++ blocksOf [m]) := by
    funext d
    by_cases h : d = c
    · subst h; rw [Function.update_self, Function.update_self, blocksOf_append]
    · rw [Function.update_of_ne h, Function.update_of_ne h]
  rw [e]
  exact range_update (fun d => blocksOf (done d)) c n _ hc

/-! ### The invariant -/

/-- What was handed to a connection, the goroutines of `PropagateBlock`, and what came in. -/
structure Counted (s : State E) (fs : Nat → List (GoodFrame E)) (done : Nat → List (Message E)) : Prop where
  arrived : ∀ c, (s.io c).arrived = streamOf (fs c) ++ (s.io c).inbox
  handled : ∀ c, (done c ++ (s.io c).task.toList).Sublist (messagesOf (fs c))
  jobs : ∀ a, ((s.jobs.filter fun j => j.addr = a).map Job.block).Subperm (fit s.chain s.pool.next done)
  sent : ∀ x ∈ s.pool.conns, (blocksOf (handed x)).Perm ((s.jobs.filter fun j => j.stage = .sent x.id).map Job.block)
  addr : ∀ j ∈ s.jobs, ∀ c, j.stage = .sent c → ∃ x ∈ s.pool.conns, x.id = c ∧ x.addr = j.addr

theorem jobs_replaced {l r : List (Job E)} {j : Job E} {st : Relay.Stage} (a : String) :
    ((l ++ { j with stage := st } :: r).filter fun j => j.addr = a).map Job.block =
      ((l ++ j :: r).filter fun j => j.addr = a).map Job.block := by
  simp only [List.filter_append, List.map_append, List.filter_cons]
  split <;> rfl

theorem jobs_stage {l r : List (Job E)} {j : Job E} {st : Relay.Stage} {c : Nat} (h1 : j.stage ≠ .sent c) (h2 : st ≠ .sent c) :
    (l ++ { j with stage := st } :: r).filter (fun j => j.stage = .sent c) =
      (l ++ j :: r).filter fun j => j.stage = .sent c := by
  simp [List.filter_append, h1, h2]

theorem next_peer {j : Job E} {i : PeerInfo} {st : Relay.Stage} (h : j.next i = some st) (c : Nat) :
    j.stage ≠ .sent c ∧ (st = .sent c → i.peer = some c) := by
  unfold Job.next Relay.Job.next at h
  dsimp only at h
  cases hs : j.stage <;> rw [hs] at h <;> dsimp only at h
  · refine ⟨nofun, fun e => ?_⟩
    subst e
    split at h <;> cases h
  · refine ⟨nofun, fun e => ?_⟩
    subst e
    split at h <;> cases h
  · refine ⟨nofun, fun e => ?_⟩
    subst e
    split at h
    · rename_i hp; cases h; exact hp
    · cases h
  all_goals cases h

/-- The goroutines that a message starts: at most one for each address. -/
theorem started_fit {online : List String} (hn : online.Nodup) (chain : Chain E) (m : Message E) (a : String) :
    (((started online chain m).filter fun j => j.addr = a).map Job.block).Sublist
      ((blocksOf [m]).filter fun b => b.header.height = chain.height) := by
  unfold started
  split
  · rename_i b
    split
    · rename_i hb
      have e : (blocksOf [Message.block b]).filter (fun b => decide (b.header.height = chain.height)) = [b] := by
        show [b].filter _ = _
        simp [hb]
      rw [e, List.filter_map, List.map_map]
      have : (online.filter ((fun j : Job E => decide (j.addr = a)) ∘ fun addr => ⟨addr, b, .height⟩)).Sublist [a] := by
        show (online.filter fun addr => decide (addr = a)).Sublist [a]
        rw [show (online.filter fun addr => decide (addr = a)) = List.replicate (online.count a) a from List.filter_eq ..]
        have := List.nodup_iff_count_le_one.1 hn a
        generalize online.count a = n at this ⊢
        match n, this with
        | 0, _ => exact List.nil_sublist _
        | 1, _ => exact List.Sublist.refl _
      exact this.map _
    · exact List.nil_sublist _
  · exact List.nil_sublist _

theorem started_stage {online : List String} {chain : Chain E} {m : Message E} {j : Job E} (hj : j ∈ started online chain m)
    (c : Nat) : j.stage ≠ .sent c := by
  obtain ⟨-, -, -, h⟩ := started_block hj
  rw [h]; nofun

theorem next_mono {w w' : Whole.State (Message E)} {k : Lifecycle.Kind} (hs : Whole.Step Talk.frame ping ask w k w') :
    w.next ≤ w'.next := by
  cases hs with
  | opens => exact Nat.le_succ _
  | _ => exact Nat.le_refl _

theorem handed_call (x : Whole.Conn (Message E)) {t : Lifecycle.Thread (Message E)}
    (ht : ∀ m, t ≠ .send m ∧ ∀ b, t ≠ .sent m b) : handed (x.calls t) = handed x := by
  unfold handed Whole.Conn.calls
  rw [List.flatMap_append]
  cases t with
  | send m => exact absurd rfl (ht m).1
  | sent m b => exact absurd rfl ((ht m).2 b)
  | _ => simp

/-- A step of the pool hands no block to a connection that was there. -/
theorem handed_pool {w w' : Whole.State (Message E)} {k : Lifecycle.Kind} (hw : Whole.Reachable Talk.frame ping ask w)
    (hs : Whole.Step Talk.frame ping ask w k w')
    (hm : w'.loop = w.loop → ∀ x ∈ w.conns, ∀ y ∈ w'.conns, y.id = x.id → handed y = handed x)
    {x y : Whole.Conn (Message E)} (hx : x ∈ w.conns) (hy : y ∈ w'.conns) (e : y.id = x.id) :
    blocksOf (handed y) = blocksOf (handed x) := by
  have same : w'.conns = w.conns → blocksOf (handed y) = blocksOf (handed x) := fun h => by
    rw [Whole.same_id hw (h ▸ hy) hx e]
  have rep : ∀ {l r : List (Whole.Conn (Message E))} {u v : Whole.Conn (Message E)}, w.conns = l ++ u :: r →
      w'.conns = l ++ v :: r → v.id = u.id → blocksOf (handed v) = blocksOf (handed u) →
      blocksOf (handed y) = blocksOf (handed x) := by
    intro l r u v h1 h2 h3 h4
    rw [h2] at hy
    rcases Whole.mem_replaced (x := u) hy with rfl | hy
    · rw [Whole.same_id hw hx (by rw [h1]; simp) (e.symm.trans h3), h4]
    · rw [Whole.same_id hw (by rw [h1]; exact hy) hx e]
  cases hs with
  | register addr c told now n hl =>
    rcases List.mem_append.1 hy with hy | hy
    · rw [Whole.same_id hw hy hx e]
    · obtain ⟨-, s, hr, hwr⟩ := Whole.refines hw
      have hg := ((PoolRun.inv_reachable hr).conns.greeting addr c (by rw [hwr.loop, hl]; rfl)).2
      rw [List.mem_singleton.1 hy] at e
      exact absurd e.symm (hg x.abs (by rw [hwr.links]; exact List.mem_map.2 ⟨x, hx, rfl⟩))
  | start addr l r u hl hx p hr0 hw0 hp => exact rep hx rfl rfl (by subst hp; rfl)
  | ping addr l r u hl hx =>
    refine rep hx rfl rfl ?_
    rw [handed_calls, blocksOf_append]
    exact List.append_nil _
  | ask addr k m b l r u hl hx hk =>
    refine rep hx rfl rfl ?_
    rw [handed_calls, blocksOf_append]
    exact List.append_nil _
  | spawn addr k m b l r u hl hx hk =>
    exact rep hx rfl rfl (congrArg _ (handed_call u (t := .wait) (fun m => ⟨nofun, nofun⟩)))
  | _ => first | exact congrArg _ (hm rfl x hx y hy e) | exact same rfl

variable {chain : Chain E} {storage : Storage E} {mempool : Option (Transaction E → Out Unit)}

/-- A step that leaves the goroutines of `PropagateBlock` alone and hands no block to a connection. -/
theorem counted_quiet {s s' : State E} {fs : Nat → List (GoodFrame E)} {done : Nat → List (Message E)} (h : Counted s fs done)
    {fs' : Nat → List (GoodFrame E)} (hj : s'.jobs = s.jobs) (hc : s'.chain = s.chain) (hn : s.pool.next ≤ s'.pool.next)
    (h1 : ∀ c, (s'.io c).arrived = streamOf (fs' c) ++ (s'.io c).inbox)
    (h2 : ∀ c, (done c ++ (s'.io c).task.toList).Sublist (messagesOf (fs' c)))
    (hx : ∀ y ∈ s'.pool.conns, (∃ x ∈ s.pool.conns, y.id = x.id ∧ blocksOf (handed y) = blocksOf (handed x)) ∨
      (handed y = [] ∧ ∀ x ∈ s.pool.conns, x.id ≠ y.id))
    (hx' : ∀ x ∈ s.pool.conns, ∃ y ∈ s'.pool.conns, y.id = x.id ∧ y.addr = x.addr) : Counted s' fs' done where
  arrived := h1
  handled := h2
  jobs := fun a => by
    rw [hj, hc]
    exact (h.jobs a).trans (fit_grow hn (fun _ => List.Sublist.refl _)).subperm
  sent := fun y hy => by
    rw [hj]
    rcases hx y hy with ⟨x, hx, e1, e2⟩ | ⟨e1, e2⟩
    · rw [e1, e2]; exact h.sent x hx
    · rw [e1, List.filter_eq_nil_iff.2 fun j hj hst => ?_]
      · exact List.Perm.refl _
      · obtain ⟨x, hx, e, -⟩ := h.addr j hj y.id (of_decide_eq_true hst)
        exact e2 x hx e
  addr := fun j hm c hst => by
    obtain ⟨x, hx, e1, e2⟩ := h.addr j (hj ▸ hm) c hst
    obtain ⟨y, hy, e3, e4⟩ := hx' x hx
    exact ⟨y, hy, e3.trans e1, e4.trans e2⟩

theorem conns_one {cs l r : List (Whole.Conn (Message E))} {u v : Whole.Conn (Message E)} (h : cs = l ++ u :: r)
    (hid : v.id = u.id) (haddr : v.addr = u.addr) (hh : blocksOf (handed v) = blocksOf (handed u)) :
    (∀ y ∈ l ++ v :: r, (∃ x ∈ cs, y.id = x.id ∧ blocksOf (handed y) = blocksOf (handed x)) ∨
      (handed y = [] ∧ ∀ x ∈ cs, x.id ≠ y.id)) ∧
    (∀ x ∈ cs, ∃ y ∈ l ++ v :: r, y.id = x.id ∧ y.addr = x.addr) := by
  refine ⟨fun y hy => .inl ?_, fun x hx => ?_⟩
  · rcases Whole.mem_replaced (x := u) hy with rfl | hy
    · exact ⟨u, by rw [h]; simp, hid, hh⟩
    · exact ⟨y, by rw [h]; exact hy, rfl, rfl⟩
  · rw [h] at hx
    rcases mem_changed (y := v) hx with rfl | hx
    · exact ⟨v, by simp, hid, haddr⟩
    · exact ⟨x, hx, rfl, rfl⟩

/-- A message has been handled. -/
theorem counted_handled {s : State E} {fs : Nat → List (GoodFrame E)} {done : Nat → List (Message E)}
    (hi : Inv remote chain storage mempool s) (h : Counted s fs done)
    {l r : List (Whole.Conn (Message E))} {x : Whole.Conn (Message E)} {w : World} {m : Message E}
    {reader : Lifecycle.Reader (Message E)} (hx : s.pool.conns = l ++ x :: r) (ht : (s.io x.id).task = some m) :
    Counted (s.handled l r x reader m (processMessage w s.node (sender remote x) m)) fs
      (Function.update done x.id (done x.id ++ [m])) := by
  obtain ⟨t, en, -⟩ := process_touches w s.node (sender remote x) m
  have hc : (processMessage w s.node (sender remote x) m).node.chain = s.chain := by rw [en]; rfl
  have hm : x ∈ s.pool.conns := by rw [hx]; simp
  obtain ⟨c1, c2⟩ := conns_one (v := { x with peer := { x.peer with reader := reader } }) hx rfl rfl rfl
  obtain ⟨-, p, hr, hwr⟩ := Whole.refines hi.whole
  have hn : s.pool.online.Nodup := by rw [← hwr.online]; exact (PoolRun.inv_reachable hr).online.nodup
  constructor
  · intro c
    show (Function.update s.io x.id _ c).arrived = streamOf (fs c) ++ (Function.update s.io x.id _ c).inbox
    by_cases e : c = x.id
    · subst e; rw [Function.update_self]; exact h.arrived _
    · rw [Function.update_of_ne e]; exact h.arrived _
  · intro c
    show (_ ++ (Function.update s.io x.id _ c).task.toList).Sublist _
    by_cases e : c = x.id
    · subst e
      rw [Function.update_self, Function.update_self]
      have := h.handled x.id
      rw [ht] at this
      simpa using this
    · rw [Function.update_of_ne e, Function.update_of_ne e]; exact h.handled _
  · intro a
    show (((s.jobs ++ started s.pool.online (processMessage w s.node (sender remote x) m).node.chain m).filter _).map _).Subperm
      (fit (processMessage w s.node (sender remote x) m).node.chain s.pool.next _)
    rw [hc, List.filter_append, List.map_append]
    refine List.Subperm.trans ?_ (fit_update s.chain done m (Whole.ids_small hi.whole x hm)).symm.subperm
    exact (h.jobs a).append (started_fit hn s.chain m a).subperm
  · intro y hy
    show (blocksOf (handed y)).Perm (((s.jobs ++ started s.pool.online _ m).filter _).map _)
    rw [List.filter_append, List.filter_eq_nil_iff.2 (fun j hj hst => started_stage hj y.id (of_decide_eq_true hst)),
      List.append_nil]
    rcases c1 y hy with ⟨z, hz, e1, e2⟩ | ⟨-, e2⟩
    · rw [e1, e2]; exact h.sent z hz
    · rcases Whole.mem_replaced (x := x) hy with rfl | hy
      · exact absurd rfl (e2 x hm)
      · exact absurd rfl (e2 y (by rw [hx]; exact hy))
  · intro j hj c hst
    rcases List.mem_append.1 hj with hj | hj
    · obtain ⟨z, hz, e1, e2⟩ := h.addr j hj c hst
      obtain ⟨y, hy, e3, e4⟩ := c2 z hz
      exact ⟨y, hy, e3.trans e1, e4.trans e2⟩
    · exact absurd hst (started_stage hj c)

theorem counted_step {s s' : State E} {fs : Nat → List (GoodFrame E)} {done : Nat → List (Message E)}
    (hi : Inv remote chain storage mempool s) (h : Counted s fs done) {k : Lifecycle.Kind} (hs : Step remote k s s') :
    ∃ fs' done', Counted s' fs' done' := by
  -- the frames that a connection has read stay as they are
  have upd : ∀ (c : Nat) (io : Reading E) (f : List (GoodFrame E)), io.arrived = streamOf f ++ io.inbox →
      ∀ d, (Function.update s.io c io d).arrived = streamOf (Function.update fs c f d) ++ (Function.update s.io c io d).inbox := by
    intro c io f hio d
    by_cases e : d = c
    · subst e; rw [Function.update_self, Function.update_self]; exact hio
    · rw [Function.update_of_ne e, Function.update_of_ne e]; exact h.arrived d
  have upd2 : ∀ (c : Nat) (io : Reading E) (f : List (GoodFrame E)), (done c ++ io.task.toList).Sublist (messagesOf f) →
      ∀ d, (done d ++ (Function.update s.io c io d).task.toList).Sublist (messagesOf (Function.update fs c f d)) := by
    intro c io f hio d
    by_cases e : d = c
    · subst e; rw [Function.update_self, Function.update_self]; exact hio
    · rw [Function.update_of_ne e, Function.update_of_ne e]; exact h.handled d
  have less : ∀ c, (done c).Sublist (messagesOf (fs c)) := fun c => (List.sublist_append_left _ _).trans (h.handled c)
  have id1 : (∀ y ∈ s.pool.conns, (∃ x ∈ s.pool.conns, y.id = x.id ∧ blocksOf (handed y) = blocksOf (handed x)) ∨
      (handed y = [] ∧ ∀ x ∈ s.pool.conns, x.id ≠ y.id)) := fun y hy => .inl ⟨y, hy, rfl, rfl⟩
  have id2 : (∀ x ∈ s.pool.conns, ∃ y ∈ s.pool.conns, y.id = x.id ∧ y.addr = x.addr) := fun y hy => ⟨y, hy, rfl, rfl⟩
  cases hs with
  | pool k q hs hr hw hm =>
    refine ⟨fs, done, counted_quiet h rfl rfl (next_mono hs) h.arrived h.handled (fun y hy => ?_) (fun x hx => ?_)⟩
    · rcases Whole.conn_from hi.whole hs hy with ⟨h1, -, h2, -⟩ | ⟨x, hx, hc⟩
      · exact .inr ⟨by unfold handed; rw [h1]; rfl, h2⟩
      · exact .inl ⟨x, hx, hc.1, handed_pool hi.whole hs hm hx hy hc.1⟩
    · obtain ⟨y, hy, h1, h2, -⟩ := comes_of hi.whole hs hx
      exact ⟨y, hy, h1, h2⟩
  | arrive c bs =>
    refine ⟨Function.update fs c (fs c), done, counted_quiet h rfl rfl (Nat.le_refl _)
      (upd c _ _ ?_) (upd2 c _ _ (h.handled c)) id1 id2⟩
    show (s.io c).arrived ++ bs = streamOf (fs c) ++ ((s.io c).inbox ++ bs)
    rw [h.arrived c, List.append_assoc]
  | look l' r' j i st hj hi' hn hst =>
    refine ⟨fs, done, h.arrived, h.handled, fun a => ?_, fun x hx => ?_, fun j' hj' c hc => ?_⟩
    · show (List.map _ (List.filter _ (l' ++ _ :: r'))).Subperm _
      rw [jobs_replaced, ← hj]
      exact h.jobs a
    · show (blocksOf (handed x)).Perm (List.map _ (List.filter _ (l' ++ _ :: r')))
      rw [jobs_stage (next_peer hn x.id).1 (hst x.id), ← hj]
      exact h.sent x hx
    · rcases Whole.mem_replaced (x := j) hj' with rfl | hj'
      · exact absurd hc (hst c)
      · exact h.addr j' (by rw [hj]; exact hj') c hc
  | relay l' r' j i l r x hj hi' hn hx =>
    have hm : x ∈ s.pool.conns := by rw [hx]; simp
    have hp := (next_peer hn x.id).2 rfl
    have ha : x.addr = j.addr := by
      obtain ⟨-, p, hr, hwr⟩ := Whole.refines hi.whole
      obtain ⟨y, hy, e1, e2⟩ := (PoolRun.inv_reachable hr).entries.peer j.addr i x.id (by rw [hwr.table]; exact hi') hp
      rw [hwr.links] at hy
      obtain ⟨z, hz, rfl⟩ := List.mem_map.1 hy
      rw [← Whole.same_id hi.whole hz hm e1]
      exact e2
    refine ⟨fs, done, h.arrived, h.handled, fun a => ?_, fun y hy => ?_, fun j' hj' c hc => ?_⟩
    · show (List.map _ (List.filter _ (l' ++ _ :: r'))).Subperm _
      rw [jobs_replaced, ← hj]
      exact h.jobs a
    · show (blocksOf (handed y)).Perm (List.map _ (List.filter _ (l' ++ _ :: r')))
      have hn' := Whole.ids_nodup hi.whole
      by_cases e : y.id = x.id
      · have : y = x.calls (.send (.block j.block)) := by
          have hn : ((l ++ x.calls (.send (.block j.block)) :: r).map (·.id)).Nodup := by
            rw [hx] at hn'
            rw [List.map_append, List.map_cons] at hn' ⊢
            exact hn'
          exact List.inj_on_of_nodup_map hn hy (by simp) e
        rw [this, handed_calls, blocksOf_append]
        show (blocksOf (handed x) ++ [j.block]).Perm (List.map _ (List.filter (fun j : Job E => decide (j.stage = .sent x.id)) _))
        have := h.sent x hm
        rw [hj] at this
        simp only [List.filter_append, List.map_append, List.filter_cons, (next_peer hn x.id).1, decide_false, decide_true,
          if_true, Bool.false_eq_true, if_false, List.map_cons] at this ⊢
        refine (this.append_right _).trans ?_
        rw [List.append_assoc]
        exact List.Perm.append_left _ List.perm_append_comm
      · rw [jobs_stage (next_peer hn y.id).1 (fun e' => e (Relay.Stage.sent.inj e').symm), ← hj]
        rcases Whole.mem_replaced (x := x) hy with rfl | hy
        · exact absurd rfl e
        · exact h.sent y (by rw [hx]; exact hy)
    · rcases Whole.mem_replaced (x := j) hj' with rfl | hj'
      · cases hc
        exact ⟨x.calls (.send (.block j.block)), by simp, rfl, ha⟩
      · obtain ⟨z, hz, e1, e2⟩ := h.addr j' (by rw [hj]; exact hj') c hc
        rw [hx] at hz
        rcases mem_changed (y := x.calls (.send (.block j.block))) hz with rfl | hz
        · exact ⟨z.calls (.send (.block j.block)), by simp, e1, e2⟩
        · exact ⟨z, hz, e1, e2⟩
  | skip l r x c rest hx hr ht h0 =>
    obtain ⟨t, body, hsz, hc, e⟩ := readStep_next E h0
    obtain ⟨c1, c2⟩ := conns_one (v := { x with peer := { x.peer with reader := .loop } }) hx rfl rfl rfl
    refine ⟨Function.update fs x.id (fs x.id ++ [⟨t, body, none, hsz, hc⟩]), done, counted_quiet h rfl rfl (Nat.le_refl _)
      (upd _ _ _ ?_) (upd2 _ _ _ ?_) c1 c2⟩
    · show (s.io x.id).arrived = _ ++ rest
      rw [h.arrived x.id, e]; simp [streamOf]
    · have := h.handled x.id
      refine this.trans ?_
      simp [messagesOf]
  | read x m c rest hx hr ht h0 =>
    obtain ⟨t, body, hsz, hc, e⟩ := readStep_next E h0
    refine ⟨Function.update fs x.id (fs x.id ++ [⟨t, body, some m, hsz, hc⟩]), done, counted_quiet h rfl rfl (Nat.le_refl _)
      (upd _ _ _ ?_) (upd2 _ _ _ ?_) id1 id2⟩
    · show (s.io x.id).arrived = _ ++ rest
      rw [h.arrived x.id, e]; simp [streamOf]
    · show (done x.id ++ [m]).Sublist _
      simp only [messagesOf, List.flatMap_append]
      exact (less x.id).append (by simp)
  | process l r x w m hx hr ht hs hw hl he ha => exact ⟨_, _, counted_handled hi h hx ht⟩
  | answer l r x w m a hx hr ht hs hw hl he ha => exact ⟨_, _, counted_handled hi h hx ht⟩
  | ban l r x w m hx hr ht hs he =>
    obtain ⟨t, en, -⟩ := process_touches w s.node (sender remote x) m
    have hc : (processMessage w s.node (sender remote x) m).node.chain = s.chain := by rw [en]; rfl
    obtain ⟨c1, c2⟩ := conns_one (v := { x with peer := { x.peer with reader := .closing .cas } }) hx rfl rfl rfl
    refine ⟨Function.update fs x.id (fs x.id), done, counted_quiet h rfl hc (Nat.le_refl _)
      (upd _ _ _ (h.arrived x.id)) (upd2 _ _ _ ?_) c1 c2⟩
    show (done x.id ++ []).Sublist _
    rw [List.append_nil]
    exact less x.id
  | banOther l r x y w m i hx hr ht hs hy he hf hpe hne =>
    obtain ⟨c1, c2⟩ := conns_one (v := y.calls (.disconnect .cas)) hy rfl rfl
      (congrArg _ (handed_call y (t := .disconnect .cas) (fun m => ⟨nofun, nofun⟩)))
    exact ⟨Function.update fs x.id (fs x.id), done, counted_quiet h rfl rfl (Nat.le_refl _)
      (upd _ _ _ (h.arrived x.id)) (upd2 _ _ _ (h.handled x.id)) c1 c2⟩
  | readerDies => exact ⟨fs, done, counted_quiet h rfl rfl (Nat.le_refl _) h.arrived h.handled id1 id2⟩
  | processDies => exact ⟨fs, done, counted_quiet h rfl rfl (Nat.le_refl _) h.arrived h.handled id1 id2⟩
  | writerDies => exact ⟨fs, done, counted_quiet h rfl rfl (Nat.le_refl _) h.arrived h.handled id1 id2⟩

theorem counted_reachable {s : State E} (h : Reachable remote chain storage mempool s) :
    ∃ fs done, Counted s fs done := by
  induction h with
  | new =>
    exact ⟨fun _ => [], fun _ => [], fun _ => rfl, fun _ => List.Sublist.refl _, fun _ => List.nil_subperm,
      (fun _ h => by cases h), (fun _ h => by cases h)⟩
  | next h _ _ hs ih =>
    obtain ⟨fs, done, ih⟩ := ih
    exact counted_step (inv_reachable h) ih hs

/-- The blocks that were handed to the connection are no more than those that came in. -/
theorem blocks_handed {s : State E} (h : Reachable remote chain storage mempool s) {fs : Nat → List (GoodFrame E)}
    {done : Nat → List (Message E)} (hc : Counted s fs done) {x : Whole.Conn (Message E)} (hx : x ∈ s.pool.conns) :
    (blocksOf (handed x)).Subperm (((List.range s.pool.next).flatMap fun c => blocksOf (messagesOf (fs c))).filter
      fun b => b.header.height = chain.height) := by
  have hi := inv_reachable h
  have e2 : (s.jobs.filter fun j => j.stage = .sent x.id).Sublist (s.jobs.filter fun j => j.addr = x.addr) := by
    rw [show (s.jobs.filter fun j => j.stage = .sent x.id) =
      (s.jobs.filter fun j => j.addr = x.addr).filter fun j => j.stage = .sent x.id from ?_]
    · exact List.filter_sublist
    · rw [List.filter_filter]
      refine List.filter_congr fun j hj => ?_
      by_cases hst : j.stage = .sent x.id
      · obtain ⟨y, hy, e3, e4⟩ := hc.addr j hj _ hst
        rw [Whole.same_id hi.whole hy hx e3] at e4
        simp [hst, e4]
      · simp [hst]
  have e3 : (fit s.chain s.pool.next done).Sublist (fit chain s.pool.next fun c => messagesOf (fs c)) := by
    rw [hi.same.1]
    exact fit_grow (Nat.le_refl _) fun c => (List.sublist_append_left _ _).trans (hc.handled c)
  exact (hc.sent x hx).subperm.trans ((e2.map _).subperm.trans ((hc.jobs x.addr).trans e3.subperm))

end Gringo.Program
