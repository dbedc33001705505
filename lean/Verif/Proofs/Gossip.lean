import Mathlib.Combinatorics.SimpleGraph.Acyclic
import Verif.Model.Gossip
import Verif.Proofs.Program
/-
Helper lemmas for Props/Gossip.lean.
-/
namespace Gringo.Gossip
open Gringo.P2P Gringo.Props Gringo.Program

variable {E : Env} {ι : Type} {u : Setup ι} {G : SimpleGraph ι} {b : Block E}

/-- A block that is handled leaves the record of its sender at the block or above it. -/
theorem receive_done {w : World} {n : Node E} {i j : ι} (h : (receive u b w n i j).ended = .done) :
    (receive u b w n i j).node = { n with table := n.table.update (u.name i) (blockRecord b) } ∧
      ∃ info, n.table.find (u.name i) = some info := by
  unfold receive processMessage at h ⊢
  cases hf : n.table.find (u.name i) with
  | none => simp only [hf] at h; cases h
  | some info =>
    simp only [hf] at h ⊢
    refine ⟨?_, info, rfl⟩
    simp only [handle] at h ⊢
    rcases orBan_cases w { n with chain := (n.chain.processBlock n.storage b).2 } ⟨u.name i, u.conn j i, u.name i⟩
        (n.chain.processBlock n.storage b).1 (fun node =>
        let node := { node with table := node.table.update (u.name i) (blockRecord b) }
        { node
          effects := if b.header.height = node.chain.height then
              (relayTargets node.table node.online b.header.height b.header.totalDifficulty).map fun (a, c) =>
                .relay a c b
            else []
          ended := .done }) with e | ⟨e, -⟩
    · rw [e]; rfl
    · exact absurd h e

theorem record_ahead (i : PeerInfo) : ¬ Behind b (blockRecord b i) := by
  unfold blockRecord Behind
  split
  · rintro (h | h)
    · exact absurd h (UInt64.lt_irrefl _)
    · exact absurd h (UInt64.lt_irrefl _)
  · rename_i h
    exact fun g => h g.symm

theorem informed_update {n : Node E} {a : String} (a' : String) (h : Informed b n a) :
    Informed b { n with table := n.table.update a' (blockRecord b) } a := by
  obtain ⟨i, h1, h2⟩ := h
  show ∃ i, (n.table.update a' (blockRecord b)).find a = some i ∧ _
  rw [find_update]
  split
  · rw [h1]; exact ⟨_, rfl, record_ahead i⟩
  · exact ⟨i, h1, h2⟩

theorem informed_sender {n : Node E} {a : String} {i : PeerInfo} (h : n.table.find a = some i) :
    Informed b { n with table := n.table.update a (blockRecord b) } a := by
  show ∃ i, (n.table.update a (blockRecord b)).find a = some i ∧ _
  rw [find_update, if_pos rfl, h]
  exact ⟨_, rfl, record_ahead i⟩

/-- The routes that start at `o` and do not turn back. -/
inductive Track (G : SimpleGraph ι) (o : ι) : List ι → Prop
  | start (j : ι) (h : G.Adj j o) : Track G o [j, o]
  | step (i j k : ι) (p : List ι) (h : Track G o (j :: i :: p)) (ha : G.Adj k j) (hn : k ≠ i) : Track G o (k :: j :: i :: p)

theorem Track.walk {o : ι} {p : List ι} (h : Track G o p) : ∃ (j : ι) (i : ι) (q : List ι) (w : G.Walk j o),
    p = j :: i :: q ∧ w.support = p ∧ w.edges.IsChain (· ≠ ·) ∧ ∃ es, w.edges = s(j, i) :: es := by
  induction h with
  | start j h => exact ⟨j, o, [], .cons h .nil, rfl, rfl, by simp, [], rfl⟩
  | step i j k p h ha hn ih =>
    obtain ⟨j', i', q, w, e, hs, hc, es, he⟩ := ih
    injection e with e1 e
    injection e with e2 e3
    subst e1 e2 e3
    refine ⟨k, j, i :: p, .cons ha w, rfl, by rw [SimpleGraph.Walk.support_cons, hs], ?_, w.edges, by rw [SimpleGraph.Walk.edges_cons]⟩
    rw [SimpleGraph.Walk.edges_cons, he, List.isChain_cons_cons]
    refine ⟨?_, he ▸ hc⟩
    intro e
    rw [Sym2.eq_iff] at e
    rcases e with ⟨h1, -⟩ | ⟨h1, -⟩
    · exact G.loopless.irrefl _ (h1 ▸ ha)
    · exact hn h1

/-- Without cycles there is one route to each node, and it does not come back to where it started. -/
theorem Track.unique (hG : G.IsAcyclic) {o : ι} {p q : List ι} (hp : Track G o p) (hq : Track G o q) :
    (p.head? = q.head? → p = q) ∧ p.head? ≠ some o := by
  obtain ⟨j, i, p', w, rfl, h1, h2, -⟩ := hp.walk
  obtain ⟨j', i', q', w', rfl, h1', h2', -⟩ := hq.walk
  have hw := (hG.isPath_iff_isChain w).2 h2
  have hw' := (hG.isPath_iff_isChain w').2 h2'
  constructor
  · intro e
    cases e
    have := (hG.subsingleton_path j o).elim ⟨w, hw⟩ ⟨w', hw'⟩
    injection this with this
    rw [← h1, ← h1', this]
  · intro e
    cases e
    have := (SimpleGraph.Walk.isPath_iff_nil.1 hw).eq_nil
    rw [this] at h1
    cases h1

/-- A copy of the block, by the address it was sent to and the route before. -/
def tag (u : Setup ι) : List ι → String × List ι
  | [] => ("", [])
  | k :: p => (u.name k, p)

def jobTag (x : List ι × Job E) : String × List ι := (x.2.addr, x.1)

/-- The goroutine has called `SendBlock`. -/
def isSent : Relay.Stage → Bool
  | .sent _ => true
  | _ => false

theorem isSent_iff {st : Relay.Stage} : ¬ isSent st = true ↔ ∀ c, st ≠ .sent c := by
  cases st <;> simp [isSent]

/-- What the network has done: `done` are the routes of the copies that have reached a node. -/
structure Inv (u : Setup ι) (G : SimpleGraph ι) (b : Block E) (o : ι) (first : List ι) (s : State ι E) (done : List (List ι)) : Prop where
  wired : ∀ j, Wired u G j (s.node j)
  tracks : ∀ p ∈ done ++ s.flying, Track G o p
  account : ((done ++ s.flying).map (tag u)).Subperm
    ((first.map fun k => (u.name k, [o])) ++ (s.jobs.filter fun x => isSent x.2.stage).map jobTag)
  distinct : (s.jobs.map jobTag).Nodup
  jobs : ∀ x ∈ s.jobs, x.1 ∈ done ∧ x.2.block = b
  near : ∀ j p job, (j :: p, job) ∈ s.jobs → ∃ k, G.Adj j k ∧ job.addr = u.name k
  informed : ∀ j i p job, (j :: i :: p, job) ∈ s.jobs → Informed b (s.node j) (u.name i)
  away : ∀ j i p job, (j :: i :: p, job) ∈ s.jobs → job.addr = u.name i → job.stage ≠ .peer ∧ ∀ c, job.stage ≠ .sent c

theorem tag_inj (hu : Function.Injective u.name) {o : ι} {p q : List ι} (hp : Track G o p) (hq : Track G o q)
    (h : tag u p = tag u q) : p = q := by
  obtain ⟨j, i, p', w, rfl, -⟩ := hp.walk
  obtain ⟨j', i', q', w', rfl, -⟩ := hq.walk
  simp only [tag, Prod.mk.injEq] at h
  rw [hu h.1, h.2]

theorem Inv.nodup (hu : Function.Injective u.name) {o : ι} {first : List ι} {s : State ι E} {done : List (List ι)}
    (hf : first.Nodup) (h : Inv u G b o first s done) : (done ++ s.flying).Nodup := by
  have h1 : ((first.map fun k => (u.name k, [o])) ++ (s.jobs.filter fun x => isSent x.2.stage).map jobTag).Nodup := by
    rw [List.nodup_append]
    refine ⟨hf.map fun k k' e => hu (congrArg Prod.fst e), (List.filter_sublist.map jobTag).nodup h.distinct, ?_⟩
    intro y hy z hm e0
    obtain ⟨k, -, rfl⟩ := List.mem_map.1 hy
    obtain ⟨x, hx, e⟩ := List.mem_map.1 hm
    rw [← e0] at e
    have := (h.jobs x (List.mem_of_mem_filter hx)).1
    obtain ⟨j, i, q, w, e', -⟩ := (h.tracks x.1 (List.mem_append_left _ this)).walk
    have : x.1 = [o] := congrArg Prod.snd e
    rw [e'] at this
    cases this
  obtain ⟨k, p, q⟩ := h.account
  have h2 := p.nodup_iff.1 (q.nodup h1)
  exact List.Nodup.of_map _ h2

/-- A goroutine that looks at a record which has the block does not come to send. -/
theorem next_away {job : Job E} {i : PeerInfo} {st : Relay.Stage} (hb : job.block = b) (hi : ¬ Behind b i)
    (hp : job.stage ≠ .peer ∧ ∀ c, job.stage ≠ .sent c) (h : job.next i = some st) : st ≠ .peer ∧ ∀ c, st ≠ .sent c := by
  subst hb
  unfold Behind at hi
  rw [not_or] at hi
  unfold Job.next Relay.Job.next at h
  dsimp only at h
  cases hs : job.stage with
  | height =>
    rw [hs] at h
    dsimp only at h
    rw [if_neg hi.1] at h
    cases h
    exact ⟨nofun, nofun⟩
  | weight =>
    rw [hs] at h
    dsimp only at h
    rw [if_neg hi.2] at h
    cases h
    exact ⟨nofun, nofun⟩
  | peer => exact absurd hs hp.1
  | sent c => exact absurd hs (hp.2 c)
  | _ => rw [hs] at h; cases h

theorem next_sent {job : Job E} {i : PeerInfo} {c : Nat} (h : job.next i = some (.sent c)) : job.stage = .peer := by
  unfold Job.next Relay.Job.next at h
  dsimp only at h
  cases hs : job.stage with
  | peer => rfl
  | height => rw [hs] at h; dsimp only at h; split at h <;> cases h
  | weight => rw [hs] at h; dsimp only at h; split at h <;> cases h
  | _ => rw [hs] at h; cases h

theorem next_open {job : Job E} {i : PeerInfo} {st : Relay.Stage} (h : job.next i = some st) : ∀ c, job.stage ≠ .sent c := by
  intro c hs
  unfold Job.next Relay.Job.next at h
  dsimp only at h
  rw [hs] at h
  cases h

/-- The goroutines after one of them has moved. -/
theorem mem_moved {α : Type} {l r : List (α × Job E)} {p : α} {job : Job E} {st : Relay.Stage} {x : α × Job E}
    (h : x ∈ l ++ (p, { job with stage := st }) :: r) :
    x ∈ l ++ (p, job) :: r ∨ x = (p, { job with stage := st }) := by
  simp only [List.mem_append, List.mem_cons] at h ⊢
  tauto

variable [DecidableEq ι]

theorem inv_step (hu : Function.Injective u.name) {o : ι} {first : List ι} {s s' : State ι E} {done : List (List ι)} {e : Event ι}
    (hf0 : first.Nodup) (h : Inv u G b o first s done) (hs : Step u G b s e s') :
    ∃ new, Inv u G b o first s' (done ++ new) ∧ new.map List.head? = (match e with | .deliver j => [some j] | _ => []) := by
  have hn := h.nodup hu hf0
  cases hs with
  | deliver l r i j route w hw hf hd =>
    obtain ⟨e1, info, e2⟩ := receive_done hd
    have hp : (done ++ [j :: i :: route] ++ (l ++ r)).Perm (done ++ s.flying) := by
      rw [hf, List.append_assoc]
      refine List.Perm.append_left _ ?_
      exact (List.perm_middle (l₁ := l)).symm
    have hnot : (j :: i :: route) ∉ done := by
      rw [hf] at hn
      have := (List.nodup_append.1 hn).2.2
      intro hm
      exact this _ hm _ (by simp) rfl
    have hold : ∀ x ∈ s.jobs, x.1 ≠ j :: i :: route := fun x hx e => hnot (e ▸ (h.jobs x hx).1)
    have hnew : ∀ x, x ∈ (started (s.node j).online (receive u b w (s.node j) i j).node.chain (.block b)).map
        (fun job => (j :: i :: route, job)) → x.1 = j :: i :: route ∧ x.2.block = b ∧ x.2.stage = .height ∧
          x.2.addr ∈ (s.node j).online := by
      intro x hx
      obtain ⟨job, hj, rfl⟩ := List.mem_map.1 hx
      simp only [started] at hj
      split at hj
      · obtain ⟨a, ha, rfl⟩ := List.mem_map.1 hj
        exact ⟨rfl, rfl, rfl, ha⟩
      · cases hj
    have hinf : ∀ k a, Informed b (s.node k) a →
        Informed b (Function.update s.node j (receive u b w (s.node j) i j).node k) a := by
      intro k a hk
      by_cases e : k = j
      · subst e
        rw [Function.update_self, e1]
        exact informed_update _ hk
      · rw [Function.update_of_ne e]; exact hk
    refine ⟨[j :: i :: route], ⟨?_, ?_, ?_, ?_, ?_, ?_, ?_, ?_⟩, rfl⟩
    · intro k
      show Wired u G k (Function.update s.node j _ k)
      by_cases e : k = j
      · subst e
        rw [Function.update_self, e1]
        exact h.wired k
      · rw [Function.update_of_ne e]; exact h.wired k
    · intro p hm
      exact h.tracks p (hp.mem_iff.1 hm)
    · refine (hp.map _).subperm.trans (h.account.trans ?_)
      refine List.Sublist.subperm ((List.Sublist.refl _).append (List.Sublist.map _ ?_))
      rw [List.filter_append]
      exact List.sublist_append_left _ _
    · show (List.map jobTag (s.jobs ++ _)).Nodup
      rw [List.map_append, List.nodup_append]
      refine ⟨h.distinct, ?_, ?_⟩
      · simp only [started]
        split
        · rw [List.map_map, List.map_map]
          refine List.Nodup.map ?_ (h.wired j).1
          intro a a' e
          exact congrArg Prod.fst e
        · exact List.nodup_nil
      · intro x hx y hy e
        obtain ⟨x', hx', rfl⟩ := List.mem_map.1 hx
        obtain ⟨y', hy', rfl⟩ := List.mem_map.1 hy
        have : x'.1 = y'.1 := congrArg Prod.snd e
        exact hold x' hx' (this.trans (hnew y' hy').1)
    · intro x hx
      rcases List.mem_append.1 hx with hx | hx
      · exact ⟨List.mem_append_left _ (h.jobs x hx).1, (h.jobs x hx).2⟩
      · obtain ⟨g1, g2, -⟩ := hnew x hx
        exact ⟨by rw [g1]; simp, g2⟩
    · intro j' p job hx
      rcases List.mem_append.1 hx with hx | hx
      · exact h.near j' p job hx
      · obtain ⟨g1, -, -, g4⟩ := hnew _ hx
        injection g1 with g1 _
        subst g1
        exact (h.wired j').2 _ g4
    · intro j' i' p job hx
      rcases List.mem_append.1 hx with hx | hx
      · exact hinf _ _ (h.informed j' i' p job hx)
      · obtain ⟨g1, -⟩ := hnew _ hx
        injection g1 with g1 g2
        injection g2 with g2 g3
        subst g1 g2
        show Informed b (Function.update s.node j' _ j') _
        rw [Function.update_self, e1]
        exact informed_sender e2
    · intro j' i' p job hx ha
      rcases List.mem_append.1 hx with hx | hx
      · exact h.away j' i' p job hx ha
      · obtain ⟨-, -, g3, -⟩ := hnew _ hx
        rw [show job.stage = .height from g3]
        exact ⟨nofun, nofun⟩
  | fails l r i j route w hw hf hd =>
    have hp : (done ++ [j :: i :: route] ++ (l ++ r)).Perm (done ++ s.flying) := by
      rw [hf, List.append_assoc]
      refine List.Perm.append_left _ ?_
      exact (List.perm_middle (l₁ := l)).symm
    refine ⟨[j :: i :: route], ⟨h.wired, fun p hm => h.tracks p (hp.mem_iff.1 hm), (hp.map _).subperm.trans h.account,
      h.distinct, fun x hx => ⟨List.mem_append_left _ (h.jobs x hx).1, (h.jobs x hx).2⟩, h.near, h.informed, h.away⟩, rfl⟩
  | look l r j route job i st hj hi hnx hst =>
    refine ⟨[], ?_, rfl⟩
    rw [List.append_nil]
    have hm : (j :: route, job) ∈ s.jobs := by rw [hj]; simp
    have old : ∀ x, x ∈ l ++ (j :: route, { job with stage := st }) :: r → x ∈ s.jobs ∨ x = (j :: route, { job with stage := st }) := by
      intro x hx
      rw [hj]
      exact mem_moved hx
    have htag : (l ++ (j :: route, { job with stage := st }) :: r).map jobTag = s.jobs.map jobTag := by
      rw [hj]; simp [jobTag]
    have hfil : ((l ++ (j :: route, { job with stage := st }) :: r).filter fun x => isSent x.2.stage) =
        s.jobs.filter fun x => isSent x.2.stage := by
      rw [hj, List.filter_append, List.filter_append, List.filter_cons_of_neg, List.filter_cons_of_neg]
      · exact isSent_iff.2 (next_open hnx)
      · exact isSent_iff.2 hst
    refine ⟨h.wired, h.tracks, ?_, htag ▸ h.distinct, ?_, ?_, ?_, ?_⟩
    · show (List.map (tag u) (done ++ s.flying)).Subperm (_ ++ List.map jobTag (List.filter _ (l ++ _ :: r)))
      rw [hfil]; exact h.account
    · intro x hx
      rcases old x hx with hx | rfl
      · exact h.jobs x hx
      · exact h.jobs (_, job) hm
    · intro j' p job' hx
      rcases old _ hx with hx | hx
      · exact h.near j' p job' hx
      · cases hx; exact h.near _ _ job hm
    · intro j' i' p job' hx
      rcases old _ hx with hx | hx
      · exact h.informed j' i' p job' hx
      · cases hx; exact h.informed _ _ _ job hm
    · intro j' i' p job' hx ha
      rcases old _ hx with hx | hx
      · exact h.away j' i' p job' hx ha
      · cases hx
        obtain ⟨i2, f1, f2⟩ := h.informed _ _ _ _ hm
        have ha : job.addr = u.name i' := ha
        rw [ha, f1] at hi
        cases hi
        exact next_away (h.jobs _ hm).2 f2 (h.away _ _ _ _ hm ha) hnx
  | send l r j k route job i c hj hi hnx hk =>
    refine ⟨[], ?_, rfl⟩
    rw [List.append_nil]
    have hm : (j :: route, job) ∈ s.jobs := by rw [hj]; simp
    have old : ∀ x, x ∈ l ++ (j :: route, { job with stage := .sent c }) :: r →
        x ∈ s.jobs ∨ x = (j :: route, { job with stage := .sent c }) := by
      intro x hx
      rw [hj]
      exact mem_moved hx
    have htag : (l ++ (j :: route, { job with stage := .sent c }) :: r).map jobTag = s.jobs.map jobTag := by
      rw [hj]; simp [jobTag]
    obtain ⟨j', i', q, w, e, -⟩ := (h.tracks _ (List.mem_append_left _ (h.jobs _ hm).1)).walk
    injection e with e1 e
    subst e1 e
    have hstage := next_sent hnx
    have hki : k ≠ i' := by
      rintro rfl
      exact (h.away _ _ _ _ hm hk).1 hstage
    obtain ⟨k', hk', ek⟩ := h.near _ _ _ hm
    have ek : k' = k := hu (ek.symm.trans hk)
    subst ek
    refine ⟨h.wired, ?_, ?_, htag ▸ h.distinct, ?_, ?_, ?_, ?_⟩
    · intro p hp
      have hp : p ∈ done ++ (s.flying ++ [k' :: j :: i' :: q]) := hp
      rw [← List.append_assoc, List.mem_append] at hp
      rcases hp with hp | hp
      · exact h.tracks p hp
      · rw [List.mem_singleton] at hp
        subst hp
        exact .step _ _ _ _ (h.tracks _ (List.mem_append_left _ (h.jobs _ hm).1)) hk'.symm hki
    · show (List.map (tag u) (done ++ (s.flying ++ [k' :: j :: i' :: q]))).Subperm
        (_ ++ List.map jobTag (List.filter _ (l ++ _ :: r)))
      have e1 : (s.jobs.filter fun x => isSent x.2.stage) =
          (l.filter fun x => isSent x.2.stage) ++ r.filter fun x => isSent x.2.stage := by
        rw [hj, List.filter_append, List.filter_cons_of_neg (by simp [hstage, isSent])]
      have e2 : ((l ++ (j :: i' :: q, { job with stage := .sent c }) :: r).filter fun x => isSent x.2.stage) =
          (l.filter fun x => isSent x.2.stage) ++ (j :: i' :: q, { job with stage := .sent c }) ::
            r.filter fun x => isSent x.2.stage := by
        rw [List.filter_append, List.filter_cons_of_pos (by simp [isSent])]
      have ha := h.account
      rw [e1, List.map_append (f := jobTag)] at ha
      rw [e2, List.map_append (f := jobTag), List.map_cons, ← List.append_assoc, List.map_append (f := tag u) (l₁ := done ++ s.flying), List.map_cons, List.map_nil]
      have et : tag u (k' :: j :: i' :: q) = jobTag (j :: i' :: q, { job with stage := .sent c }) := by
        simp only [tag, jobTag, hk]
      rw [et]
      refine (List.perm_append_singleton _ _).subperm.trans ?_
      refine ((List.subperm_cons _).2 ha).trans ?_
      refine List.Perm.subperm ?_
      rw [← List.append_assoc, ← List.append_assoc]
      exact List.perm_middle.symm
    · intro x hx
      rcases old x hx with hx | rfl
      · exact h.jobs x hx
      · exact h.jobs (_, job) hm
    · intro j' p job' hx
      rcases old _ hx with hx | hx
      · exact h.near j' p job' hx
      · cases hx; exact h.near _ _ job hm
    · intro j' i' p job' hx
      rcases old _ hx with hx | hx
      · exact h.informed j' i' p job' hx
      · cases hx; exact h.informed _ _ _ job hm
    · intro j' i2 p job' hx ha
      rcases old _ hx with hx | hx
      · exact h.away j' i2 p job' hx ha
      · cases hx
        exact absurd (hu (hk.symm.trans ha)) hki
  | lost l r p hf =>
    refine ⟨[], ?_, rfl⟩
    rw [List.append_nil]
    have hp : (done ++ (l ++ r)).Sublist (done ++ s.flying) := by
      rw [hf]
      exact (List.Sublist.refl _).append ((List.Sublist.refl _).append (List.sublist_cons_self _ _))
    exact ⟨h.wired, fun q hq => h.tracks q (hp.subset hq), (hp.map _).subperm.trans h.account, h.distinct, h.jobs, h.near,
      h.informed, h.away⟩
  | other j n hk hw =>
    refine ⟨[], ?_, rfl⟩
    rw [List.append_nil]
    refine ⟨?_, h.tracks, h.account, h.distinct, h.jobs, h.near, ?_, h.away⟩
    · intro k
      show Wired u G k (Function.update s.node j n k)
      by_cases e : k = j
      · subst e; rw [Function.update_self]; exact hw
      · rw [Function.update_of_ne e]; exact h.wired k
    · intro j' i' p job hx
      show Informed b (Function.update s.node j n j') _
      by_cases e : j' = j
      · subst e; rw [Function.update_self]; exact hk _ (h.informed _ _ _ _ hx)
      · rw [Function.update_of_ne e]; exact h.informed _ _ _ _ hx

theorem inv_run (hu : Function.Injective u.name) {o : ι} {first : List ι} {s s' : State ι E} {es : List (Event ι)}
    (hf0 : first.Nodup) (h : Inv u G b o first s []) (hr : Run u G b s es s') :
    ∃ done, Inv u G b o first s' done ∧ done.map List.head? = (receivers es).map some := by
  induction hr with
  | refl => exact ⟨[], h, rfl⟩
  | @next t t' es e hr hs ih =>
    obtain ⟨done, h1, h2⟩ := ih
    obtain ⟨new, h3, h4⟩ := inv_step hu hf0 h1 hs
    refine ⟨done ++ new, h3, ?_⟩
    rw [List.map_append, h2, h4]
    cases e <;> simp [receivers, List.filterMap_append]

omit [DecidableEq ι] in
/-- A block on its way to one node. -/
theorem inv_start {o : ι} {first : List ι} {s : State ι E} (hw : ∀ j, Wired u G j (s.node j)) (hj : s.jobs = [])
    (hf : s.flying = first.map fun j => [j, o]) (ha : ∀ j ∈ first, G.Adj j o) : Inv u G b o first s [] := by
  refine ⟨hw, ?_, ?_, ?_, ?_, ?_, ?_, ?_⟩
  · intro p hp
    rw [hf] at hp
    obtain ⟨j, hj, rfl⟩ := List.mem_map.1 (show p ∈ first.map fun j => [j, o] from hp)
    exact .start _ (ha j hj)
  · rw [hf, hj]
    simp only [List.nil_append, List.map_map, List.filter_nil, List.map_nil, List.append_nil]
    exact List.Subperm.refl _
  all_goals rw [hj]
  · exact List.nodup_nil
  all_goals simp

omit [DecidableEq ι] in
/-- A block that the chain takes is handled. -/
theorem receive_ok {w : World} {n : Node E} {i j : ι} {info : PeerInfo} (h : n.table.find (u.name i) = some info)
    (hb : (n.chain.processBlock n.storage b).1 = .ok ()) : (receive u b w n i j).ended = .done := by
  unfold receive processMessage
  simp only [h, handle, orBan, hb]

/-- A block goes from node `i` through node `j` on to node `k`. -/
theorem hop {w : World} (hw : Program.Real w) {s : State ι E} {i j k : ι} {route : List ι}
    (hp : ∃ info, (s.node j).table.find (u.name i) = some info)
    (hok : ((s.node j).chain.processBlock (s.node j).storage b).1 = .ok ())
    (hh : b.header.height = (s.node j).chain.height) (hon : u.name k ∈ (s.node j).online)
    (hbe : ∃ info c, (s.node j).table.find (u.name k) = some info ∧ Behind b info ∧ info.peer = some c)
    (hne : u.name k ≠ u.name i) (hf : s.flying = [j :: i :: route]) :
    ∃ es js, Run u G b s (.deliver j :: es) ⟨Function.update s.node j
        { s.node j with table := (s.node j).table.update (u.name i) (blockRecord b) }, js, [k :: j :: i :: route]⟩ ∧
      ∀ e ∈ es, e = .look := by
  obtain ⟨pinfo, hp⟩ := hp
  have hd := receive_ok (j := j) (w := w) hp hok
  obtain ⟨e1, -⟩ := receive_done hd
  have st1 := Step.deliver (G := G) [] [] i j route w hw hf hd
  obtain ⟨info, c, hi, hb, hc⟩ := hbe
  obtain ⟨l, r, hlr⟩ := List.append_of_mem hon
  obtain ⟨jl, jr, hjobs⟩ : ∃ jl jr, s.jobs ++ (Program.started (s.node j).online
      (receive u b w (s.node j) i j).node.chain (.block b)).map (fun job => (j :: i :: route, job)) =
      jl ++ (j :: i :: route, (⟨u.name k, b, .height⟩ : Job E)) :: jr := by
    rw [e1]
    simp only [started]
    rw [if_pos hh, hlr]
    simp only [List.map_append, List.map_cons]
    rw [← List.append_assoc]
    exact ⟨_, _, rfl⟩
  rw [hjobs, e1] at st1
  have hfind : ∀ js fl, ((⟨Function.update s.node j
      { s.node j with table := (s.node j).table.update (u.name i) (blockRecord b) }, js, fl⟩ :
      State ι E).node j).table.find (u.name k) = some info := by
    intro js fl
    dsimp only
    rw [Function.update_self]
    dsimp only
    rw [find_update, if_neg hne]
    exact hi
  generalize Function.update s.node j
    { s.node j with table := (s.node j).table.update (u.name i) (blockRecord b) } = N at st1 hfind ⊢
  have looks : ∀ st st', (∀ c, st' ≠ .sent c) → (⟨u.name k, b, st⟩ : Job E).next info = some st' →
      Step u G b ⟨N, jl ++ (j :: i :: route, ⟨u.name k, b, st⟩) :: jr, []⟩ .look
        ⟨N, jl ++ (j :: i :: route, ⟨u.name k, b, st'⟩) :: jr, []⟩ := fun st st' h1 h2 =>
    Step.look (s := ⟨N, jl ++ (j :: i :: route, ⟨u.name k, b, st⟩) :: jr, []⟩) jl jr j (i :: route)
      _ info st' rfl (hfind _ _) h2 h1
  have sends : Step u G b ⟨N, jl ++ (j :: i :: route, ⟨u.name k, b, .peer⟩) :: jr, []⟩ .look
        ⟨N, jl ++ (j :: i :: route, ⟨u.name k, b, .sent c⟩) :: jr, [k :: j :: i :: route]⟩ :=
    Step.send (s := ⟨N, jl ++ (j :: i :: route, ⟨u.name k, b, .peer⟩) :: jr, []⟩) jl jr j
      k (i :: route) _ info c rfl (hfind _ _) (by simp only [Job.next, Relay.Job.next, hc]) rfl
  have r1 : Run u G b s [.deliver j]
      ⟨N, jl ++ (j :: i :: route, ⟨u.name k, b, .height⟩) :: jr, []⟩ := Run.next .refl st1
  by_cases hlt : info.height < b.header.height
  · have r2 := (r1.next (looks .height .peer nofun (by simp only [Job.next, Relay.Job.next, if_pos hlt]))).next sends
    exact ⟨[.look, .look], _, r2, by simp⟩
  · have hb := hb.resolve_left hlt
    have r2 := ((r1.next (looks .height .weight nofun (by simp only [Job.next, Relay.Job.next, if_neg hlt]))).next
      (looks .weight .peer nofun (by simp only [Job.next, Relay.Job.next, if_pos hb]))).next sends
    exact ⟨[.look, .look, .look], _, r2, by simp⟩

/-- A ring: what a node needs to have for the block to go on to the next one. -/
structure Ring (u : Setup ι) (b : Block E) (next : ι → ι) (s : State ι E) : Prop where
  ok : ∀ i, ((s.node i).chain.processBlock (s.node i).storage b).1 = .ok ()
  height : ∀ i, b.header.height = (s.node i).chain.height
  prev : ∀ i, ∃ info, (s.node (next i)).table.find (u.name i) = some info
  online : ∀ i, u.name (next i) ∈ (s.node i).online
  behind : ∀ i, ∃ info c, (s.node i).table.find (u.name (next i)) = some info ∧ Behind b info ∧ info.peer = some c

theorem ring_round (hu : Function.Injective u.name) {next : ι → ι} (hn : ∀ i, next (next i) ≠ i) {w : World}
    (hw : Program.Real w) {s : State ι E} (h : Ring u b next s) {i : ι} {route : List ι}
    (hf : s.flying = [next i :: i :: route]) :
    ∃ es s', Run u G b s (.deliver (next i) :: es) s' ∧ (∀ e ∈ es, e = .look) ∧ Ring u b next s' ∧
      s'.flying = [next (next i) :: next i :: i :: route] := by
  obtain ⟨es, js, h1, h2⟩ := hop (G := G) hw (h.prev i) (h.ok _) (h.height _) (h.online _) (h.behind _)
    (fun e => hn i (hu e)) hf
  refine ⟨es, _, h1, h2, ⟨fun k => ?_, fun k => ?_, fun k => ?_, fun k => ?_, fun k => ?_⟩, rfl⟩
  · dsimp only
    by_cases e : k = next i
    · subst e; rw [Function.update_self]; exact h.ok _
    · rw [Function.update_of_ne e]; exact h.ok k
  · dsimp only
    by_cases e : k = next i
    · subst e; rw [Function.update_self]; exact h.height _
    · rw [Function.update_of_ne e]; exact h.height k
  · dsimp only
    by_cases e : next k = next i
    · rw [e, Function.update_self]
      obtain ⟨info, hi⟩ := h.prev k
      rw [e] at hi
      dsimp only
      rw [find_update]
      split
      · rw [hi]; exact ⟨_, rfl⟩
      · exact ⟨_, hi⟩
    · rw [Function.update_of_ne e]; exact h.prev k
  · dsimp only
    by_cases e : k = next i
    · subst e; rw [Function.update_self]; exact h.online _
    · rw [Function.update_of_ne e]; exact h.online k
  · dsimp only
    by_cases e : k = next i
    · subst e
      rw [Function.update_self]
      dsimp only
      rw [find_update, if_neg (fun e => hn i (hu e))]
      exact h.behind _
    · rw [Function.update_of_ne e]; exact h.behind k

omit [DecidableEq ι] in
theorem Run.trans [DecidableEq ι] {s t t' : State ι E} {es es' : List (Event ι)} (h : Run u G b s es t) (h' : Run u G b t es' t') :
    Run u G b s (es ++ es') t' := by
  induction h' with
  | refl => rw [List.append_nil]; exact h
  | next _ hs ih => rw [← List.append_assoc]; exact ih.next hs

theorem ring_run (hu : Function.Injective u.name) {next : ι → ι} (hn : ∀ i, next (next i) ≠ i) {w : World}
    (hw : Program.Real w) {s : State ι E} (h : Ring u b next s) {i : ι} (hf : s.flying = [[next i, i]]) (n : Nat) :
    ∃ es s' route, Run u G b s es s' ∧ (∀ e ∈ es, e = .look ∨ ∃ j, e = .deliver j) ∧
      receivers es = (List.range n).map (fun k => next^[k + 1] i) ∧ Ring u b next s' ∧
      s'.flying = [next (next^[n] i) :: next^[n] i :: route] := by
  induction n with
  | zero => exact ⟨[], s, [], .refl, by simp, rfl, h, hf⟩
  | succ n ih =>
    obtain ⟨es, s', route, h1, h2, h3, h4, h5⟩ := ih
    obtain ⟨es', s'', g1, g2, g3, g4⟩ := ring_round (G := G) hu hn hw h4 h5
    refine ⟨es ++ .deliver (next (next^[n] i)) :: es', s'', next^[n] i :: route, h1.trans g1, ?_, ?_, g3, ?_⟩
    · intro e he
      rcases List.mem_append.1 he with he | he
      · exact h2 e he
      · rcases List.mem_cons.1 he with he | he
        · exact .inr ⟨_, he⟩
        · exact .inl (g2 e he)
    · have : receivers es' = [] := by
        unfold receivers
        rw [List.filterMap_eq_nil_iff]
        intro e he
        rw [g2 e he]
      show receivers (es ++ _ :: es') = _
      rw [List.range_succ, List.map_append, ← h3]
      unfold receivers at this ⊢
      rw [List.filterMap_append, List.filterMap_cons]
      dsimp only
      rw [this, List.map_cons, List.map_nil, Function.iterate_succ_apply']
    · rw [g4, Function.iterate_succ_apply']

end Gringo.Gossip
