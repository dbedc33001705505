import Verif.Proofs.Gossip
/-
Helper lemmas for Props/Reach.lean.
-/
namespace Gringo.Gossip
open Gringo.P2P Gringo.Props Gringo.Program

variable {E : Env} {ι : Type} {u : Setup ι} {G : SimpleGraph ι} {b : Block E}

theorem record_peer (i : PeerInfo) : (blockRecord b i).peer = i.peer := by
  unfold blockRecord; split <;> rfl

/-- The node takes the block and is connected to all its neighbours. -/
structure Keen (u : Setup ι) (G : SimpleGraph ι) (b : Block E) (j : ι) (n : Node E) : Prop where
  ok : (n.chain.processBlock n.storage b).1 = .ok ()
  height : b.header.height = n.chain.height
  online : ∀ a, a ∈ n.online ↔ ∃ k, G.Adj j k ∧ a = u.name k
  table : ∀ k, G.Adj j k → ∃ i c, n.table.find (u.name k) = some i ∧ i.peer = some c

/-- What the network has done: `done` are the routes of the copies that have reached a node. -/
structure Cov (u : Setup ι) (G : SimpleGraph ι) (b : Block E) (o : ι) (s : State ι E) (done : List (List ι)) : Prop where
  keen : ∀ j, Keen u G b j (s.node j)
  told : ∀ j k i, G.Adj j k → (s.node j).table.find (u.name k) = some i → ¬ Behind b i → ∃ p, j :: k :: p ∈ done
  routes : ∀ p ∈ done ++ s.flying, ∃ j k q, p = j :: k :: q ∧ G.Adj j k ∧ (k = o ∨ ∃ q', k :: q' ∈ done)
  jobs : ∀ x ∈ s.jobs, ∃ j q k, x.1 = j :: q ∧ j :: q ∈ done ∧ G.Adj j k ∧ x.2.addr = u.name k ∧ x.2.block = b ∧
    x.2.stage ≠ .noPeer ∧ ((∃ c, x.2.stage = .sent c) → ∃ q', k :: q' ∈ done ++ s.flying) ∧
    (x.2.stage = .weight → ∃ i, (s.node j).table.find (u.name k) = some i ∧ ¬ i.height < b.header.height) ∧
    (x.2.stage = .known → ∃ p, j :: k :: p ∈ done)
  spawned : ∀ j q, j :: q ∈ done → ∀ k, G.Adj j k → ∃ x ∈ s.jobs, (∃ q', x.1 = j :: q') ∧ x.2.addr = u.name k
  first : ∀ k, G.Adj o k → ∃ q, k :: q ∈ done ++ s.flying

/-- The record of a peer after the block from it does not fall behind. -/
theorem record_height {i : PeerInfo} (h : ¬ i.height < b.header.height) : ¬ (blockRecord b i).height < b.header.height := by
  unfold blockRecord
  split
  · exact UInt64.lt_irrefl _
  · exact h

variable [DecidableEq ι]

theorem cov_step (hu : Function.Injective u.name) {o : ι} {s s' : State ι E} {done : List (List ι)} {e : Event ι}
    (h : Cov u G b o s done) (hs : Step u G b s e s') (he : e = .look ∨ ∃ j, e = .deliver j) :
    ∃ new, Cov u G b o s' (done ++ new) ∧ new.map List.head? = (match e with | .deliver j => [some j] | _ => []) := by
  cases hs with
  | deliver l r i j route w hw hf hd =>
    obtain ⟨e1, info, e2⟩ := receive_done hd
    obtain ⟨j0, k0, q0, er, hadj, hfrom⟩ := h.routes (j :: i :: route) (by rw [hf]; simp)
    injection er with er1 er2
    injection er2 with er2 er3
    subst er1 er2 er3
    have hmem : ∀ p, p ∈ done ++ [j :: i :: route] ++ (l ++ r) ↔ p ∈ done ++ s.flying := by
      intro p
      rw [hf]
      simp only [List.mem_append, List.mem_cons, List.not_mem_nil, or_false]
      tauto
    have hkeep : ∀ j' k i', (Function.update s.node j (receive u b w (s.node j) i j).node j').table.find (u.name k) = some i' →
        (s.node j').table.find (u.name k) = some i' ∨
          (j' = j ∧ k = i ∧ ∃ i0, (s.node j').table.find (u.name k) = some i0 ∧ i' = blockRecord b i0) := by
      intro j' k i' hi
      by_cases ej : j' = j
      · subst ej
        rw [Function.update_self, e1] at hi
        dsimp only at hi
        rw [find_update] at hi
        split at hi
        · rename_i ek
          have ek := hu ek
          subst ek
          rw [e2] at hi
          exact .inr ⟨rfl, rfl, info, e2, (Option.some.inj hi).symm⟩
        · exact .inl hi
      · rw [Function.update_of_ne ej] at hi
        exact .inl hi
    have hstay : ∀ j' k i', (s.node j').table.find (u.name k) = some i' → ∃ i'',
        (Function.update s.node j (receive u b w (s.node j) i j).node j').table.find (u.name k) = some i'' ∧
          (i'' = i' ∨ i'' = blockRecord b i') := by
      intro j' k i' hi
      by_cases ej : j' = j
      · subst ej
        rw [Function.update_self, e1]
        dsimp only
        rw [find_update]
        split
        · rw [hi]; exact ⟨_, rfl, .inr rfl⟩
        · exact ⟨_, hi, .inl rfl⟩
      · rw [Function.update_of_ne ej]
        exact ⟨_, hi, .inl rfl⟩
    refine ⟨[j :: i :: route], ⟨?_, ?_, ?_, ?_, ?_, ?_⟩, rfl⟩
    · intro k
      show Keen u G b k (Function.update s.node j _ k)
      have htab : ∀ k', G.Adj k k' → ∃ i' c,
          (Function.update s.node j (receive u b w (s.node j) i j).node k).table.find (u.name k') = some i' ∧ i'.peer = some c := by
        intro k' hk'
        obtain ⟨i', c, g1, g2⟩ := (h.keen k).table k' hk'
        obtain ⟨i'', g3, rfl | rfl⟩ := hstay k k' i' g1
        · exact ⟨_, c, g3, g2⟩
        · exact ⟨_, c, g3, by rw [record_peer]; exact g2⟩
      by_cases ek : k = j
      · subst ek
        rw [Function.update_self, e1] at htab ⊢
        exact ⟨(h.keen k).ok, (h.keen k).height, (h.keen k).online, htab⟩
      · rw [Function.update_of_ne ek]; exact h.keen k
    · intro j' k i' hadj' hi hb
      rcases hkeep j' k i' hi with hi | ⟨rfl, rfl, -⟩
      · obtain ⟨p, hp⟩ := h.told j' k i' hadj' hi hb
        exact ⟨p, List.mem_append_left _ hp⟩
      · exact ⟨route, by simp⟩
    · intro p hp
      obtain ⟨j', k, q, g1, g2, g3⟩ := h.routes p ((hmem p).1 hp)
      exact ⟨j', k, q, g1, g2, g3.imp_right fun ⟨q', hq⟩ => ⟨q', List.mem_append_left _ hq⟩⟩
    · intro x hx
      rcases List.mem_append.1 hx with hx | hx
      · obtain ⟨j', q, k, g1, g2, g3, g4, g5, g6, g7, g8, g9⟩ := h.jobs x hx
        refine ⟨j', q, k, g1, List.mem_append_left _ g2, g3, g4, g5, g6, fun hc => ?_, fun hc => ?_, fun hc => ?_⟩
        · obtain ⟨q', hq⟩ := g7 hc
          exact ⟨q', (hmem _).2 hq⟩
        · obtain ⟨i', hi, hlt⟩ := g8 hc
          obtain ⟨i'', g, rfl | rfl⟩ := hstay j' k i' hi
          · exact ⟨_, g, hlt⟩
          · exact ⟨_, g, record_height hlt⟩
        · obtain ⟨p, hp⟩ := g9 hc
          exact ⟨p, List.mem_append_left _ hp⟩
      · obtain ⟨job, hj, rfl⟩ := List.mem_map.1 hx
        simp only [started] at hj
        split at hj
        · obtain ⟨a, ha, rfl⟩ := List.mem_map.1 hj
          obtain ⟨k, hk, rfl⟩ := ((h.keen j).online a).1 ha
          exact ⟨j, i :: route, k, rfl, by simp, hk, rfl, rfl, nofun, (fun ⟨c, hc⟩ => by cases hc), nofun, nofun⟩
        · cases hj
    · intro j' q hq k hk
      rcases List.mem_append.1 hq with hq | hq
      · obtain ⟨x, hx, g⟩ := h.spawned j' q hq k hk
        exact ⟨x, List.mem_append_left _ hx, g⟩
      · injection List.mem_singleton.1 hq with ej _
        subst ej
        refine ⟨(j' :: i :: route, ⟨u.name k, b, .height⟩), List.mem_append_right _ ?_, ⟨_, rfl⟩, rfl⟩
        refine List.mem_map.2 ⟨_, ?_, rfl⟩
        rw [e1]
        simp only [started]
        rw [if_pos (h.keen j').height]
        exact List.mem_map.2 ⟨_, ((h.keen j').online _).2 ⟨k, hk, rfl⟩, rfl⟩
    · intro k hk
      obtain ⟨q, hq⟩ := h.first k hk
      exact ⟨q, (hmem _).2 hq⟩
  | fails l r i j route w hw hf hd =>
    obtain ⟨j0, k0, q0, er, hadj, -⟩ := h.routes (j :: i :: route) (by rw [hf]; simp)
    injection er with er1 er2
    injection er2 with er2 er3
    subst er1 er2 er3
    obtain ⟨i', c, g1, -⟩ := (h.keen j).table i hadj
    exact absurd (receive_ok g1 (h.keen j).ok) hd
  | look l r j route job i st hj hi hnx hst =>
    refine ⟨[], ?_, rfl⟩
    rw [List.append_nil]
    have hm : (j :: route, job) ∈ s.jobs := by rw [hj]; simp
    obtain ⟨j', q, k, g1, g2, g3, g4, g5, g6, g7, g8, g9⟩ := h.jobs _ hm
    injection g1 with g1 g1'
    subst g1 g1'
    have g4 : job.addr = u.name k := g4
    rw [g4] at hi
    refine ⟨h.keen, h.told, h.routes, ?_, ?_, h.first⟩
    · intro x hx
      rcases mem_moved (job := job) hx with hx | rfl
      · exact h.jobs x (by rw [hj]; exact hx)
      · refine ⟨j, route, k, rfl, g2, g3, g4, g5, ?_, ?_, ?_, ?_⟩
        · rintro rfl
          obtain ⟨i', c, f1, f2⟩ := (h.keen j).table k g3
          rw [hi] at f1
          cases f1
          unfold Job.next Relay.Job.next at hnx
          dsimp only at hnx
          cases hs : job.stage with
          | peer => rw [hs] at hnx; dsimp only at hnx; rw [f2] at hnx; cases hnx
          | height => rw [hs] at hnx; dsimp only at hnx; split at hnx <;> cases hnx
          | weight => rw [hs] at hnx; dsimp only at hnx; split at hnx <;> cases hnx
          | _ => rw [hs] at hnx; cases hnx
        · rintro ⟨c, hc⟩
          exact absurd hc (hst c)
        · rintro rfl
          refine ⟨i, hi, ?_⟩
          unfold Job.next Relay.Job.next at hnx
          dsimp only at hnx
          rw [show job.block = b from g5] at hnx
          cases hs : job.stage with
          | height =>
            rw [hs] at hnx; dsimp only at hnx
            split at hnx
            · cases hnx
            · assumption
          | peer => rw [hs] at hnx; dsimp only at hnx; split at hnx <;> cases hnx
          | weight => rw [hs] at hnx; dsimp only at hnx; split at hnx <;> cases hnx
          | _ => rw [hs] at hnx; cases hnx
        · rintro rfl
          unfold Job.next Relay.Job.next at hnx
          dsimp only at hnx
          rw [show job.block = b from g5] at hnx
          cases hs : job.stage with
          | height => rw [hs] at hnx; dsimp only at hnx; split at hnx <;> cases hnx
          | peer => rw [hs] at hnx; dsimp only at hnx; split at hnx <;> cases hnx
          | weight =>
            rw [hs] at hnx; dsimp only at hnx
            split at hnx
            · cases hnx
            · rename_i hlt
              obtain ⟨i', f1, f2⟩ := g8 hs
              rw [hi] at f1
              cases f1
              exact h.told j k i g3 hi (not_or.2 ⟨f2, hlt⟩)
          | _ => rw [hs] at hnx; cases hnx
    · intro j' q hq k' hk'
      obtain ⟨x, hx, f1, f2⟩ := h.spawned j' q hq k' hk'
      rw [hj] at hx
      rcases List.mem_append.1 hx with hx | hx
      · exact ⟨x, by simp [hx], f1, f2⟩
      · rcases List.mem_cons.1 hx with rfl | hx
        · exact ⟨(j :: route, { job with stage := st }), by simp, f1, f2⟩
        · exact ⟨x, by simp [hx], f1, f2⟩
  | send l r j k0 route job i c hj hi hnx hk0 =>
    refine ⟨[], ?_, rfl⟩
    rw [List.append_nil]
    have hm : (j :: route, job) ∈ s.jobs := by rw [hj]; simp
    obtain ⟨j', q, k, g1, g2, g3, g4, g5, g6, g7, g8, g9⟩ := h.jobs _ hm
    injection g1 with g1 g1'
    subst g1 g1'
    have g4 : job.addr = u.name k := g4
    have ek : k0 = k := hu (hk0.symm.trans g4)
    subst ek
    have hfl : ∀ p, p ∈ done ++ s.flying → p ∈ done ++ (s.flying ++ [k0 :: j :: route]) := by
      intro p hp
      rw [← List.append_assoc]
      exact List.mem_append_left _ hp
    refine ⟨h.keen, h.told, ?_, ?_, ?_, ?_⟩
    · intro p hp
      have hp : p ∈ done ++ (s.flying ++ [k0 :: j :: route]) := hp
      rw [← List.append_assoc, List.mem_append] at hp
      rcases hp with hp | hp
      · exact h.routes p hp
      · rw [List.mem_singleton.1 hp]
        exact ⟨k0, j, route, rfl, g3.symm, .inr ⟨_, g2⟩⟩
    · intro x hx
      rcases mem_moved (job := job) hx with hx | rfl
      · obtain ⟨j', q, k, f1, f2, f3, f4, f5, f6, f7, f8, f9⟩ := h.jobs x (by rw [hj]; exact hx)
        refine ⟨j', q, k, f1, f2, f3, f4, f5, f6, fun hc => ?_, f8, f9⟩
        obtain ⟨q', hq'⟩ := f7 hc
        exact ⟨q', hfl _ hq'⟩
      · exact ⟨j, route, k0, rfl, g2, g3, g4, g5, nofun, fun _ => ⟨j :: route, by simp⟩, nofun, nofun⟩
    · intro j' q hq k' hk'
      obtain ⟨x, hx, f1, f2⟩ := h.spawned j' q hq k' hk'
      rw [hj] at hx
      rcases List.mem_append.1 hx with hx | hx
      · exact ⟨x, by simp [hx], f1, f2⟩
      · rcases List.mem_cons.1 hx with rfl | hx
        · exact ⟨(j :: route, { job with stage := .sent c }), by simp, f1, f2⟩
        · exact ⟨x, by simp [hx], f1, f2⟩
    · intro k' hk'
      obtain ⟨q, hq⟩ := h.first k' hk'
      exact ⟨q, hfl _ hq⟩
  | lost l r p hf =>
    rcases he with he | ⟨j, he⟩ <;> cases he
  | other j n hk hw =>
    rcases he with he | ⟨j, he⟩ <;> cases he

theorem cov_run (hu : Function.Injective u.name) {o : ι} {s s' : State ι E} {es : List (Event ι)}
    (h : Cov u G b o s []) (hr : Run u G b s es s') (he : ∀ e ∈ es, e = .look ∨ ∃ j, e = .deliver j) :
    ∃ done, Cov u G b o s' done ∧ done.map List.head? = (receivers es).map some := by
  induction hr with
  | refl => exact ⟨[], h, rfl⟩
  | @next t t' es e hr hs ih =>
    obtain ⟨done, h1, h2⟩ := ih fun e' h' => he e' (List.mem_append_left _ h')
    obtain ⟨new, h3, h4⟩ := cov_step hu h1 hs (he e (by simp))
    refine ⟨done ++ new, h3, ?_⟩
    rw [List.map_append, h2, h4]
    cases e <;> simp [receivers, List.filterMap_append]

omit [DecidableEq ι] in
theorem cov_start {o : ι} {js : List ι} {s : State ι E} (hk : ∀ j, Keen u G b j (s.node j))
    (hb : ∀ j k i, G.Adj j k → (s.node j).table.find (u.name k) = some i → Behind b i)
    (hj : s.jobs = []) (hf : s.flying = js.map fun j => [j, o]) (ha : ∀ j, j ∈ js ↔ G.Adj o j) : Cov u G b o s [] := by
  refine ⟨hk, fun j k i h1 h2 h3 => absurd (hb j k i h1 h2) h3, ?_, ?_, ?_, ?_⟩
  · intro p hp
    rw [hf] at hp
    obtain ⟨j, hj, rfl⟩ := List.mem_map.1 (show p ∈ js.map fun j => [j, o] from hp)
    exact ⟨j, o, [], rfl, ((ha j).1 hj).symm, .inl rfl⟩
  · rw [hj]; simp
  · simp
  · intro k hk
    exact ⟨[o], by rw [hf]; exact List.mem_map.2 ⟨k, (ha k).2 hk, rfl⟩⟩

/-- At rest no copy is on its way. -/
theorem rest_flying {o : ι} {s : State ι E} {done : List (List ι)} (h : Cov u G b o s done)
    (hr : ∀ e t, Step u G b s e t → e = .lost ∨ e = .other) : s.flying = [] := by
  cases hf : s.flying with
  | nil => rfl
  | cons p r =>
    obtain ⟨j, i, q, rfl, -⟩ := h.routes p (by rw [hf]; simp)
    let w := Net.world ⟨fun _ => none, fun _ => none, fun _ => []⟩ id fun _ => false
    have hw : Program.Real w := ⟨_, _, _, rfl, fun _ => .refl _⟩
    by_cases hd : (receive u b w (s.node j) i j).ended = .done
    · rcases hr _ _ (.deliver [] r i j q w hw hf hd) with e | e <;> cases e
    · rcases hr _ _ (.fails [] r i j q w hw hf hd) with e | e <;> cases e

/-- At rest no goroutine can go on. -/
theorem rest_job {o : ι} {s : State ι E} {done : List (List ι)} (h : Cov u G b o s done)
    (hr : ∀ e t, Step u G b s e t → e = .lost ∨ e = .other) {x : List ι × Job E} (hx : x ∈ s.jobs) :
    ∃ i, x.2.next i = none := by
  obtain ⟨j, q, k, g1, g2, g3, g4, -⟩ := h.jobs x hx
  obtain ⟨i, c, f1, -⟩ := (h.keen j).table k g3
  obtain ⟨y, job⟩ := x
  have g1 : y = j :: q := g1
  subst g1
  have g4 : job.addr = u.name k := g4
  rw [← g4] at f1
  obtain ⟨l, r, hlr⟩ := List.append_of_mem hx
  refine ⟨i, ?_⟩
  cases hn : job.next i with
  | none => exact rfl
  | some st =>
    by_cases hst : ∃ c, st = .sent c
    · obtain ⟨c, rfl⟩ := hst
      rcases hr _ _ (.send l r j k q job i c hlr f1 hn g4) with e | e <;> cases e
    · rcases hr _ _ (.look l r j q job i st hlr f1 hn fun c e => hst ⟨c, e⟩) with e | e <;> cases e

/-- At rest, the neighbours of a node that has the block have it. -/
theorem cov_rest {o : ι} {s : State ι E} {done : List (List ι)} (h : Cov u G b o s done)
    (hr : ∀ e t, Step u G b s e t → e = .lost ∨ e = .other) (hu : Function.Injective u.name) {k : ι} (hk : G.Reachable o k) :
    k = o ∨ ∃ q, k :: q ∈ done := by
  have hf := rest_flying h hr
  obtain ⟨w⟩ := hk.symm
  induction w with
  | nil => exact .inl rfl
  | @cons a c d hadj w ih =>
    have first : ∀ k, G.Adj d k → ∃ q, k :: q ∈ done := by
      intro k hk
      obtain ⟨q, hq⟩ := h.first k hk
      rw [hf, List.append_nil] at hq
      exact ⟨q, hq⟩
    rcases ih h w.reachable.symm with rfl | ⟨q, hq⟩
    · exact .inr (first a hadj.symm)
    · obtain ⟨x, hx, ⟨q', e1⟩, e2⟩ := h.spawned c q hq a hadj.symm
      obtain ⟨j', q2, k, g1, g2, g3, g4, g5, g6, g7, g8, g9⟩ := h.jobs x hx
      rw [e1] at g1
      injection g1 with g1 _
      subst g1
      have ek := hu (e2.symm.trans g4)
      subst ek
      obtain ⟨i, hn⟩ := rest_job h hr hx
      unfold Job.next Relay.Job.next at hn
      dsimp only at hn
      cases hs : x.2.stage with
      | height => rw [hs] at hn; cases hn
      | weight => rw [hs] at hn; cases hn
      | peer => rw [hs] at hn; dsimp only at hn; split at hn <;> cases hn
      | noPeer => exact absurd hs g6
      | sent c' =>
        obtain ⟨q3, hq3⟩ := g7 ⟨c', hs⟩
        rw [hf, List.append_nil] at hq3
        exact .inr ⟨q3, hq3⟩
      | known =>
        obtain ⟨p, hp⟩ := g9 hs
        obtain ⟨j3, k3, q3, f1, f2, f3⟩ := h.routes _ (List.mem_append_left _ hp)
        injection f1 with f1 f1'
        injection f1' with f1' _
        subst f1 f1'
        exact f3

/-! ### How long it takes -/

/-- What a goroutine can still do, and the copy it can send. -/
def left : Relay.Stage → Nat
  | .height => 4
  | .weight => 3
  | .peer => 2
  | _ => 0

/-- What is still to be done for the copies there are. -/
def todo (s : State ι E) : Nat := (s.jobs.map fun x => left x.2.stage).sum + s.flying.length

theorem next_left {job : Job E} {i : PeerInfo} {st : Relay.Stage} (h : job.next i = some st) :
    left st + 1 ≤ left job.stage ∧ ((∃ c, st = .sent c) → left st + 2 ≤ left job.stage) := by
  unfold Job.next Relay.Job.next at h
  dsimp only at h
  cases hs : job.stage with
  | height => rw [hs] at h; dsimp only at h; split at h <;> cases h <;> simp [left]
  | weight => rw [hs] at h; dsimp only at h; split at h <;> cases h <;> simp [left]
  | peer => rw [hs] at h; dsimp only at h; split at h <;> cases h <;> simp [left]
  | _ => rw [hs] at h; cases h

omit [DecidableEq ι] in
/-- A node is connected to no more than all nodes. -/
theorem wired_length [Fintype ι] {j : ι} {n : Node E} (h : Wired u G j n) : n.online.length ≤ Fintype.card ι := by
  have : n.online ⊆ (Finset.univ.toList : List ι).map u.name := by
    intro a ha
    obtain ⟨k, -, rfl⟩ := h.2 a ha
    exact List.mem_map.2 ⟨k, by simp, rfl⟩
  have := (List.subperm_of_subset h.1 this).length_le
  simpa using this

theorem todo_run [Fintype ι] {s s' : State ι E} {es : List (Event ι)} (hw : ∀ j, Wired u G j (s.node j))
    (hr : Run u G b s es s') : (∀ j, Wired u G j (s'.node j)) ∧
      (es.filter (· ≠ .other)).length + todo s' ≤ todo s + 4 * Fintype.card ι * (receivers es).length := by
  induction hr with
  | refl => exact ⟨hw, by simp⟩
  | @next t t' es e hr hs ih =>
    obtain ⟨h1, h2⟩ := ih
    cases hs with
    | deliver l r i j route w hw hf hd =>
      obtain ⟨e1, -⟩ := receive_done hd
      refine ⟨?_, ?_⟩
      · intro k
        show Wired u G k (Function.update t.node j _ k)
        by_cases e : k = j
        · subst e; rw [Function.update_self, e1]; exact h1 k
        · rw [Function.update_of_ne e]; exact h1 k
      · have hl := wired_length (h1 j)
        have e2 : receivers (es ++ [.deliver j]) = receivers es ++ [j] := by simp [receivers, List.filterMap_append]
        have e3 : (es ++ [Event.deliver j]).filter (· ≠ .other) = es.filter (· ≠ .other) ++ [.deliver j] := by simp
        have e4 : (((started (t.node j).online (receive u b w (t.node j) i j).node.chain (.block b)).map
            fun job => (j :: i :: route, job)).map fun x => left x.2.stage).sum ≤ 4 * (t.node j).online.length := by
          simp only [started]
          split
          · simp [List.map_map, Function.comp_def, left, Nat.mul_comm]
          · simp
        have e5 : t.flying.length = (l ++ r).length + 1 := by rw [hf]; simp; omega
        rw [e2, e3, List.length_append, List.length_append]
        simp only [todo, List.map_append, List.sum_append] at h2 ⊢
        rw [e5] at h2
        rw [List.length_singleton, List.length_singleton, Nat.mul_add]
        have : 4 * (t.node j).online.length ≤ 4 * Fintype.card ι * 1 := by omega
        omega
    | fails l r i j route w hw hf hd =>
      refine ⟨h1, ?_⟩
      have e2 : receivers (es ++ [.deliver j]) = receivers es ++ [j] := by simp [receivers, List.filterMap_append]
      have e3 : (es ++ [Event.deliver j]).filter (· ≠ .other) = es.filter (· ≠ .other) ++ [.deliver j] := by simp
      have e5 : t.flying.length = (l ++ r).length + 1 := by rw [hf]; simp; omega
      rw [e2, e3, List.length_append, List.length_append]
      simp only [todo] at h2 ⊢
      rw [e5] at h2
      rw [List.length_singleton, List.length_singleton, Nat.mul_add]
      omega
    | look l r j route job i st hj hi hnx hst =>
      refine ⟨h1, ?_⟩
      have e2 : receivers (es ++ [.look]) = receivers es := by simp [receivers, List.filterMap_append]
      have e3 : (es ++ [(Event.look : Event ι)]).filter (· ≠ .other) = es.filter (· ≠ .other) ++ [.look] := by simp
      rw [e2, e3, List.length_append, List.length_singleton]
      simp only [todo] at h2 ⊢
      rw [hj] at h2
      simp only [List.map_append, List.map_cons, List.sum_append, List.sum_cons] at h2 ⊢
      have := (next_left hnx).1
      omega
    | send l r j k route job i c hj hi hnx hk =>
      refine ⟨h1, ?_⟩
      have e2 : receivers (es ++ [.look]) = receivers es := by simp [receivers, List.filterMap_append]
      have e3 : (es ++ [(Event.look : Event ι)]).filter (· ≠ .other) = es.filter (· ≠ .other) ++ [.look] := by simp
      rw [e2, e3, List.length_append, List.length_singleton]
      simp only [todo] at h2 ⊢
      rw [hj] at h2
      simp only [List.map_append, List.map_cons, List.sum_append, List.sum_cons, List.length_append, List.length_singleton] at h2 ⊢
      have := (next_left hnx).2 ⟨c, rfl⟩
      omega
    | lost l r p hf =>
      refine ⟨h1, ?_⟩
      have e2 : receivers (es ++ [.lost]) = receivers es := by simp [receivers, List.filterMap_append]
      have e3 : (es ++ [(Event.lost : Event ι)]).filter (· ≠ .other) = es.filter (· ≠ .other) ++ [.lost] := by simp
      have e5 : t.flying.length = (l ++ r).length + 1 := by rw [hf]; simp; omega
      rw [e2, e3, List.length_append, List.length_singleton]
      simp only [todo] at h2 ⊢
      rw [e5] at h2
      omega
    | other j n hk hw =>
      refine ⟨?_, ?_⟩
      · intro k
        show Wired u G k (Function.update t.node j n k)
        by_cases e : k = j
        · subst e; rw [Function.update_self]; exact hw
        · rw [Function.update_of_ne e]; exact h1 k
      · have e2 : receivers (es ++ [.other]) = receivers es := by simp [receivers, List.filterMap_append]
        have e3 : (es ++ [(Event.other : Event ι)]).filter (· ≠ .other) = es.filter (· ≠ .other) := by simp
        rw [e2, e3]
        exact h2

/-! ### Nodes that are not at the height of the block -/

/-- Nothing is relayed. -/
theorem still_run {js : List (List ι)} {s s' : State ι E} {es : List (Event ι)}
    (hh : ∀ j, (s.node j).chain.height ≠ b.header.height) (hj : s.jobs = []) (hf : s.flying = js)
    (hr : Run u G b s es s') (he : ∀ e ∈ es, e ≠ .other) :
    (∀ j, (s'.node j).chain.height ≠ b.header.height) ∧ s'.jobs = [] ∧
      ∃ done, (done ++ s'.flying).Subperm js ∧ done.map List.head? = (receivers es).map some := by
  induction hr with
  | refl => exact ⟨hh, hj, [], by rw [hf]; exact List.Subperm.refl _, rfl⟩
  | @next t t' es e hr hs ih =>
    obtain ⟨h1, h2, done, h3, h4⟩ := ih fun e' h' => he e' (List.mem_append_left _ h')
    have hperm : ∀ (l r : List (List ι)) (p : List ι), t.flying = l ++ p :: r →
        (done ++ [p] ++ (l ++ r)).Subperm js := by
      intro l r p hp
      refine List.Perm.subperm ?_ |>.trans h3
      rw [hp, List.append_assoc]
      exact List.Perm.append_left _ (List.perm_middle (l₁ := l)).symm
    cases hs with
    | deliver l r i j route w hw hf' hd =>
      obtain ⟨e1, -⟩ := receive_done hd
      refine ⟨?_, ?_, done ++ [j :: i :: route], hperm _ _ _ hf', ?_⟩
      · intro k
        show (Function.update t.node j _ k).chain.height ≠ _
        by_cases e : k = j
        · subst e; rw [Function.update_self, e1]; exact h1 k
        · rw [Function.update_of_ne e]; exact h1 k
      · show t.jobs ++ _ = []
        rw [h2, e1]
        simp only [started]
        rw [if_neg (fun e => h1 j e.symm)]
        rfl
      · rw [List.map_append, h4]; simp [receivers, List.filterMap_append]
    | fails l r i j route w hw hf' hd =>
      refine ⟨h1, h2, done ++ [j :: i :: route], hperm _ _ _ hf', ?_⟩
      rw [List.map_append, h4]; simp [receivers, List.filterMap_append]
    | look l r j route job i st hj' => rw [h2] at hj'; cases l <;> cases hj'
    | send l r j k route job i c hj' => rw [h2] at hj'; cases l <;> cases hj'
    | lost l r p hf' =>
      refine ⟨h1, h2, done, ?_, by rw [h4]; simp [receivers, List.filterMap_append]⟩
      refine List.Sublist.subperm ?_ |>.trans h3
      rw [hf']
      exact (List.Sublist.refl _).append ((List.Sublist.refl _).append (List.sublist_cons_self _ _))
    | other j n hk hw => exact absurd rfl (he .other (by simp))

end Gringo.Gossip
