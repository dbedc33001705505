import Verif.Proofs.ProgramCount
import Verif.Props.Relay
/-
The goroutines of `PropagateBlock` in Model/Program.lean.
-/
namespace Gringo.Program
open Gringo.P2P Gringo.Spec Gringo.Props

variable {E : Env} {remote : Nat → String} {chain : Chain E} {storage : Storage E} {mempool : Option (Transaction E → Out Unit)}

theorem RunWhile.reachable {P : State E → Prop} {s t : State E} (h : Reachable remote chain storage mempool s)
    (hr : RunWhile remote P s t) : Reachable remote chain storage mempool t ∧ P t := by
  induction hr with
  | refl hp => exact ⟨h, hp⟩
  | next _ hd hp hs hP ih => exact ⟨ih.1.next hd hp hs, hP⟩

theorem mem_blocksOf {ms : List (Message E)} {b : Block E} : b ∈ blocksOf ms ↔ .block b ∈ ms := by
  unfold blocksOf
  rw [List.mem_filterMap]
  constructor
  · rintro ⟨m, hm, e⟩
    cases m <;> simp at e
    subst e; exact hm
  · intro h; exact ⟨_, h, rfl⟩

/-- Connections stay, and so do the blocks that were handed to them. -/
theorem conns_step {s s' : State E} (hi : Inv remote chain storage mempool s) {k : Lifecycle.Kind} (hs : Step remote k s s')
    {x : Whole.Conn (Message E)} (hx : x ∈ s.pool.conns) :
    ∃ y ∈ s'.pool.conns, y.id = x.id ∧ y.addr = x.addr ∧ ∀ b, .block b ∈ handed x → .block b ∈ handed y := by
  have one : ∀ {l r : List (Whole.Conn (Message E))} {u v : Whole.Conn (Message E)}, s.pool.conns = l ++ u :: r →
      s'.pool.conns = l ++ v :: r → v.id = u.id → v.addr = u.addr → (∀ m, m ∈ handed u → m ∈ handed v) →
      ∃ y ∈ s'.pool.conns, y.id = x.id ∧ y.addr = x.addr ∧ ∀ b, .block b ∈ handed x → .block b ∈ handed y := by
    intro l r u v h1 h2 h3 h4 h5
    rw [h1] at hx
    rcases mem_changed (y := v) hx with rfl | hx
    · exact ⟨v, by rw [h2]; simp, h3, h4, fun b => h5 _⟩
    · exact ⟨x, by rw [h2]; exact hx, rfl, rfl, fun _ => id⟩
  cases hs with
  | pool k q hs hr hw hm =>
    obtain ⟨y, hy, h1, h2, -⟩ := comes_of hi.whole hs hx
    refine ⟨y, hy, h1, h2, fun b hb => ?_⟩
    rw [← mem_blocksOf, handed_pool hi.whole hs hm hx hy h1, mem_blocksOf]
    exact hb
  | relay l' r' j i l r u hj hi' hn hu =>
    exact one hu rfl rfl rfl fun m hm => by rw [handed_calls]; exact List.mem_append_left _ hm
  | skip l r u c rest hu hr ht h0 => exact one hu rfl rfl rfl fun m hm => hm
  | process l r u w m hu => exact one hu rfl rfl rfl fun m hm => hm
  | answer l r u w m a hu => exact one hu rfl rfl rfl fun m hm => hm
  | ban l r u w m hu => exact one hu rfl rfl rfl fun m hm => hm
  | banOther l r u y w m i hx hr ht hs hy he hf hpe hne =>
    exact one hy rfl rfl rfl fun m hm => by
      rw [handed_call y (t := .disconnect .cas) (fun m => ⟨nofun, nofun⟩)]; exact hm
  | _ => exact ⟨x, hx, rfl, rfl, fun _ => id⟩

/-- What becomes of a goroutine in a step. -/
theorem job_step {s s' : State E} {k : Lifecycle.Kind} (hs : Step remote k s s') {j : Job E} (hj : j ∈ s.jobs) :
    j ∈ s'.jobs ∨ ∃ i st, s.pool.table.find j.addr = some i ∧ j.next i = some st ∧ { j with stage := st } ∈ s'.jobs ∧
      ∀ c, st = .sent c → ∃ y ∈ s'.pool.conns, y.id = c ∧ .block j.block ∈ handed y := by
  cases hs with
  | look l' r' k i st h hi' hn hst =>
    rw [h] at hj
    rcases mem_changed (y := { k with stage := st }) hj with rfl | hj
    · exact .inr ⟨i, st, hi', hn, by simp, fun c e => absurd e (hst c)⟩
    · exact .inl hj
  | relay l' r' k i l r x h hi' hn hx =>
    rw [h] at hj
    rcases mem_changed (y := { k with stage := .sent x.id }) hj with rfl | hj
    · refine .inr ⟨i, _, hi', hn, by simp, fun c e => ?_⟩
      cases e
      exact ⟨x.calls (.send (.block j.block)), by simp, rfl, by rw [handed_calls]; simp⟩
    · exact .inl hj
  | process => exact .inl (List.mem_append_left _ hj)
  | answer => exact .inl (List.mem_append_left _ hj)
  | _ => exact .inl hj

/-- The goroutine for an address that is behind. -/
structure OnIts (s : State E) (a : String) (b : Block E) (light : Prop) : Prop where
  link : ∃ y ∈ s.pool.conns, y.addr = a
  job : ∃ j ∈ s.jobs, j.addr = a ∧ j.block = b ∧ j.stage ≠ .known ∧ j.stage ≠ .noPeer ∧ (j.stage = .weight → light) ∧
    ∀ c, j.stage = .sent c → ∃ y ∈ s.pool.conns, y.addr = a ∧ .block b ∈ handed y

/-- The entry of an address to which there is a connection. -/
theorem entry_of {s : State E} (hi : Inv remote chain storage mempool s) {x : Whole.Conn (Message E)}
    (hx : x ∈ s.pool.conns) : ∃ i c, s.pool.table.find x.addr = some i ∧ i.peer = some c ∧
      ∃ y ∈ s.pool.conns, y.id = c ∧ y.addr = x.addr := by
  obtain ⟨-, p, hr, hwr⟩ := Whole.refines hi.whole
  have hl : x.abs ∈ p.links := by rw [hwr.links]; exact List.mem_map.2 ⟨x, hx, rfl⟩
  have hk := (find_isSome_iff _ _).2 ((PoolRun.inv_reachable hr).known.links x.abs hl)
  obtain ⟨i, hf⟩ := Option.isSome_iff_exists.1 hk
  have hp := peered_reachable hr x.abs hl i hf
  obtain ⟨c, hc⟩ := Option.ne_none_iff_exists'.1 hp
  obtain ⟨y, hy, e1, e2⟩ := (PoolRun.inv_reachable hr).entries.peer _ i c hf hc
  rw [hwr.links] at hy
  obtain ⟨z, hz, rfl⟩ := List.mem_map.1 hy
  rw [hwr.table] at hf
  exact ⟨i, c, hf, hc, z, hz, e1, e2⟩

theorem onits_step {s s' : State E} (hi : Inv remote chain storage mempool s) (hi' : Inv remote chain storage mempool s')
    {k : Lifecycle.Kind} (hs : Step remote k s s') {a : String}
    {b : Block E} {light : Prop} (h : OnIts s a b light)
    (hlow : ∀ i, s.pool.table.find a = some i → i.height.toNat < b.header.height.toNat ∨ light)
    (hlight : light → ∀ i, s.pool.table.find a = some i → i.totalDifficulty.toNat < b.header.totalDifficulty.toNat) :
    OnIts s' a b light := by
  obtain ⟨⟨x, hx, hxa⟩, j, hj, j1, j2, j3, j4, j5, j6⟩ := h
  refine ⟨?_, ?_⟩
  · obtain ⟨y, hy, -, e, -⟩ := conns_step hi hs hx
    exact ⟨y, hy, e.trans hxa⟩
  · rcases job_step hs hj with hj' | ⟨i, st, hf, hn, hj', hsent⟩
    · refine ⟨j, hj', j1, j2, j3, j4, j5, fun c hc => ?_⟩
      obtain ⟨y, hy, e1, e2⟩ := j6 c hc
      obtain ⟨z, hz, -, e3, e4⟩ := conns_step hi hs hy
      exact ⟨z, hz, e3.trans e1, e4 b e2⟩
    · have hst : st ≠ .known ∧ st ≠ .noPeer ∧ (st = .weight → light) := by
        obtain ⟨i', c, g1, g2, -⟩ := entry_of hi hx
        rw [hxa, ← j1, hf] at g1
        cases g1
        unfold Job.next Relay.Job.next at hn
        dsimp only at hn
        rw [j1] at hf
        cases hst : j.stage <;> rw [hst] at hn <;> simp only [Option.some.injEq] at hn
        · subst hn
          split
          · exact ⟨nofun, nofun, nofun⟩
          · rename_i hlt
            refine ⟨nofun, nofun, fun _ => (hlow i hf).resolve_left fun hl => hlt ?_⟩
            rw [j2]
            exact UInt64.lt_iff_toNat_lt.2 hl
        · subst hn
          have : i.totalDifficulty < j.block.header.totalDifficulty := by
            rw [j2]
            exact UInt64.lt_iff_toNat_lt.2 (hlight (j5 hst) i hf)
          rw [if_pos this]
          exact ⟨nofun, nofun, nofun⟩
        · rw [g2] at hn
          simp only [Option.some.injEq] at hn
          subst hn
          exact ⟨nofun, nofun, nofun⟩
        all_goals cases hn
      refine ⟨_, hj', j1, j2, hst.1, hst.2.1, hst.2.2, fun c hc => ?_⟩
      obtain ⟨y, hy, e1, e2⟩ := hsent c hc
      refine ⟨y, hy, ?_, j2 ▸ e2⟩
      subst hc
      have hp := (next_peer hn c).2 rfl
      obtain ⟨i', c', g1, g2, z, hz, g3, g4⟩ := entry_of hi hx
      rw [hxa, ← j1, hf] at g1
      cases g1
      rw [hp] at g2
      cases g2
      obtain ⟨z', hz', g5, g6, -⟩ := conns_step hi hs hz
      rw [Whole.same_id hi'.whole hy hz' (e1.trans (g3.symm.trans g5.symm)), g6, g4, hxa]

/-- The goroutine can go on until it has ended. -/
theorem goes_on {s : State E} (hi : Inv remote chain storage mempool s) {x : Whole.Conn (Message E)}
    (hx : x ∈ s.pool.conns) {j : Job E} (hj : j ∈ s.jobs) (ha : j.addr = x.addr)
    (hl : j.stage = .weight → ∀ i, s.pool.table.find j.addr = some i → i.totalDifficulty < j.block.header.totalDifficulty)
    (hst : j.stage = .height ∨ j.stage = .weight ∨ j.stage = .peer) :
    ∃ l r s' st, s.jobs = l ++ j :: r ∧ Step remote .own s s' ∧ s'.jobs = l ++ { j with stage := st } :: r ∧
      ((j.stage = .height ∧ (st = .weight ∨ st = .peer)) ∨ (j.stage = .weight ∧ st = .peer) ∨
        (j.stage = .peer ∧ ∃ c, st = .sent c)) := by
  obtain ⟨l, r, e⟩ := List.append_of_mem hj
  obtain ⟨i, c, h1, h2, y, hy, h3, -⟩ := entry_of hi hx
  rw [← ha] at h1
  rcases hst with hst | hst | hst
  · by_cases hlt : i.height < j.block.header.height
    · exact ⟨l, r, _, .peer, e, .look l r j i .peer e h1 (by simp [Job.next, Relay.Job.next, hst, hlt]) nofun, rfl,
        .inl ⟨hst, .inr rfl⟩⟩
    · exact ⟨l, r, _, .weight, e, .look l r j i .weight e h1 (by simp [Job.next, Relay.Job.next, hst, hlt]) nofun, rfl,
        .inl ⟨hst, .inl rfl⟩⟩
  · have hlt := hl hst i h1
    exact ⟨l, r, _, .peer, e, .look l r j i .peer e h1 (by simp [Job.next, Relay.Job.next, hst, hlt]) nofun, rfl,
      .inr (.inl ⟨hst, rfl⟩)⟩
  · obtain ⟨l2, r2, hy2⟩ := List.append_of_mem hy
    exact ⟨l, r, _, .sent y.id, e, .relay l r j i l2 r2 y e h1 (by simp [Job.next, Relay.Job.next, hst, h2, h3]) hy2, rfl,
      .inr (.inr ⟨hst, _, rfl⟩)⟩

/-- The step in which a block that the node accepts has been handled. -/
theorem handled_starts {s s' : State E} (hi : Inv remote chain storage mempool s) {k : Lifecycle.Kind} (hs : Step remote k s s') {c : Nat} {b : Block E}
    (hok : (s.chain.processBlock s.storage b).1 = .ok ()) (hh : b.header.height = s.chain.height)
    (h0 : (s.io c).task = some (.block b)) (h1 : (s'.io c).task = none) {a : String} (ha : a ∈ s.pool.online) :
    (⟨a, b, .height⟩ : Job E) ∈ s'.jobs := by
  have other : ∀ {d : Nat} {io : Reading E}, (Function.update s.io d io c).task = none → c = d ∧ io.task = none := by
    intro d io h
    by_cases e : c = d
    · subst e; rw [Function.update_self] at h; exact ⟨rfl, h⟩
    · rw [Function.update_of_ne e, h0] at h; cases h
  have done : ∀ {x : Whole.Conn (Message E)} {w : World} {m : Message E}, (s.io x.id).task = some m → c = x.id →
      (⟨a, b, .height⟩ : Job E) ∈ s.jobs ++ started s.pool.online (processMessage w s.node (sender remote x) m).node.chain m := by
    intro x w m ht e
    subst e
    rw [h0] at ht
    cases ht
    obtain ⟨t, en, -⟩ := process_touches w s.node (sender remote x) (.block b)
    refine List.mem_append_right _ ?_
    unfold started
    rw [en]
    have hh : b.header.height = s.node.chain.height := hh
    dsimp only
    rw [if_pos hh]
    exact List.mem_map.2 ⟨a, ha, rfl⟩
  cases hs with
  | pool k q => have h1 : (s.io c).task = none := h1; rw [h0] at h1; cases h1
  | look => have h1 : (s.io c).task = none := h1; rw [h0] at h1; cases h1
  | relay => have h1 : (s.io c).task = none := h1; rw [h0] at h1; cases h1
  | readerDies => have h1 : (s.io c).task = none := h1; rw [h0] at h1; cases h1
  | processDies => have h1 : (s.io c).task = none := h1; rw [h0] at h1; cases h1
  | writerDies => have h1 : (s.io c).task = none := h1; rw [h0] at h1; cases h1
  | arrive d bs =>
    obtain ⟨rfl, h⟩ := other h1
    have h : (s.io c).task = none := h
    rw [h0] at h; cases h
  | skip l r x d rest hx hr ht h =>
    obtain ⟨rfl, h⟩ := other h1
    rw [h0] at ht; cases ht
  | read x m d rest hx hr ht h =>
    obtain ⟨rfl, h⟩ := other h1
    cases h
  | process l r x w m hx hr ht hs hw hl he ha => exact done ht (other h1).1
  | answer l r x w m a hx hr ht hs hw hl he ha => exact done ht (other h1).1
  | ban l r x w m hx hr ht hs he =>
    obtain ⟨rfl, -⟩ := other h1
    rw [h0] at ht
    cases ht
    have hk : Known s.node (sender remote x) := (C64_goroutines s.pool s.pool hi.whole .here x (by rw [hx]; simp)).1
    rw [process_known w s.node _ hk] at he
    have hok : (s.node.chain.processBlock s.node.storage b).1 = .ok () := hok
    simp only [handle, orBan, hok] at he
    cases he
  | banOther l r x y w m i hx hr ht hs hy he hf hpe hne =>
    obtain ⟨rfl, h⟩ := other h1
    have h : (s.io x.id).task = none := h
    rw [h0] at h; cases h

/-- What has become of a call of `WriteMessage`. -/
theorem call_done {M : Type} {frame : M → Bytes} {p : Lifecycle.Peer M} (h : Lifecycle.Reachable frame p) {m : M}
    (hm : .sent m false ∈ p.threads) : p.flag = true := by
  induction h with
  | new => cases hm
  | @step p q k hr hs ih =>
    have hi := Lifecycle.inv_reachable hr
    have keep := fun h => Whole.flag_step hs (ih h)
    have qf : 0 < p.quit → p.flag = true := fun hq => by
      have := hi.quit
      cases hf : p.flag
      · rw [hf] at this; simp at this; omega
      · rfl
    have d : ∀ {d d' : Lifecycle.Disc} {s0 : Lifecycle.Peer M}, Lifecycle.DiscStep d p d' s0 →
        s0.threads = p.threads := by
      intro d d' s0 hd; cases hd <;> rfl
    cases hs with
    | closingStep _ s0 _ _ hd hs => exact keep ((d hs) ▸ hm)
    | readerLeave _ s0 _ _ hd hs => exact keep ((d hs) ▸ hm)
    | writerLeave _ s0 _ _ hd hs => exact keep ((d hs) ▸ hm)
    | threadDisc _ s0 l r d d' hd hs => exact keep (by rw [hd]; simpa using hm)
    | sendQuit _ l r m' hl hq => exact qf hq
    | sendTaken _ l r m' hl hw => exact keep (by rw [hl]; simpa using hm)
    | waitQuit _ l r hl _ => exact keep (by rw [hl]; simpa using hm)
    | waitEnd _ l r hl _ => exact keep (by rw [hl]; simpa using hm)
    | callSend _ m' => exact keep (by simpa using hm)
    | callWait => exact keep (by simpa using hm)
    | callDisconnect => exact keep (by simpa using hm)
    | _ => exact keep hm

end Gringo.Program
