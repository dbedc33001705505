import Verif.Proofs.ProgramRelay
import Verif.Proofs.Rest
import Verif.Proofs.Closers
import Verif.Spec.ProgramRest
/-
Helper lemmas for Props/ProgramRest.lean.
-/
namespace Gringo.Program
open Gringo.P2P Gringo.Spec Gringo.Props

variable {E : Env} {remote : Nat → String} {chain : Chain E} {storage : Storage E} {mempool : Option (Transaction E → Out Unit)}

/-! ### A read loop that closes its own connection does so in `Ban` -/

theorem closing_from {k : Lifecycle.Kind} {p q : Lifecycle.Peer (Message E)} (hs : Lifecycle.Step Talk.frame k p q)
    {d : Lifecycle.Disc} (h : q.reader = .closing d) :
    (∃ d', p.reader = .closing d') ∨ p.reader = .handling .close := by
  have d : ∀ {d d' : Lifecycle.Disc} {z : Lifecycle.Peer (Message E)}, Lifecycle.DiscStep d p d' z →
      z.reader = p.reader := by
    intro d d' z h; cases h <;> rfl
  cases hs with
  | handleClose _ hr => exact .inr hr
  | closingStep _ _ d0 _ hr => exact .inl ⟨d0, hr⟩
  | writerLeave _ s0 _ _ _ hd => exact .inl ⟨_, (d hd).symm.trans h⟩
  | threadDisc _ s0 _ _ _ _ _ hd => exact .inl ⟨_, (d hd).symm.trans h⟩
  | _ => first | exact .inl ⟨_, h⟩ | cases h

theorem bans_mono {w w' : Whole.State (Message E)} {k : Lifecycle.Kind} (hs : Whole.Step Talk.frame ping ask w k w')
    {b : Whole.Ban} (h : b ∈ w.bans) : b ∈ w'.bans := by
  cases hs with
  | banSelf => exact List.mem_append_left _ h
  | banOther => exact List.mem_append_left _ h
  | _ => exact h

theorem banning_reachable {s : State E} (h : Reachable remote chain storage mempool s) :
    ∀ x ∈ s.pool.conns, ∀ d, x.peer.reader = .closing d → ∃ b ∈ s.pool.bans, b.conn = x.id ∧ b.call = none := by
  induction h with
  | new => intro x hx; cases hx
  | @next s s' k h hd hp hs ih =>
    have hi := inv_reachable h
    have one : ∀ {l r : List (Whole.Conn (Message E))} {u v : Whole.Conn (Message E)}, s.pool.conns = l ++ u :: r →
        s'.pool.conns = l ++ v :: r → v.id = u.id → (∀ d, v.peer.reader = .closing d → ∃ d, u.peer.reader = .closing d) →
        (∀ b ∈ s.pool.bans, b ∈ s'.pool.bans) →
        ∀ x ∈ s'.pool.conns, ∀ d, x.peer.reader = .closing d → ∃ b ∈ s'.pool.bans, b.conn = x.id ∧ b.call = none := by
      intro l r u v h1 h2 h3 h4 h5 x hx d hr
      rw [h2] at hx
      rcases Whole.mem_replaced (x := u) hx with rfl | hx
      · obtain ⟨d', hd'⟩ := h4 d hr
        obtain ⟨b, hb, e⟩ := ih u (by rw [h1]; simp) d' hd'
        exact ⟨b, h5 b hb, by rw [h3]; exact e⟩
      · obtain ⟨b, hb, e⟩ := ih x (by rw [h1]; exact hx) d hr
        exact ⟨b, h5 b hb, e⟩
    cases hs with
    | pool k q hs hr hw hm =>
      intro y hy d hrd
      rcases Whole.conn_from hi.whole hs hy with ⟨h1, -⟩ | ⟨x, hx, h1, h2, h3, -⟩
      · rw [h1] at hrd; cases hrd
      · have : ∃ d', x.peer.reader = .closing d' := by
          rcases h3 with h3 | ⟨k', h3⟩
          · exact ⟨d, h3 ▸ hrd⟩
          · exact (closing_from h3 hrd).resolve_right ((hi.calm x hx).2 _)
        obtain ⟨d', hd'⟩ := this
        obtain ⟨b, hb, e⟩ := ih x hx d' hd'
        exact ⟨b, bans_mono hs hb, by rw [h1]; exact e⟩
    | relay l' r' j i l r u hj hi' hn hu => exact one hu rfl rfl (fun d e => ⟨d, e⟩) fun _ => id
    | skip l r u c rest hu hr ht h0 => exact one hu rfl rfl (fun d e => by cases e) fun _ => id
    | process l r u w m hu => exact one hu rfl rfl (fun d e => by cases e) fun _ => id
    | answer l r u w m a hu => exact one hu rfl rfl (fun d e => by cases e) fun _ => id
    | ban l r u w m hu =>
      intro x hx d hr
      rcases Whole.mem_replaced (x := u) hx with rfl | hx
      · exact ⟨_, List.mem_append_right _ (List.mem_singleton.2 rfl), rfl, rfl⟩
      · obtain ⟨b, hb, e⟩ := ih x (by rw [hu]; exact hx) d hr
        exact ⟨b, List.mem_append_left _ hb, e⟩
    | banOther l r u y w m i hx hr ht hs hy he hf hpe hne =>
      exact one hy rfl rfl (fun d e => ⟨d, e⟩) fun _ => List.mem_append_left _
    | _ => exact ih

/-! ### Steps of the pool -/

/-- A step of the pool that leaves the connections alone. -/
theorem pool_same {s : State E} (hi : Inv remote chain storage mempool s) {k : Lifecycle.Kind} {q : Whole.State (Message E)}
    (hs : Whole.Step Talk.frame ping ask s.pool k q) (hc : q.conns = s.pool.conns) :
    Step remote k s { s with pool := q } := by
  have same : ∀ x ∈ s.pool.conns, ∀ y ∈ q.conns, y.id = x.id → y = x := fun x hx y hy e =>
    Whole.same_id hi.whole (hc ▸ hy) hx e
  refine .pool k q hs (fun x hx y hy e hr => ?_) (fun x hx y hy e m p h1 h2 => ?_) (fun _ x hx y hy e => ?_)
  · rw [same x hx y hy e]; exact .inl hr
  · rw [same x hx y hy e, h1] at h2; cases h2
  · rw [same x hx y hy e]

/-- A step of the pool that changes one connection. -/
theorem pool_one {s : State E} (hi : Inv remote chain storage mempool s) {k : Lifecycle.Kind} {q : Whole.State (Message E)}
    (hs : Whole.Step Talk.frame ping ask s.pool k q) {l r : List (Whole.Conn (Message E))}
    {u v : Whole.Conn (Message E)} (hu : s.pool.conns = l ++ u :: r) (hv : q.conns = l ++ v :: r) (hid : v.id = u.id)
    (hr : u.peer.reader = .reading → v.peer.reader = .reading ∨ ((s.io u.id).task = none ∧ v.peer.reader = .stopping))
    (hw : ∀ m p, u.peer.writer = .got m → v.peer.writer = .writing m p → ∃ b, m.frame = .ok b)
    (hm : q.loop = s.pool.loop → handed v = handed u) : Step remote k s { s with pool := q } := by
  have cases_ : ∀ x ∈ s.pool.conns, ∀ y ∈ q.conns, y.id = x.id → (x = u ∧ y = v) ∨ y = x := by
    intro x hx y hy e
    rw [hv] at hy
    rcases Whole.mem_replaced (x := u) hy with rfl | hy
    · exact .inl ⟨Whole.same_id hi.whole hx (by rw [hu]; simp) (e.symm.trans hid), rfl⟩
    · exact .inr (Whole.same_id hi.whole (by rw [hu]; exact hy) hx e)
  refine .pool k q hs (fun x hx y hy e h1 => ?_) (fun x hx y hy e m p h1 h2 => ?_) (fun hl x hx y hy e => ?_)
  · rcases cases_ x hx y hy e with ⟨rfl, rfl⟩ | rfl
    · exact hr h1
    · exact .inl h1
  · rcases cases_ x hx y hy e with ⟨rfl, rfl⟩ | rfl
    · exact hw m p h1 h2
    · rw [h1] at h2; cases h2
  · rcases cases_ x hx y hy e with ⟨rfl, rfl⟩ | rfl
    · exact hm hl
    · rfl

theorem handed_inner {k : Lifecycle.Kind} {x y : Whole.Conn (Message E)} (hk : k ≠ .call)
    (hs : Lifecycle.Step Talk.frame k x.peer y.peer) : handed y = handed x := by
  unfold handed
  have d : ∀ {d d' : Lifecycle.Disc} {z : Lifecycle.Peer (Message E)}, Lifecycle.DiscStep d x.peer d' z →
      z.threads = x.peer.threads := by
    intro d d' z h; cases h <;> rfl
  generalize hq : y.peer = q at hs ⊢
  clear hq
  cases hs with
  | callDisconnect | callSend | callWait => exact absurd rfl hk
  | closingStep _ s0 _ _ _ hd => show s0.threads.flatMap _ = _; rw [d hd]
  | readerLeave _ s0 _ _ _ hd => show s0.threads.flatMap _ = _; rw [d hd]
  | writerLeave _ s0 _ _ _ hd => show s0.threads.flatMap _ = _; rw [d hd]
  | threadDisc _ s0 l r d0 d' h hd => rw [h]; simp
  | sendQuit _ l r m h hq => rw [h]; simp
  | sendTaken _ l r m h hw => rw [h]; simp
  | waitQuit _ l r h hq => rw [h]; simp
  | waitEnd _ l r h hg => rw [h]; simp
  | _ => rfl

/-- A connection that was not started yet is about to be. -/
theorem starts_reachable {w : Whole.State (Message E)} (h : Whole.Reachable Talk.frame ping ask w) :
    ∀ x ∈ w.conns, x.peer.reader = .notStarted → w.loop.starts = some x.id := by
  induction h with
  | new => intro x hx; cases hx
  | @next w w' k h hp hs ih =>
    intro y hy hr
    rcases Whole.conn_from h hs hy with ⟨-, -, -, -, a, e⟩ | ⟨x, hx, h1, -, h3, -⟩
    · rw [e]; rfl
    have hx0 : x.peer.reader = .notStarted := by
      rcases h3 with h3 | ⟨k', h3⟩
      · rw [← h3]; exact hr
      have d : ∀ {d d' : Lifecycle.Disc} {z : Lifecycle.Peer (Message E)}, Lifecycle.DiscStep d x.peer d' z →
          z.reader = x.peer.reader := by
        intro d d' z h; cases h <;> rfl
      generalize y.peer = q at h3 hr
      cases h3 with
      | writerLeave _ s0 _ _ _ hd => exact (d hd).symm.trans hr
      | threadDisc _ s0 _ _ _ _ _ hd => exact (d hd).symm.trans hr
      | _ => first | exact hr | cases hr
    have e := ih x hx hx0
    rw [h1]
    have no : ∀ {lp : Whole.Loop}, w.loop = lp → lp.starts = none → w'.loop.starts = some x.id := fun hl hn => by
      rw [hl, hn] at e; cases e
    cases hs with
    | start addr l r u hl hu p hr0 hw0 hp0 =>
      rw [hl] at e
      injection e with e
      have : y = { u with peer := p } := Whole.same_id (h.next hp (.start w addr l r u hl hu p hr0 hw0 hp0)) hy (by simp)
        (h1.trans e.symm)
      rw [this, hp0] at hr
      cases hr
    | _ => first | exact e | exact no ‹w.loop = _› rfl

/-- Every goroutine of `PropagateBlock` is for an address to which there is a connection. -/
theorem jobs_reachable {s : State E} (h : Reachable remote chain storage mempool s) :
    ∀ j ∈ s.jobs, ∃ x ∈ s.pool.conns, x.addr = j.addr := by
  induction h with
  | new => intro j hj; cases hj
  | @next s s' k h hd hp hs ih =>
    intro j hj
    have hi := inv_reachable h
    have old : ∀ j0 ∈ s.jobs, j.addr = j0.addr → ∃ x ∈ s'.pool.conns, x.addr = j.addr := fun j0 h0 e => by
      obtain ⟨x, hx, hx'⟩ := ih j0 h0
      obtain ⟨y, hy, -, h2, -⟩ := conns_step hi hs hx
      exact ⟨y, hy, h2.trans (hx'.trans e.symm)⟩
    have one : ∀ {l r : List (Job E)} {a b : Job E}, s.jobs = l ++ a :: r → s'.jobs = l ++ b :: r → b.addr = a.addr →
        ∃ x ∈ s'.pool.conns, x.addr = j.addr := fun {l r a b} h1 h2 h3 => by
      rw [h2] at hj
      rcases mem_changed (y := a) hj with e | hj
      · exact old a (by rw [h1]; simp) (by rw [e, h3])
      · exact old j (by rw [h1]; exact hj) rfl
    have new : ∀ {c : Chain E} {m : Message E}, s'.jobs = s.jobs ++ started s.pool.online c m →
        ∃ x ∈ s'.pool.conns, x.addr = j.addr := fun {c m} e => by
      rw [e] at hj
      rcases List.mem_append.1 hj with hj | hj
      · exact old j hj rfl
      have ha := (started_block hj).2.2.1
      obtain ⟨-, p, hr, hwr⟩ := Whole.refines hi.whole
      obtain ⟨x, hx, e, -⟩ := (PoolRun.inv_reachable hr).online.sub j.addr (by rw [hwr.online]; exact ha)
      rw [hwr.links] at hx
      obtain ⟨z, hz, rfl⟩ := List.mem_map.1 hx
      obtain ⟨y, hy, -, e', -⟩ := conns_step hi hs hz
      exact ⟨y, hy, e'.trans e⟩
    cases hs with
    | look l' r' j0 i st h1 => exact one h1 rfl rfl
    | relay l' r' j0 i l r x h1 => exact one h1 rfl rfl
    | process => exact new rfl
    | answer => exact new rfl
    | _ => exact old j hj rfl

/-! ### What can go on at rest: nothing -/

section Rest

variable {s : State E} (h : Reachable remote chain storage mempool s) (hd : s.dead = false)
  (hp : s.pool.panicked = false) (hr : ProgramAtRest remote s)
include h hd hp hr

omit h in
theorem own_idle {s' : State E} (hs : Step remote .own s s') (hl : s.pool.loop = .select → s'.pool.loop = .select) : False :=
  hr _ ⟨hd, hp, hl, .inl hs⟩

/-- The goroutines of a connection. -/
theorem inner_idle {x : Whole.Conn (Message E)} (hx : x ∈ s.pool.conns) {p : Lifecycle.Peer (Message E)}
    (hs : Lifecycle.Step Talk.frame .own x.peer p)
    (hrd : x.peer.reader = .reading → p.reader = .reading ∨ ((s.io x.id).task = none ∧ p.reader = .stopping)) : False := by
  have hi := inv_reachable h
  obtain ⟨l, r, hl⟩ := List.append_of_mem hx
  by_cases hb : x.peer.reader = .closing .returned
  · obtain ⟨b, hb1, hb2, hb3⟩ := banning_reachable h x hx _ hb
    refine own_idle hd hp hr (pool_same hi (.banEnd _ b hb1 x hx hb2.symm ?_) rfl) id
    rw [hb3]; exact hb
  by_cases hg : ∃ m, x.peer.writer = .got m ∧ x.peer.flag = false ∧ ¬ ∃ b, m.frame = .ok b
  · obtain ⟨m, h1, h2, h3⟩ := hg
    exact own_idle hd hp hr (.writerDies x m hx h1 h2 h3) id
  · obtain ⟨c1, c2⟩ := hi.calm x hx
    refine own_idle hd hp hr (pool_one hi (.inner _ l r x hl .own p (by simp) hs ?_) hl rfl rfl hrd ?_ ?_) id
    · rintro (e | e | e)
      · rw [c1] at e; cases e
      · exact absurd e (c2 _)
      · exact absurd e hb
    · intro m q h1 h2
      exact Classical.byContradiction fun h3 => hg ⟨m, h1, Talk.got_flag hs h1 h2, h3⟩
    · intro _
      exact handed_inner (by simp) hs

/-- Writing. -/
theorem chunk_idle {x : Whole.Conn (Message E)} (hx : x ∈ s.pool.conns) {m : Message E} {b : UInt8} {q : Bytes}
    (hw : x.peer.writer = .writing m (b :: q)) (hc : x.peer.conn = 0) : False := by
  have hi := inv_reachable h
  obtain ⟨l, r, hl⟩ := List.append_of_mem hx
  have hs : Lifecycle.Step Talk.frame .remote x.peer _ := .chunk x.peer m [b] q (by rw [hw]; rfl) (by simp) hc
  have hs' := pool_one hi (.inner _ l r x hl .remote _ (by simp) hs fun _ => rfl) hl rfl rfl
    (fun h => .inl h) (fun m q h1 h2 => by rw [hw] at h1; cases h1) (fun _ => rfl)
  refine hr _ ⟨hd, hp, ?_, .inr ⟨hs', ?_⟩⟩
  · exact id
  unfold wires
  rw [hl]
  simp

omit hd hp hr in
theorem begun_none {x : Whole.Conn (Message E)} (hx : x ∈ s.pool.conns) (hf : x.peer.flag = false) :
    ∀ d ∈ x.peer.discs, d = .cas := fun d h1 => Classical.byContradiction fun h2 => by
  have := Talk.begun_flag ((Whole.inv_reachable (inv_reachable h).whole).conns x hx).peer d h1 h2
  rw [hf] at this; cases this

/-- The write handler of a connection that nobody closes waits for a message. -/
theorem writer_rest {x : Whole.Conn (Message E)} (hx : x ∈ s.pool.conns) (hf : x.peer.flag = false)
    (hs : x.peer.reader ≠ .notStarted) : x.peer.writer = .select := by
  have hv := Lifecycle.inv_reachable ((Whole.inv_reachable (inv_reachable h).whole).conns x hx).peer
  have hc : x.peer.conn = 0 := by have := hv.conn; rw [hf] at this; simp at this; omega
  have nd := begun_none h hx hf
  cases hw : x.peer.writer with
  | notStarted => exact absurd (hv.both.2 hw) hs
  | select => rfl
  | got m => exact (inner_idle h hd hp hr hx (.gotWrite _ m hw hf) .inl).elim
  | writing m q =>
    cases q with
    | nil => exact (inner_idle h hd hp hr hx (.writeDone _ m hw) .inl).elim
    | cons b q => exact (chunk_idle h hd hp hr hx hw hc).elim
  | stopping => exact (inner_idle h hd hp hr hx (.writerDone _ hw) .inl).elim
  | leaving d =>
    have := nd d (by simp [Lifecycle.Peer.discs, Lifecycle.Writer.discs, hw])
    subst this
    exact (inner_idle h hd hp hr hx (.writerLeave _ _ _ _ hw (.win _ hf)) .inl).elim

/-- No call of `WriteMessage` waits. -/
theorem no_send {x : Whole.Conn (Message E)} (hx : x ∈ s.pool.conns) (hs : x.peer.reader ≠ .notStarted) {m : Message E}
    (hm : .send m ∈ x.peer.threads) : False := by
  have hv := Lifecycle.inv_reachable ((Whole.inv_reachable (inv_reachable h).whole).conns x hx).peer
  obtain ⟨l, r, e⟩ := List.append_of_mem hm
  cases hf : x.peer.flag with
  | false => exact inner_idle h hd hp hr hx (.sendTaken _ l r m e (writer_rest h hd hp hr hx hf hs)) .inl
  | true =>
    by_cases hq : 0 < x.peer.quit
    · exact inner_idle h hd hp hr hx (.sendQuit _ l r m e hq) .inl
    have h1 := hv.quit
    rw [hf, Nat.eq_zero_of_not_pos hq] at h1
    have h2 : Lifecycle.Disc.won ∈ x.peer.discs := List.count_pos_iff.1 (by simp at h1; omega)
    simp only [Lifecycle.Peer.discs, List.mem_append] at h2
    rcases h2 with h2 | h2 | h2
    · cases hrd : x.peer.reader with
      | closing d =>
        rw [hrd] at h2
        rw [← List.mem_singleton.1 h2] at hrd
        exact inner_idle h hd hp hr hx (.closingStep _ _ _ _ hrd (.closeQuit _)) (fun e => by rw [hrd] at e; cases e)
      | leaving d =>
        rw [hrd] at h2
        rw [← List.mem_singleton.1 h2] at hrd
        exact inner_idle h hd hp hr hx (.readerLeave _ _ _ _ hrd (.closeQuit _)) (fun e => by rw [hrd] at e; cases e)
      | _ => rw [hrd] at h2; cases h2
    · cases hw : x.peer.writer with
      | leaving d =>
        rw [hw] at h2
        rw [← List.mem_singleton.1 h2] at hw
        exact inner_idle h hd hp hr hx (.writerLeave _ _ _ _ hw (.closeQuit _)) .inl
      | _ => rw [hw] at h2; cases h2
    · obtain ⟨t, ht, h2⟩ := List.mem_flatMap.1 h2
      cases t with
      | disconnect d =>
        rw [← List.mem_singleton.1 h2] at ht
        obtain ⟨l, r, e⟩ := List.append_of_mem ht
        exact inner_idle h hd hp hr hx (.threadDisc _ _ l r _ _ e (.closeQuit _)) .inl
      | _ => cases h2

/-- The loop of the pool waits for its next turn or for a remote host, or was stopped. -/
theorem loop_rest :
    s.pool.loop = .select ∨ (∃ a, s.pool.loop = .dialing a) ∨ (∃ a c, s.pool.loop = .greeting a c) ∨
    s.pool.loop = .stopped := by
  have hi := inv_reachable h
  have free : ∀ a, s.pool.loop.holds = none → s.pool.loop ≠ .stopped → ¬ s.pool.locked a := by
    rintro a e e' (h1 | h1 | ⟨c, k, h1⟩)
    · rw [e] at h1; cases h1
    all_goals rw [(Whole.inv_reachable hi.whole).stopped e'] at h1; cases h1
  have there : ∀ c a, s.pool.loop.at = some (c, a) → ∃ l x r, s.pool.conns = l ++ x :: r ∧ x.id = c := fun c a e => by
    obtain ⟨z, hz, z1, -⟩ := Whole.at_conn hi.whole c a e
    obtain ⟨l, r, e⟩ := List.append_of_mem hz
    exact ⟨l, z, r, e, z1⟩
  have sent : ∀ x ∈ s.pool.conns, ∀ k, s.pool.loop.sends = some (x.id, k) → ∃ m b, x.call k = some (.sent m b) := by
    intro x hx k e
    have h1 := (Whole.tied hi.whole x hx).sends k e
    unfold Whole.Conn.sortOf at h1
    rw [List.getElem?_map] at h1
    cases hc : x.peer.threads[k]? with
    | none => rw [hc] at h1; cases h1
    | some t =>
      rw [hc] at h1
      cases t with
      | sent m b => exact ⟨m, b, hc⟩
      | send m =>
        refine (no_send h hd hp hr hx (fun e' => ?_) (List.mem_of_getElem? hc)).elim
        have := starts_reachable hi.whole x hx e'
        cases hl : s.pool.loop <;> rw [hl] at this e <;> contradiction
      | _ => cases h1
  cases hl : s.pool.loop with
  | select => exact .inl rfl
  | dialing a => exact .inr (.inl ⟨a, rfl⟩)
  | greeting a c => exact .inr (.inr (.inl ⟨a, c, rfl⟩))
  | stopped => exact .inr (.inr (.inr rfl))
  | choosing =>
    exact (own_idle hd hp hr (pool_same hi (.choose _ s.pool.table s.pool.table hl (.refl _) (.refl _)) rfl)
      (fun e => by rw [hl] at e; cases e)).elim
  | connecting a =>
    by_cases h0 : a = ""
    · subst h0
      exact (own_idle hd hp hr (pool_same hi (.nothing _ hl) rfl) (fun e => by rw [hl] at e; cases e)).elim
    by_cases h1 : s.pool.connected > maxOnlineConnections
    · exact (own_idle hd hp hr (pool_same hi (.tooMany _ a hl h0 h1) rfl) (fun e => by rw [hl] at e; cases e)).elim
    have h1 := not_lt.1 h1
    cases h2 : s.pool.table.find a with
    | none =>
      exact (own_idle hd hp hr (pool_same hi (.missing _ a hl h0 h1 h2) rfl) (fun e => by rw [hl] at e; cases e)).elim
    | some i =>
      have h3 := free a (by rw [hl]; rfl) (by rw [hl]; simp)
      by_cases h4 : i.status = .banned ∨ i.status = .connected
      · exact (own_idle hd hp hr (pool_same hi (.skip _ a i hl h0 h1 h2 h3 h4) rfl) (fun e => by rw [hl] at e; cases e)).elim
      · exact (own_idle hd hp hr (pool_same hi (.dial _ a i hl h0 h1 h2 h3 h4) rfl) (fun e => by rw [hl] at e; cases e)).elim
  | counting a c t n =>
    have hnew := Whole.counting_new hi.whole a c t n hl
    have same : ∀ x ∈ s.pool.conns, ∀ y ∈ s.pool.conns ++ [{ id := c, addr := a, peer := .new _, watch := .unborn, lock := .before }],
        y.id = x.id → y = x := fun x hx y hy e => by
      rcases List.mem_append.1 hy with hy | hy
      · exact Whole.same_id hi.whole hy hx e
      · rw [List.mem_singleton.1 hy] at e
        exact absurd e.symm (hnew x hx)
    refine (own_idle hd hp hr (.pool .own _ (.register _ a c t ⟨0, 0⟩ n hl) (fun x hx y hy e h1 => ?_)
      (fun x hx y hy e m p h1 h2 => ?_) (fun hl' => ?_)) (fun e => by rw [hl] at e; cases e)).elim
    · rw [same x hx y hy e]; exact .inl h1
    · rw [same x hx y hy e, h1] at h2; cases h2
    · rw [hl] at hl'; cases hl'
  | starting a c =>
    obtain ⟨l, x, r, e, e1⟩ := there c a (by rw [hl]; rfl)
    subst e1
    obtain ⟨h1, h2⟩ := (Whole.tied hi.whole x (by rw [e]; simp)).starts (by rw [hl]; rfl)
    exact (own_idle hd hp hr (pool_one hi (.start _ a l r x hl e _ h1 h2 rfl) e rfl rfl (fun h => by rw [h1] at h; cases h)
      (fun m p h _ => by rw [h2] at h; cases h) (fun h => by rw [hl] at h; cases h)) (fun e => by rw [hl] at e; cases e)).elim
  | pinging a c =>
    obtain ⟨l, x, r, e, e1⟩ := there c a (by rw [hl]; rfl)
    subst e1
    exact (own_idle hd hp hr (pool_one hi (.ping _ a l r x hl e) e rfl rfl .inl
      (fun m p h h' => by have h' : x.peer.writer = _ := h'; rw [h] at h'; cases h') (fun h => by rw [hl] at h; cases h))
      (fun e => by rw [hl] at e; cases e)).elim
  | pinged a c k =>
    obtain ⟨l, x, r, e, e1⟩ := there c a (by rw [hl]; rfl)
    subst e1
    obtain ⟨m, b, hk⟩ := sent x (by rw [e]; simp) k (by rw [hl]; rfl)
    exact (own_idle hd hp hr (pool_one hi (.ask _ a k m b l r x hl e hk) e rfl rfl .inl
      (fun m p h h' => by have h' : x.peer.writer = _ := h'; rw [h] at h'; cases h') (fun h => by rw [hl] at h; cases h))
      (fun e => by rw [hl] at e; cases e)).elim
  | asked a c k =>
    obtain ⟨l, x, r, e, e1⟩ := there c a (by rw [hl]; rfl)
    subst e1
    obtain ⟨m, b, hk⟩ := sent x (by rw [e]; simp) k (by rw [hl]; rfl)
    exact (own_idle hd hp hr (pool_one hi (.spawn _ a k m b l r x hl e hk) e rfl rfl .inl
      (fun m p h h' => by have h' : x.peer.writer = _ := h'; rw [h] at h'; cases h') (fun h => by rw [hl] at h; cases h))
      (fun e => by rw [hl] at e; cases e)).elim
  | failed =>
    have : 0 < s.pool.slots := by
      obtain ⟨-, p, hr, hrel⟩ := Whole.refines hi.whole
      have h1 := (PoolRun.inv_reachable hr).counts.slots
      rw [hrel.loop, hl, hrel.slots] at h1
      simp only [Whole.Loop.abs, PoolRun.token] at h1
      omega
    exact (own_idle hd hp hr (pool_same hi (.release _ hl this) rfl) (fun e => by rw [hl] at e; cases e)).elim
  | sleeping => exact (own_idle hd hp hr (pool_same hi (.wake _ hl) rfl) (fun _ => rfl)).elim

/-- A goroutine of `Stop` has ended, or waits in `Close` for the end of a connection. -/
theorem closer_rest {a : String} {e : Whole.Closer} (he : (a, e) ∈ s.pool.closers) :
    e = .over ∨ ∃ x ∈ s.pool.conns, x.addr = a ∧ ∃ k, e = .closing x.id k ∧ x.call k = some (.disconnect .waiting) := by
  have hi := inv_reachable h
  have hv := Whole.inv_reachable hi.whole
  have hls : s.pool.loop = .stopped := Classical.byContradiction fun e' => by rw [hv.stopped e'] at he; cases he
  have hlp : ∀ {q : Whole.State (Message E)}, s.pool.loop = .select → q.loop = .select := fun e => by rw [hls] at e; cases e
  obtain ⟨l, r, hlr⟩ := List.append_of_mem he
  cases e with
  | over => exact .inl rfl
  | pending =>
    refine (own_idle hd hp hr (pool_same hi (.closeLock _ l r a hlr ?_) rfl) hlp).elim
    rintro (e | e | ⟨c, k, e⟩)
    · rw [hls] at e; cases e
    · cases Whole.one_closer hi.whole he e
    · cases Whole.one_closer hi.whole he e
  | locked =>
    obtain ⟨i, hf⟩ := Option.isSome_iff_exists.1 ((find_isSome_iff _ _).2 ((Whole.closers_keys hi.whole).2 _ he))
    cases hpe : i.peer with
    | none => exact (own_idle hd hp hr (pool_same hi (.closeNil _ a i he hf hpe) rfl) hlp).elim
    | some c =>
      obtain ⟨-, p, hrp, hrel⟩ := Whole.refines hi.whole
      obtain ⟨y, hy, y1, -⟩ := (PoolRun.inv_reachable hrp).entries.peer _ i c (by rw [hrel.table]; exact hf) hpe
      rw [hrel.links] at hy
      obtain ⟨z, hz, rfl⟩ := List.mem_map.1 hy
      have y1 : z.id = c := y1
      subst y1
      obtain ⟨l', r', hl'⟩ := List.append_of_mem hz
      exact (own_idle hd hp hr (pool_one hi (.closeCall _ l r a i l' r' z hlr hf hpe hl') hl' rfl rfl .inl
        (fun m p h1 h2 => by have h2 : z.peer.writer = _ := h2; rw [h1] at h2; cases h2)
        (fun _ => by simp [handed, Whole.Conn.calls])) hlp).elim
  | closing c k =>
    right
    obtain ⟨x, hx, x1, x2, x3⟩ := Whole.closing_call hi.whole a c k he
    subst x1 x2
    refine ⟨x, hx, rfl, k, rfl, ?_⟩
    unfold Whole.Conn.sortOf at x3
    rw [List.getElem?_map] at x3
    cases hc : x.peer.threads[k]? with
    | none => rw [hc] at x3; cases x3
    | some t =>
      rw [hc] at x3
      cases t with
      | disconnect d =>
        by_cases hret : d = .returned
        · subst hret
          exact (own_idle hd hp hr (pool_same hi (.closeDone _ l r _ k x hlr hx hc) rfl) hlp).elim
        by_cases hwt : d = .waiting
        · rw [← hwt]; exact hc
        obtain ⟨d', p, h3⟩ := Lifecycle.disc_enabled d x.peer hret (fun e => absurd e hwt)
        obtain ⟨l1, r1, e⟩ := List.append_of_mem (List.mem_of_getElem? hc)
        refine (inner_idle h hd hp hr hx (.threadDisc _ _ l1 r1 _ _ e h3) fun e1 => .inl ?_).elim
        cases h3 <;> exact e1
      | _ => cases x3

/-- The lock that the handler of a message takes is free, unless a goroutine of `Stop` has it. -/
theorem lock_rest {x : Whole.Conn (Message E)} (hx : x ∈ s.pool.conns) (hrd : x.peer.reader = .reading)
    (hlk : s.pool.locked x.addr) :
    ∃ k, (x.addr, .closing x.id k) ∈ s.pool.closers ∧ x.call k = some (.disconnect .waiting) := by
  have hi := inv_reachable h
  obtain ⟨hv, p, hrp, hrel⟩ := Whole.refines hi.whole
  have hj := PoolRun.inv_reachable hrp
  have hm : x.abs ∈ p.links := by rw [hrel.links]; exact List.mem_map.2 ⟨x, hx, rfl⟩
  have ho : PoolRun.occupies x.abs = true := by
    by_contra ho
    have ho := Bool.eq_false_iff.2 ho
    have hpast : x.watch.past := by
      have ho : PoolRun.occupies ⟨_, _, x.phase, _⟩ = false := ho
      unfold PoolRun.occupies Whole.Conn.phase at ho
      cases hw : x.watch <;> rw [hw] at ho <;> simp [Whole.Watch.past] at ho ⊢
    have hst := (woken_still (hv.conns x hx).peer ((hv.conns x hx).past hpast)).2.1
    rw [hrd] at hst
    rcases hst with e | e | e | ⟨d, e⟩ <;> cases e
  have none_ : PoolRun.holders p x.addr ≠ 0 := PoolRun.holders_pos hm ho
  rcases hlk with e | e | ⟨c, k, e⟩
  · exfalso
    rcases loop_rest h hd hp hr with hl | ⟨a, hl⟩ | ⟨a, c, hl⟩ | hl <;> rw [hl] at e
    · cases e
    · cases e; exact none_ (hj.single.dialing _ (by rw [hrel.loop, hl]; rfl))
    · cases e; exact none_ (hj.single.greeting _ c (by rw [hrel.loop, hl]; rfl))
    · cases e
  · rcases closer_rest h hd hp hr e with e | ⟨_, _, _, _, e, _⟩ <;> cases e
  · rcases closer_rest h hd hp hr e with e' | ⟨y, hy, -, k', e', hc⟩
    · cases e'
    cases e'
    obtain ⟨i, h1, h2⟩ := hv.target _ _ _ e
    have h3 := hj.entries.owner x.abs hm ho i (by rw [hrel.table]; exact h1)
    rw [h2] at h3
    have : y = x := Whole.same_id hi.whole hy hx (Option.some.inj h3)
    subst this
    exact ⟨k, e, hc⟩

omit h hd hp hr in
/-- Which handlers take the lock. -/
theorem locks_iff (m : Message E) : locks m = true ↔ Tidings m := by
  cases m <;> simp [locks, Tidings]

/-- A message that was read has been handled, unless its handler is in `Ban` of another connection or waits for `Stop`. -/
theorem task_rest {x : Whole.Conn (Message E)} (hx : x ∈ s.pool.conns) (hrd : x.peer.reader = .reading)
    (hs : (s.io x.id).stuck = false) : (s.io x.id).task = none ∨ HeldByStop s x := by
  cases ht : (s.io x.id).task with
  | none => exact .inl rfl
  | some m =>
    by_cases hlk : locks m = true ∧ s.pool.locked x.addr
    · exact .inr ⟨hrd, ⟨m, ht, (locks_iff m).1 hlk.1⟩, lock_rest h hd hp hr hx hrd hlk.2⟩
    have hlk : locks m = true → ¬ s.pool.locked x.addr := fun e1 e2 => hlk ⟨e1, e2⟩
    exfalso
    have hi := inv_reachable h
    obtain ⟨l, r, hl⟩ := List.append_of_mem hx
    let w : World := Net.world ⟨fun _ => none, fun _ => none, fun _ => []⟩ id fun _ => false
    have hw : Real w := ⟨_, _, _, rfl, fun t => .refl t⟩
    by_cases h1 : (processMessage w s.node (sender remote x) m).ended = .done
    · cases h2 : Talk.answer (processMessage w s.node (sender remote x) m).effects with
      | none => exact own_idle hd hp hr (.process l r x w m hl hrd ht hs hw hlk h1 h2) id
      | some a => exact own_idle hd hp hr (.answer l r x w m a hl hrd ht hs hw hlk h1 h2) id
    by_cases h2 : (processMessage w s.node (sender remote x) m).ended = .blocked
    · exact own_idle hd hp hr (.ban l r x w m hl hrd ht hs h2) id
    by_cases h3 : (processMessage w s.node (sender remote x) m).ended = .panic "assignment to entry in nil map" ∧
        ∃ i c, s.pool.table.find (remote x.id) = some i ∧ i.peer = some c ∧ c ≠ x.id
    · obtain ⟨h3, i, c, h4, h5, h6⟩ := h3
      obtain ⟨-, p, hrp, hrel⟩ := Whole.refines hi.whole
      obtain ⟨y, hy, y1, -⟩ := (PoolRun.inv_reachable hrp).entries.peer _ i c (by rw [hrel.table]; exact h4) h5
      rw [hrel.links] at hy
      obtain ⟨z, hz, rfl⟩ := List.mem_map.1 hy
      have y1 : z.id = c := y1
      subst y1
      obtain ⟨l', r', hl'⟩ := List.append_of_mem hz
      exact own_idle hd hp hr (.banOther l' r' x z w m i hx hrd ht hs hl' h3 h4 h5 h6) id
    · exact own_idle hd hp hr (.processDies x w m hx hrd ht hs h1 h2 (fun e i c h4 h5 =>
        Classical.byContradiction (fun h6 => h3 ⟨e, i, c, h4, h5, h6⟩)) nofun) id

omit hd hp hr in
/-- A call of `Disconnect` that waits has set the flag, and no other call waits. -/
theorem waiting_flag {x : Whole.Conn (Message E)} (hx : x ∈ s.pool.conns) {k : Nat}
    (hk : x.call k = some (.disconnect .waiting)) : x.peer.flag = true ∧ x.peer.reader ≠ .closing .waiting := by
  have hv := Lifecycle.inv_reachable ((Whole.inv_reachable (inv_reachable h).whole).conns x hx).peer
  have hm : Lifecycle.Disc.waiting ∈ x.peer.threads.flatMap Lifecycle.Thread.discs :=
    List.mem_flatMap.2 ⟨_, List.mem_of_getElem? hk, by simp [Lifecycle.Thread.discs]⟩
  have hc : 1 ≤ (x.peer.threads.flatMap Lifecycle.Thread.discs).count .waiting := List.count_pos_iff.2 hm
  have ha := hv.act
  unfold Lifecycle.Peer.discs at ha
  simp only [List.count_append] at ha
  constructor
  · cases hf : x.peer.flag with
    | true => rfl
    | false => rw [hf] at ha; simp at ha; omega
  · intro e
    rw [e] at ha
    have : x.peer.flag.toNat ≤ 1 := by cases x.peer.flag <;> simp
    simp [Lifecycle.Reader.discs] at ha
    omega

/-- A connection that is being closed is over, or its read loop is in `Ban` or waits for `Stop`. -/
theorem closed_rest {x : Whole.Conn (Message E)} (hx : x ∈ s.pool.conns)
    (hf : x.peer.flag = true) : Over x ∨ InBan s x ∨ HeldByStop s x := by
  have hi := inv_reachable h
  have hv := Whole.inv_reachable hi.whole
  by_cases hs : (s.io x.id).stuck = true
  · exact .inr (.inl (.inr hs))
  have hs := Bool.eq_false_iff.2 hs
  by_cases hh : HeldByStop s x
  · exact .inr (.inr hh)
  have hidle : Idle Talk.frame x.peer := fun p hst => by
    refine inner_idle h hd hp hr hx hst fun hrd => ?_
    exact (Talk.reading_own hst hrd).imp id fun e => ⟨(task_rest h hd hp hr hx hrd hs).resolve_right hh, e⟩
  by_cases hc : SelfClosing x.peer
  · right; left; left
    rcases hc with e | e | e
    · exact (hidle _ (.closingStep _ _ _ _ e (.closeQuit _))).elim
    · exact (hidle _ (.closingStep _ _ _ _ e (.closeConn _))).elim
    · exact e
  · obtain ⟨h1, h2, h3⟩ := Lifecycle.idle_settled (Lifecycle.inv_reachable (hv.conns x hx).peer) hf hc hidle
    refine .inl ⟨?_, h3, h1⟩
    obtain ⟨l, r, hl⟩ := List.append_of_mem hx
    have quiet : ∀ {q : Whole.State (Message E)} {v : Whole.Conn (Message E)},
        Whole.Step Talk.frame ping ask s.pool .own q → q.conns = l ++ v :: r → v.id = x.id → v.peer = x.peer →
        q.loop = s.pool.loop → False := fun h1 h2 h3 h4 h5 =>
      own_idle hd hp hr (pool_one hi h1 hl h2 h3 (fun e => .inl (by rw [h4]; exact e))
        (fun m p h h' => by rw [h4, h] at h'; cases h') (fun _ => by unfold handed; rw [h4])) (fun e => h5.trans e)
    cases hw : x.watch with
    | gone => rfl
    | dropped => exact (quiet (.free _ l r x hl hw (Whole.slot_left hi.whole hx (by rw [hw]; simp))) rfl rfl rfl rfl).elim
    | uncounted => exact (quiet (.drop _ l r x hl hw) rfl rfl rfl rfl).elim
    | reading n => exact (quiet (.count _ l r x n hl hw) rfl rfl rfl rfl).elim
    | marked => exact (quiet (.seeDown _ l r x hl hw) rfl rfl rfl rfl).elim
    | waiting k =>
      have hs := (Whole.tied hi.whole x hx).waits k hw
      unfold Whole.Conn.sortOf at hs
      rw [List.getElem?_map] at hs
      cases hc : x.peer.threads[k]? with
      | none => rw [hc] at hs; cases hs
      | some t =>
        have ho := h1.2.2 t (List.mem_of_getElem? hc)
        rw [hc] at hs
        cases t with
        | woken =>
          refine (quiet (.mark _ l r x k hl hw hc fun hlk => ?_) rfl rfl rfl rfl).elim
          by_cases hn : NoneStopping s.pool
          · exact Whole.lock_free hi.whole hn hx hw hlk
          have hls : s.pool.loop = .stopped := Classical.byContradiction fun e' =>
            hn (by rw [NoneStopping, hv.stopped e']; simp)
          rcases hlk with e | e | ⟨c, k', e⟩
          · rw [hls] at e; cases e
          · rcases closer_rest h hd hp hr e with e | ⟨_, _, _, _, e, _⟩ <;> cases e
          · rcases closer_rest h hd hp hr e with e' | ⟨y, hy, -, k2, e', hc2⟩
            · cases e'
            cases e'
            obtain ⟨-, p, hrp, hrel⟩ := Whole.refines hi.whole
            obtain ⟨i, g1, g2⟩ := hv.target _ _ _ e
            have g3 := (PoolRun.inv_reachable hrp).entries.owner x.abs
              (by rw [hrel.links]; exact List.mem_map.2 ⟨x, hx, rfl⟩) (by
                show PoolRun.occupies ⟨_, _, x.phase, _⟩ = true
                unfold PoolRun.occupies Whole.Conn.phase
                rw [hw]; cases x.peer.flag <;> rfl) i (by rw [hrel.table]; exact g1)
            rw [g2] at g3
            have : y = x := Whole.same_id hi.whole hy hx (Option.some.inj g3)
            subst this
            exact h1.2.2 _ (List.mem_of_getElem? hc2)
        | wait => exact ho.elim
        | waitGroup => exact ho.elim
        | _ => cases hs
    | unborn =>
      have := (Whole.tied hi.whole x hx).subject hw
      rcases loop_rest h hd hp hr with hl | ⟨a, hl⟩ | ⟨a, c, hl⟩ | hl <;> rw [hl] at this <;> cases this

/-- Every connection was started. -/
theorem started_rest {x : Whole.Conn (Message E)} (hx : x ∈ s.pool.conns) :
    x.peer.reader ≠ .notStarted := fun e => by
  have := starts_reachable (inv_reachable h).whole x hx e
  rcases loop_rest h hd hp hr with hl | ⟨a, hl⟩ | ⟨a, c, hl⟩ | hl <;> rw [hl] at this <;> cases this

/-- The read handler of a connection that nobody closes waits for bytes. -/
theorem reader_rest {x : Whole.Conn (Message E)} (hx : x ∈ s.pool.conns)
    (hf : x.peer.flag = false) : x.peer.reader = .reading := by
  have nd := begun_none h hx hf
  have hst := started_rest h hd hp hr hx
  have idle : ∀ {p}, Lifecycle.Step Talk.frame .own x.peer p → x.peer.reader ≠ .reading → False := fun hs h0 =>
    inner_idle h hd hp hr hx hs fun e => absurd e h0
  cases hrd : x.peer.reader with
  | notStarted => exact absurd hrd hst
  | loop => exact (idle (.loopGo _ hrd hf) (by rw [hrd]; simp)).elim
  | reading => rfl
  | handling a => exact absurd hrd (((inv_reachable h).calm x hx).2 a)
  | replying m => exact (idle (.replyTaken _ m hrd (writer_rest h hd hp hr hx hf hst)) (by rw [hrd]; simp)).elim
  | closing d =>
    have := nd d (by simp [Lifecycle.Peer.discs, Lifecycle.Reader.discs, hrd])
    subst this
    exact (idle (.closingStep _ _ _ _ hrd (.win _ hf)) (by rw [hrd]; simp)).elim
  | stopping => exact (idle (.readerDone _ hrd) (by rw [hrd]; simp)).elim
  | leaving d =>
    have := nd d (by simp [Lifecycle.Peer.discs, Lifecycle.Reader.discs, hrd])
    subst this
    exact (idle (.readerLeave _ _ _ _ hrd (.win _ hf)) (by rw [hrd]; simp)).elim

omit h in
/-- What is unread begins with nothing that could be read. -/
theorem unread_rest {x : Whole.Conn (Message E)} (hx : x ∈ s.pool.conns) (hrd : x.peer.reader = .reading)
    (ht : (s.io x.id).task = none) : ∀ m c rest, readStep E (s.io x.id).inbox ≠ .next m c rest := by
  intro m c rest e
  obtain ⟨l, r, hl⟩ := List.append_of_mem hx
  cases m with
  | none => exact own_idle hd hp hr (.skip l r x c rest hl hrd ht e) id
  | some m => exact own_idle hd hp hr (.read x m c rest hx hrd ht e) id

/-- No goroutine of `PropagateBlock` has anything left to do. -/
theorem job_rest {j : Job E} (hj : j ∈ s.jobs) : JobOver j := by
  have hi := inv_reachable h
  obtain ⟨x, hx, ha⟩ := jobs_reachable h j hj
  obtain ⟨i, c, h1, h2, y, hy, h3, -⟩ := entry_of hi hx
  rw [ha] at h1
  obtain ⟨l, r, e⟩ := List.append_of_mem hj
  have look : ∀ st, j.next i = some st → (∀ c, st ≠ .sent c) → False := fun st hn hc =>
    own_idle hd hp hr (.look l r j i st e h1 hn hc) id
  cases hst : j.stage with
  | height =>
    by_cases hlt : i.height < j.block.header.height
    · exact (look .peer (by simp [Job.next, Relay.Job.next, hst, hlt]) nofun).elim
    · exact (look .weight (by simp [Job.next, Relay.Job.next, hst, hlt]) nofun).elim
  | weight =>
    by_cases hlt : i.totalDifficulty < j.block.header.totalDifficulty
    · exact (look .peer (by simp [Job.next, Relay.Job.next, hst, hlt]) nofun).elim
    · exact (look .known (by simp [Job.next, Relay.Job.next, hst, hlt]) nofun).elim
  | peer =>
    obtain ⟨l2, r2, hy2⟩ := List.append_of_mem hy
    exact (own_idle hd hp hr (.relay l r j i l2 r2 y e h1 (by simp [Job.next, Relay.Job.next, hst, h2, h3]) hy2) id).elim
  | known => exact .inl hst
  | noPeer => exact .inr (.inl hst)
  | sent c => exact .inr (.inr ⟨c, hst⟩)

end Rest

end Gringo.Program
