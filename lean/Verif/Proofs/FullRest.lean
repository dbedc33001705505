import Verif.Props.Full
import Verif.Props.ProgramRest
/-
Helper lemmas for Props/FullRest.lean: the whole program with its handshakes comes to rest.
-/
namespace Gringo.Full
open Gringo.P2P Gringo.Spec Gringo.Props

variable {E : Env} {u : Setup} {chain : Chain E} {storage : Storage E} {mempool : Option (Transaction E → Out Unit)}
  {nonces : NonceList}

/-! ### Steps of the program of which the network has to do something -/

/-- The connections after a step of the network. -/
def OneWire (cs ds : List (Whole.Conn (Message E))) : Prop :=
  ds = cs ∨ ∃ l r x y, cs = l ++ x :: r ∧ ds = l ++ y :: r ∧ y.id = x.id

theorem remote_conns {remote : Nat → String} {s q : Program.State E} (hs : Program.Step remote .remote s q) :
    OneWire s.pool.conns q.pool.conns ∧ (q.pool.conns = s.pool.conns ∨ (q.io = s.io ∧ q.pool.loop = s.pool.loop)) := by
  generalize hk : Lifecycle.Kind.remote = k at hs
  cases hs with
  | arrive c bs => exact ⟨.inl rfl, .inl rfl⟩
  | pool k q hs hr hw hm =>
    subst hk
    cases hs with
    | inner l r x hx k p hk hs hh => exact ⟨.inr ⟨l, r, x, _, hx, rfl, rfl⟩, .inr ⟨rfl, rfl⟩⟩
    | _ => exact ⟨.inl rfl, .inl rfl⟩
  | _ => cases hk

/-- What was written on a connection in the tables. -/
def wireOn (cs : List (Whole.Conn (Message E))) (c : Nat) : Bytes := (cs.filter (·.id == c)).flatMap (·.peer.wire)

theorem wireOn_one {l r : List (Whole.Conn (Message E))} {x y : Whole.Conn (Message E)} (hid : y.id = x.id)
    (h : y.peer.wire = x.peer.wire) (c : Nat) : wireOn (l ++ y :: r) c = wireOn (l ++ x :: r) c := by
  unfold wireOn
  rw [List.filter_append, List.filter_append, List.filter_cons, List.filter_cons, hid]
  split <;> simp [h]

/-- A step of the network changes what was written if and only if it changes what a peer sees. -/
theorem wires_iff {remote : Nat → String} {s q : Program.State E} (hs : Program.Step remote .remote s q)
    (hi : (s.pool.conns.map (·.id)).Nodup) :
    wires q ≠ wires s ↔ ∃ c, wireOn q.pool.conns c ≠ wireOn s.pool.conns c := by
  unfold wires
  rcases (remote_conns hs).1 with e | ⟨l, r, x, y, e1, e2, e3⟩
  · rw [e]; simp
  · rw [e1, e2]
    by_cases h : y.peer.wire = x.peer.wire
    · constructor
      · intro h'; exact absurd (by simp [h]) h'
      · rintro ⟨c, h'⟩; exact absurd (wireOn_one e3 h c) h'
    · constructor
      · intro _
        refine ⟨x.id, ?_⟩
        rw [e1] at hi
        have one : ∀ z : Whole.Conn (Message E), z.id = x.id → wireOn (l ++ z :: r) x.id = z.peer.wire := by
          intro z hz
          unfold wireOn
          rw [List.map_append, List.map_cons, List.nodup_append, List.nodup_cons] at hi
          obtain ⟨-, ⟨h2, -⟩, h3⟩ := hi
          have n1 : l.filter (·.id == x.id) = [] := by
            rw [List.filter_eq_nil_iff]
            intro w hw e
            simp only [beq_iff_eq] at e
            exact h3 _ (List.mem_map.2 ⟨w, hw, rfl⟩) x.id (by simp) e
          have n2 : r.filter (·.id == x.id) = [] := by
            rw [List.filter_eq_nil_iff]
            intro w hw e
            simp only [beq_iff_eq] at e
            exact h2 (List.mem_map.2 ⟨w, hw, e⟩)
          rw [List.filter_append, n1, List.filter_cons_of_pos (by simp [hz]), n2]
          simp
        rw [one y e3, one x rfl]
        exact h
      · intro _ h'
        simp only [List.map_append, List.map_cons, List.append_cancel_left_eq, List.cons.injEq] at h'
        exact h h'.1

theorem own_arrived {remote : Nat → String} {s q : Program.State E} (hs : Program.Step remote .own s q) (c : Nat) :
    (q.io c).arrived = (s.io c).arrived := by
  have upd : ∀ (d : Nat) (io : Program.Reading E), io.arrived = (s.io d).arrived →
      (Function.update s.io d io c).arrived = (s.io c).arrived := by
    intro d io h
    by_cases e : c = d
    · subst e; rw [Function.update_self]; exact h
    · rw [Function.update_of_ne e]
  generalize hk : Lifecycle.Kind.own = k at hs
  cases hs with
  | arrive d bs => cases hk
  | skip l r x c rest hx hr ht h => exact upd _ _ rfl
  | read x m c rest hx hr ht h => exact upd _ _ rfl
  | process l r x w m hx => exact upd _ _ rfl
  | answer l r x w m a hx => exact upd _ _ rfl
  | ban l r x w m hx => exact upd _ _ rfl
  | banOther l r x y w m i hx hr ht hs hy => exact upd _ _ rfl
  | _ => rfl

theorem own_loop {remote : Nat → String} {s q : Program.State E} (hs : Program.Step remote .own s q) :
    q.pool.loop = s.pool.loop ∨ (greets s.pool.loop = false ∧ greets q.pool.loop = false) := by
  generalize hk : Lifecycle.Kind.own = k at hs
  cases hs with
  | pool k q hs hr hw hm => exact loop_pool hs hk.symm
  | _ => exact .inl rfl

/-- Work of the program is work of the program with its handshakes. -/
theorem lift_work {s : State E} (hi : Program.Inv u.remote chain storage mempool s.prog) {q : Program.State E}
    (h : ProgramWorks u.remote s.prog q) : FullWorks u s { s with prog := q } := by
  obtain ⟨h1, h2, h3, h4⟩ := h
  refine ⟨h1, h2, h3, ?_⟩
  rcases h4 with h4 | ⟨h4, h5⟩
  · exact .inl (.prog _ q h4 (own_arrived h4) (own_loop h4))
  · have hd := (wires_iff h4 (Whole.ids_nodup hi.whole)).1 h5
    refine .inr ⟨?_, ?_⟩
    · rcases (remote_conns h4).2 with e | ⟨e1, e2⟩
      · obtain ⟨c, hc⟩ := hd; rw [e] at hc; exact absurd rfl hc
      · exact .prog _ q h4 (fun c => by rw [e1]) (.inl e2)
    · obtain ⟨c, hc⟩ := hd
      exact ⟨c, fun e => hc (List.append_cancel_left e)⟩

/-- What work there is. -/
theorem work_cases {s s' : State E} (hi : Inv u chain storage mempool nonces s) (h : FullWorks u s s') :
    (ProgramWorks u.remote s.prog s'.prog ∧ s'.sockets = s.sockets ∧
      (s'.prog.pool.loop = s.prog.pool.loop ∨ (greets s.prog.pool.loop = false ∧ greets s'.prog.pool.loop = false))) ∨
    (∃ a c, s.prog.pool.loop = .greeting a c ∧
      ((s'.prog = s.prog ∧ (s'.sockets c).hand = (s.sockets c).hand ∧ (s.sockets c).written < (s'.sockets c).written ∧
        (s'.sockets c).written ≤ (s'.sockets c).hand.length) ∨
      ((∀ e, (readShake E (s.sockets c).came).1 ≠ .err e) ∧
        (s'.prog.dead = true ∨ greets s'.prog.pool.loop = false)))) := by
  obtain ⟨h1, h2, h3, h4⟩ := h
  have hpi := Program.inv_reachable (hi.alive h1)
  have ⟨k, hs, hk⟩ : ∃ k, Step u k s s' ∧ (k = .own ∨ (k = .remote ∧ ∃ c, sentOn s' c ≠ sentOn s c)) := by
    rcases h4 with h | ⟨h1, h2⟩
    · exact ⟨_, h, .inl rfl⟩
    · exact ⟨_, h1, .inr ⟨rfl, h2⟩⟩
  cases hs with
  | prog k q hs ha hg =>
    refine .inl ⟨⟨h1, h2, h3, ?_⟩, rfl, hg⟩
    rcases hk with rfl | ⟨rfl, c, hc⟩
    · exact .inl hs
    · refine .inr ⟨hs, (wires_iff hs (Whole.ids_nodup hpi.whole)).2 ⟨c, fun e => hc ?_⟩⟩
      exact congrArg ((s.sockets c).hand.take (s.sockets c).written ++ ·) e
  | opens addr nonce nonces' data hl hn hd =>
    rcases hk with hk | ⟨-, c, hc⟩
    · cases hk
    · refine absurd ?_ hc
      unfold sentOn
      dsimp only
      by_cases e : c = s.prog.pool.next
      · subst e
        rw [Function.update_self]
        dsimp only
        rw [(hi.fresh _ (Nat.le_refl _)).1, List.take_zero, List.take_zero]
      · rw [Function.update_of_ne e]
  | opensDies addr hl hn =>
    rcases hk with hk | ⟨-, c, hc⟩
    · cases hk
    · exact absurd rfl hc
  | writes addr c n hl g1 g2 =>
    refine .inr ⟨addr, c, hl, .inl ⟨rfl, ?_, ?_, ?_⟩⟩ <;> dsimp only <;> rw [Function.update_self]
    · exact g1
    · exact g2
  | early c bs hc h0 =>
    rcases hk with hk | ⟨-, d, hd⟩
    · cases hk
    · refine absurd ?_ hd
      unfold sentOn
      dsimp only
      by_cases e : d = c
      · subst e; rw [Function.update_self]
      · rw [Function.update_of_ne e]
  | arrive c bs h0 =>
    rcases hk with hk | ⟨-, d, hd⟩
    · cases hk
    · refine absurd ?_ hd
      unfold sentOn
      dsimp only
      by_cases e : d = c
      · subst e; rw [Function.update_self]
      · rw [Function.update_of_ne e]
  | noShake addr c hl =>
    rcases hk with hk | ⟨-, d, hd⟩
    · cases hk
    · exact absurd rfl hd
  | shakeDies addr c hl hw hr => 
    refine .inr ⟨addr, c, hl, .inr ⟨fun e h => ?_, .inl rfl⟩⟩
    rcases hr with ⟨e', h'⟩ | ⟨e', h'⟩ <;> rw [h'] at h <;> cases h
  | otherVersion addr c sh n rest hl hw hr hv => 
    exact .inr ⟨addr, c, hl, .inr ⟨(fun e h => by rw [hr] at h; cases h), .inr rfl⟩⟩
  | shake addr c sh n rest hl hw hr hv => 
    exact .inr ⟨addr, c, hl, .inr ⟨(fun e h => by rw [hr] at h; cases h), .inr rfl⟩⟩

/-! ### The work comes to an end -/

theorem dead_acc {s : State E} (h : s.prog.dead = true) : Acc (fun s' s => FullWorks u s s') s :=
  .intro _ fun _ hs => by rw [hs.1] at h; cases h

theorem reach_work {headHash : Bytes} (hh : HasHash chain.head headHash) {s s' : State E}
    (h : Inv u chain storage mempool nonces s) (hw : FullWorks u s s') : Inv u chain storage mempool nonces s' := by
  obtain ⟨h1, h2, -, h4⟩ := hw
  rcases h4 with h4 | ⟨h4, -⟩ <;> exact inv_step hh h h1 h2 h4

/-- No handshake is going on. -/
theorem plain_acc {headHash : Bytes} (hh : HasHash chain.head headHash) {s : State E}
    (h : Inv u chain storage mempool nonces s) (hg : greets s.prog.pool.loop = false) :
    Acc (fun s' s => FullWorks u s s') s := by
  cases hd : s.prog.dead with
  | true => exact dead_acc hd
  | false =>
    have acc := Program.works_acc (h.alive hd)
    generalize hp : s.prog = p at acc
    clear hd
    induction acc generalizing s with
    | intro p _ ih =>
      refine .intro _ fun s' hs => ?_
      rcases work_cases h hs with ⟨h1, -, h2⟩ | ⟨a, c, e, -⟩
      · refine ih s'.prog (hp ▸ h1) (reach_work hh h hs) ?_ rfl
        rcases h2 with h2 | ⟨-, h2⟩
        · rw [h2]; exact hg
        · exact h2
      · rw [e] at hg; cases hg

theorem work_acc {headHash : Bytes} (hh : HasHash chain.head headHash) {s : State E}
    (h : Inv u chain storage mempool nonces s) : Acc (fun s' s => FullWorks u s s') s := by
  cases hg : greets s.prog.pool.loop with
  | false => exact plain_acc hh h hg
  | true =>
    obtain ⟨a, c, hl⟩ : ∃ a c, s.prog.pool.loop = .greeting a c := by
      unfold greets at hg
      split at hg
      · rename_i e; exact ⟨_, _, e⟩
      · cases hg
    cases hd : s.prog.dead with
    | true => exact dead_acc hd
    | false =>
      have acc := Program.works_acc (h.alive hd)
      generalize hp : s.prog = p at acc
      clear hd hg
      induction acc generalizing s with
      | intro p _ ih =>
        generalize hn : (s.sockets c).hand.length - (s.sockets c).written = n
        induction n using Nat.strong_induction_on generalizing s with
        | _ n ih2 =>
          refine .intro _ fun s' hs => ?_
          have h' := reach_work hh h hs
          rcases work_cases h hs with ⟨h1, -, h2⟩ | ⟨a', c', e, h2⟩
          · rcases h2 with h2 | ⟨h2, -⟩
            · exact ih s'.prog (hp ▸ h1) h' (h2.trans hl) rfl
            · rw [hl] at h2; cases h2
          · rw [hl] at e
            cases e
            rcases h2 with ⟨e1, e2, e3, e4⟩ | ⟨-, h2 | h2⟩
            · exact ih2 _ (by rw [← hn, e2]; rw [e2] at e4; omega) h' (by rw [e1]; exact hl) (e1.trans hp) rfl
            · exact dead_acc h2
            · exact plain_acc hh h' h2

/-- Nothing goes on while the peer has not answered. -/
theorem silent_rest {remote : Nat → String} {s : Program.State E} {a : String} {c : Nat} (hl : s.pool.loop = .greeting a c)
    (h1 : s.pool.conns = []) (h2 : s.pool.closers = []) (h3 : s.pool.bans = []) (h4 : s.jobs = []) :
    ProgramAtRest remote s := by
  rintro s' ⟨hd, hp, hsel, hst⟩
  have ⟨k, hs, hk⟩ : ∃ k, Program.Step remote k s s' ∧ (k = .own ∨ (k = .remote ∧ wires s' ≠ wires s)) := by
    rcases hst with h | ⟨h1, h2⟩
    · exact ⟨_, h, .inl rfl⟩
    · exact ⟨_, h1, .inr ⟨rfl, h2⟩⟩
  clear hst
  cases hs with
  | pool k q hs hr hw hm =>
    cases hs <;> simp_all [wires]
  | _ => simp_all [wires]

end Gringo.Full
