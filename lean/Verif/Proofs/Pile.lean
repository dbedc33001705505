import Verif.Proofs.ProgramRest
import Verif.Proofs.ProgramSent
import Verif.Props.Sync
import Verif.Spec.Pile
/-
Helper lemmas for Props/Pile.lean.
-/
namespace Gringo.Program
open Gringo.P2P Gringo.Spec Gringo.Props

variable {E : Env} {remote : Nat → String} {chain : Chain E} {storage : Storage E} {mempool : Option (Transaction E → Out Unit)}

/-- A block that comes in on `x` would be sent on `y`. -/
structure Ready (s : State E) (x y : Whole.Conn (Message E)) (b : Block E) : Prop where
  left : x ∈ s.pool.conns
  right : y ∈ s.pool.conns
  other : x.addr ≠ y.addr
  listens : Listens s x
  unlocked : ¬ s.pool.locked x.addr
  online : y.addr ∈ s.pool.online
  entry : ∃ i, s.pool.table.find y.addr = some i ∧ i.peer = some y.id ∧ i.height < b.header.height

theorem noAnswer (b : Block E) : ∀ l : List (String × Nat), Talk.answer (l.map fun x => Effect.relay x.1 x.2 b) = none
  | [] => rfl
  | _ :: l => noAnswer b l

theorem feed (hmem : 20000000 ≤ E.maxAlloc) {w : World} (hw : Real w) {f : GoodFrame E} {b : Block E} (hf : f.msg = some (.block b))
    (hb : (chain.processBlock storage b).1 = .ok ()) (hh : b.header.height = chain.height) {s : State E}
    (h : Reachable remote chain storage mempool s) (hd : s.dead = false) (hp : s.pool.panicked = false)
    {x y : Whole.Conn (Message E)} (hr : Ready s x y b) :
    ∃ s' x', RunWhile remote (fun _ => True) s s' ∧ s'.dead = false ∧ s'.pool.panicked = false ∧
      x'.id = x.id ∧ x'.addr = x.addr ∧ Ready s' x' (y.calls (.send (.block b))) b := by
  obtain ⟨hx, hy, hne, ⟨l1, l2, l3, l4, l5⟩, hlk, hon, i, i1, i2, i3⟩ := hr
  have hi := inv_reachable h
  have hid : y.id ≠ x.id := fun e => hne (by rw [Whole.same_id hi.whole hy hx e])
  -- the block comes in and is read
  let s1 : State E := { s with io := Function.update s.io x.id { s.io x.id with
    inbox := (s.io x.id).inbox ++ frameBytes f.type f.body, arrived := (s.io x.id).arrived ++ frameBytes f.type f.body } }
  have st1 : Step remote .remote s s1 := .arrive x.id (frameBytes f.type f.body)
  have hread := readStep_good E hmem f.type f.body f.msg f.size f.carries []
  rw [List.append_nil, hf] at hread
  let s2 : State E := { s1 with io := Function.update s1.io x.id { s1.io x.id with inbox := [], task := some (.block b) } }
  have st2 : Step remote .own s1 s2 := by
    refine .read x (.block b) (UInt64.ofNat (frameBytes f.type f.body).length) [] hx l2 ?_ ?_
    · show (Function.update s.io x.id _ x.id).task = none
      rw [Function.update_self]; exact l3
    · show readStep E (Function.update s.io x.id _ x.id).inbox = _
      rw [Function.update_self]
      dsimp only
      rw [l4, List.nil_append]
      exact hread
  have io2 : s2.io x.id = { s1.io x.id with inbox := [], task := some (.block b) } := Function.update_self ..
  have io1 : (s1.io x.id).stuck = false := by
    show (Function.update s.io x.id _ x.id).stuck = false
    rw [Function.update_self]; exact l5
  -- it is handled
  obtain ⟨l, r, hlr⟩ := List.append_of_mem hx
  have known : Known s2.node (sender remote x) := (C64_goroutines s.pool s.pool hi.whole .here x hx).1
  have hpm : processMessage w s2.node (sender remote x) (.block b) =
      { node := { s2.node with table := s.pool.table.update x.addr (blockRecord b) }
        effects := (relayTargets (s.pool.table.update x.addr (blockRecord b)) s.pool.online b.header.height
          b.header.totalDifficulty).map fun x => .relay x.1 x.2 b
        ended := .done } := by
    have hb' : (s2.node.chain.processBlock s2.node.storage b).1 = .ok () := by
      show (s.chain.processBlock s.storage b).1 = _
      rw [hi.same.1, hi.same.2.1]; exact hb
    rw [process_known w s2.node _ known]
    simp only [handle, orBan, hb']
    have e : (s2.node.chain.processBlock s2.node.storage b).2 = s2.node.chain := rfl
    have hh' : b.header.height = s2.node.chain.height := by
      show _ = s.chain.height
      rw [hi.same.1]; exact hh
    rw [e, if_pos hh']
    rfl
  let j : Job E := ⟨y.addr, b, .height⟩
  obtain ⟨o1, o2, ho⟩ := List.append_of_mem hon
  let J1 : List (Job E) := s.jobs ++ o1.map fun addr => ⟨addr, b, .height⟩
  let J2 : List (Job E) := o2.map fun addr => ⟨addr, b, .height⟩
  let T : Table := s.pool.table.update x.addr (blockRecord b)
  let x1 : Whole.Conn (Message E) := { x with peer := { x.peer with reader := .loop } }
  let io3 := Function.update s2.io x.id { s2.io x.id with task := none }
  let s3 : State E := { s2 with pool := { s.pool with table := T, conns := l ++ x1 :: r }, io := io3, jobs := J1 ++ j :: J2 }
  have st3 : Step remote .own s2 s3 := by
    have st := Step.process (remote := remote) (s := s2) l r x w (.block b) hlr l2 (by rw [io2]) (by rw [io2]; exact io1) hw (fun _ => hlk)
      (by rw [hpm]) (by rw [hpm]; exact noAnswer b _)
    have hst : started s2.pool.online (processMessage w s2.node (sender remote x) (.block b)).node.chain (.block b) =
        s.pool.online.map fun addr => ⟨addr, b, .height⟩ := by
      rw [hpm]
      have hh' : b.header.height = s2.node.chain.height := by
        show _ = s.chain.height
        rw [hi.same.1]; exact hh
      simp only [started]
      rw [if_pos hh']
    unfold State.handled at st
    rw [hst, hpm, ho] at st
    have : s2.jobs ++ (o1 ++ y.addr :: o2).map (fun addr => (⟨addr, b, .height⟩ : Job E)) = J1 ++ j :: J2 := by
      simp [J1, J2, j, s2, s1]
    rw [this] at st
    exact st
  -- it is sent
  have hT : T.find y.addr = some i := by
    show (s.pool.table.update x.addr _).find y.addr = some i
    rw [find_update, if_neg (Ne.symm hne)]; exact i1
  let s4 : State E := { s3 with jobs := J1 ++ { j with stage := .peer } :: J2 }
  have st4 : Step remote .own s3 s4 := .look J1 J2 j i .peer rfl hT (by
    show some (if i.height < b.header.height then _ else _) = _
    rw [if_pos i3]) nofun
  have hy1 : y ∈ l ++ x1 :: r := by
    rw [hlr] at hy
    rcases Whole.mem_replaced (x := x1) hy with e | e
    · exact absurd (congrArg Whole.Conn.id e) hid
    · exact e
  obtain ⟨l', r', hlr'⟩ := List.append_of_mem hy1
  let y1 := y.calls (.send (.block b))
  let s5 : State E := { s4 with pool := { s4.pool with conns := l' ++ y1 :: r' }, jobs := J1 ++ { j with stage := .sent y.id } :: J2 }
  have st5 : Step remote .own s4 s5 := .relay J1 J2 { j with stage := .peer } i l' r' y rfl hT (by
    show (match i.peer with | some c => some (Relay.Stage.sent c) | none => some .noPeer) = _
    rw [i2]) hlr'
  -- the read loop goes on
  have hx1 : x1 ∈ l' ++ y1 :: r' := by
    have : x1 ∈ l' ++ y :: r' := by rw [← hlr']; simp
    rcases Whole.mem_replaced (x := y1) this with e | e
    · exact absurd (congrArg Whole.Conn.id e).symm hid
    · exact e
  obtain ⟨l'', r'', hlr''⟩ := List.append_of_mem hx1
  let x2 : Whole.Conn (Message E) := { x with peer := { x.peer with reader := .reading } }
  have g1 := h.next hd hp st1
  have g2 := g1.next hd hp st2
  have g3 := g2.next hd hp st3
  have g4 := g3.next hd hp st4
  have g5 := g4.next hd hp st5
  have r5 : RunWhile remote (fun _ => True) s s5 := .next (.next (.next (.next (.next (.refl trivial) hd hp st1 trivial) hd hp st2
    trivial) hd hp st3 trivial) hd hp st4 trivial) hd hp st5 trivial
  have hst : Whole.Step Talk.frame ping ask s5.pool .own _ := .inner _ l'' r'' x1 hlr'' .own { x.peer with reader := .reading } (by simp)
    (.loopGo _ rfl l1) (by
      rintro (e | e | e)
      · rw [(hi.calm x hx).1] at e; cases e
      · cases e
      · cases e)
  have st6 := pool_one (inv_reachable g5) hst (u := x1) (v := x2) hlr'' (by simp [x2, x1, (hi.calm x hx).1]) rfl (fun e => by cases e)
    (fun m p e1 e2 => by
      have e1 : x.peer.writer = .got m := e1
      have e2 : x.peer.writer = .writing m p := e2
      rw [e1] at e2; cases e2)
    (fun _ => rfl)
  refine ⟨_, x2, r5.next hd hp st6 trivial, hd, hp, rfl, rfl, ?_, ?_, hne, ⟨l1, rfl, ?_, ?_, ?_⟩, ?_, hon, i, hT, i2, i3⟩
  · simp [x2, x1, (hi.calm x hx).1]
  · have : y1 ∈ l'' ++ x1 :: r'' := by rw [← hlr'']; simp
    rcases Whole.mem_replaced (x := x2) this with e | e
    · exact absurd (congrArg Whole.Conn.id e) hid
    · simpa [x2, x1, (hi.calm x hx).1] using e
  · show (Function.update s2.io x.id _ x.id).task = none
    rw [Function.update_self]
  · show (Function.update s2.io x.id _ x.id).inbox = []
    rw [Function.update_self, io2]
  · show (Function.update s2.io x.id _ x.id).stuck = false
    rw [Function.update_self, io2]; exact io1
  · exact hlk

/-- The writer of the other connection goes on. -/
theorem ready_inner {s : State E} (h : Reachable remote chain storage mempool s) {x y : Whole.Conn (Message E)} {b : Block E}
    (hr : Ready s x y b) {p : Lifecycle.Peer (Message E)} (hs : Lifecycle.Step Talk.frame .own y.peer p)
    (h1 : p.reader = y.peer.reader) (h2 : ∀ m q, y.peer.writer = .got m → p.writer = .writing m q → ∃ b, m.frame = .ok b)
    (h3 : handed { y with peer := p } = handed y) :
    ∃ s', Step remote .own s s' ∧ s'.dead = s.dead ∧ s'.pool.panicked = s.pool.panicked ∧ Ready s' x { y with peer := p } b := by
  obtain ⟨hx, hy, hne, hl, hlk, hon, hi⟩ := hr
  have hv := inv_reachable h
  obtain ⟨l, r, hlr⟩ := List.append_of_mem hy
  have hid : x.id ≠ y.id := fun e => hne (by rw [Whole.same_id hv.whole hx hy e])
  have e1 : (if p.reader.handles then y.lock else .before) = y.lock := by rw [(hv.calm y hy).1]; simp
  have st := Whole.Step.inner (ping := ping) (ask := ask) s.pool l r y hlr .own p (by simp) hs (fun _ => h1)
  rw [e1] at st
  refine ⟨_, pool_one hv st hlr rfl rfl (fun e => .inl (h1.trans e)) h2 (fun _ => h3), rfl, rfl, ?_, by simp, hne,
    ⟨hl.1, hl.2, hl.3, hl.4, hl.5⟩, hlk, hon, hi⟩
  rw [hlr] at hx
  rcases Whole.mem_replaced (x := { y with peer := p }) hx with e | e
  · exact absurd (congrArg Whole.Conn.id e) hid
  · exact e

/-- At most one of the calls of `connectPeer` waits. -/
theorem waiting_hellos {p : Lifecycle.Peer (Message E)} {B : Block E → Prop} {st : Stage} (hg : Greets B st p)
    {x : Whole.Conn (Message E)} (hx : x.peer = p) : ((waiting x).filter isHello).length ≤ 1 := by
  have e : (waiting x).filter isHello = (p.threads.filter helloThread).filterMap fun
      | .send m => some m
      | _ => none := by
    unfold waiting
    rw [hx]
    generalize p.threads = ts
    induction ts with
    | nil => rfl
    | cons t ts ih =>
      cases t with
      | send m =>
        by_cases hm : isHello m = true
        · simp only [List.filterMap_cons, List.filter_cons, helloThread, hm, if_true, ih]
        · simp only [List.filterMap_cons, List.filter_cons, helloThread, hm, ih]
          simp
      | sent m b =>
        by_cases hm : isHello m = true
        · simp only [List.filterMap_cons, List.filter_cons, helloThread, hm, if_true, ih]
        · simp only [List.filterMap_cons, List.filter_cons, helloThread, hm, ih]
          simp
      | _ => simpa [helloThread] using ih
  rw [e]
  have hs := hg.staged
  cases st with
  | fresh => rw [show p.threads.filter helloThread = [] from hs]; simp
  | pinging k =>
    obtain ⟨t, -, h2, h3⟩ := hs
    rw [h2]
    rcases h3 with rfl | ⟨b, rfl⟩ <;> simp
  | done =>
    obtain ⟨b, h | ⟨b', h⟩⟩ := hs <;> rw [h] <;> simp

/-- What waits is a call of `connectPeer` or a block. -/
theorem waiting_length {p : Lifecycle.Peer (Message E)} {B : Block E → Prop} {st : Stage} (hg : Greets B st p)
    {x : Whole.Conn (Message E)} (hx : x.peer = p) : (waiting x).length ≤ 1 + (blocksOf (handed x)).length := by
  have h1 := waiting_hellos hg hx
  have h2 : ∀ m ∈ waiting x, isHello m = true ∨ ∃ b, m = .block b := by
    intro m hm
    obtain ⟨t, ht, e⟩ := List.mem_filterMap.1 hm
    cases t with
    | send m' =>
      cases e
      exact (hg.source _ (hx ▸ ht) m (.inl rfl)).imp id fun ⟨b, e, _⟩ => ⟨b, e⟩
    | _ => cases e
  have h3 : (waiting x).length ≤ ((waiting x).filter isHello).length + (blocksOf (waiting x)).length := by
    generalize waiting x = l at h2
    clear h1
    induction l with
    | nil => simp
    | cons m l ih =>
      have ih := ih fun m' hm' => h2 m' (List.mem_cons_of_mem _ hm')
      rcases h2 m List.mem_cons_self with hm | ⟨b, rfl⟩
      · have : (blocksOf l).length ≤ (blocksOf (m :: l)).length := (List.Sublist.filterMap _ (List.sublist_cons_self m l)).length_le
        simp only [List.filter_cons, hm, if_true, List.length_cons]
        omega
      · have : blocksOf (.block b :: l) = b :: blocksOf l := rfl
        simp only [List.filter_cons, isHello, this, List.length_cons]
        simp
        omega
  have h4 : (waiting x).Sublist (handed x) := by
    unfold waiting handed
    generalize x.peer.threads = ts
    induction ts with
    | nil => exact List.Sublist.refl _
    | cons t ts ih =>
      cases t with
      | send m => simpa using ih
      | sent m b => simpa using ih.trans (List.sublist_cons_self ..)
      | _ => simpa using ih
  have h5 : (blocksOf (waiting x)).length ≤ (blocksOf (handed x)).length := (h4.filterMap _).length_le
  omega

theorem RunWhile.trans' {s t u : State E} (h1 : RunWhile remote (fun _ => True) s t) (h2 : RunWhile remote (fun _ => True) t u) :
    RunWhile remote (fun _ => True) s u := by
  induction h2 with
  | refl => exact h1
  | next _ hd hp hs _ ih => exact .next ih hd hp hs trivial

end Gringo.Program
