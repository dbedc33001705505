import Verif.Proofs.ProgramInv
import Verif.Spec.Program
/-
What is sent to a connection in Model/Program.lean without being an answer.
-/
namespace Gringo.Program
open Gringo.P2P Gringo.Spec Gringo.Props

variable {E : Env} {remote : Nat → String}

def helloThread : Lifecycle.Thread (Message E) → Bool
  | .send m | .sent m _ => isHello m
  | _ => false

/-- How far `connectPeer` is with a connection: p2p/pool.go:255-257. -/
inductive Stage where
  | fresh
  | pinging (k : Nat)
  | done
deriving DecidableEq

def stage (lp : Whole.Loop) (id : Nat) : Stage :=
  match lp with
  | .starting _ c | .pinging _ c => if id = c then .fresh else .done
  | .pinged _ c k => if id = c then .pinging k else .done
  | _ => .done

/-- The hellos among the calls. -/
def Staged (ts : List (Lifecycle.Thread (Message E))) : Stage → Prop
  | .fresh => ts.filter helloThread = []
  | .pinging k => ∃ t, ts[k]? = some t ∧ ts.filter helloThread = [t] ∧ (t = .send ping ∨ ∃ b, t = .sent ping b)
  | .done => ∃ b, ts.filter helloThread = [.sent ping b, .send ask] ∨ ∃ b', ts.filter helloThread = [.sent ping b, .sent ask b']

/-- The invariant of one connection; `B` holds of the blocks that are sent. -/
structure Greets (B : Block E → Prop) (st : Stage) (p : Lifecycle.Peer (Message E)) : Prop where
  replying : ∀ m, p.reader = .replying m → isHello m = false
  taken : p.accepted.filter isHello = (p.threads.filter helloThread).flatMap takenFrom
  staged : Staged p.threads st
  source : ∀ t ∈ p.threads, ∀ m, t = .send m ∨ (∃ b, t = .sent m b) → isHello m = true ∨ ∃ b, m = .block b ∧ B b

theorem Greets.mono {B B' : Block E → Prop} {st : Stage} {p : Lifecycle.Peer (Message E)} (h : Greets B st p)
    (hb : ∀ b, B b → B' b) : Greets B' st p :=
  ⟨h.replying, h.taken, h.staged, fun t ht m hm => (h.source t ht m hm).imp id fun ⟨b, e, hB⟩ => ⟨b, e, hb b hB⟩⟩

theorem filter_replaced {α : Type} {f : α → Bool} {l r : List α} {a b : α} (ha : f a = false) (hb : f b = false) :
    (l ++ b :: r).filter f = (l ++ a :: r).filter f := by simp [ha, hb]

theorem staged_same {ts ts' : List (Lifecycle.Thread (Message E))} {st : Stage} (h : Staged ts st)
    (e : ts'.filter helloThread = ts.filter helloThread)
    (hk : ∀ (k : Nat) (t : Lifecycle.Thread (Message E)), helloThread t = true → ts[k]? = some t → ts'[k]? = some t) : Staged ts' st := by
  cases st with
  | fresh => exact e.trans h
  | pinging k =>
    obtain ⟨t, h1, h2, h3⟩ := h
    refine ⟨t, hk k t ?_ h1, e.trans h2, h3⟩
    rcases h3 with rfl | ⟨b, rfl⟩ <;> rfl
  | done =>
    obtain ⟨b, h⟩ := h
    refine ⟨b, ?_⟩
    rw [e]
    exact h

/-- A call is replaced by one that is no hello either. -/
theorem greets_other {B : Block E → Prop} {st : Stage} {p q : Lifecycle.Peer (Message E)} (h : Greets B st p)
    {l r : List (Lifecycle.Thread (Message E))} {a b : Lifecycle.Thread (Message E)} (ha : helloThread a = false)
    (hb : helloThread b = false) (hsrc : ∀ m, (b = .send m ∨ ∃ x, b = .sent m x) → a = .send m) (hp : p.threads = l ++ a :: r)
    (hq : q.threads = l ++ b :: r) (hr : ∀ m, q.reader = .replying m → isHello m = false)
    (hacc : q.accepted.filter isHello = p.accepted.filter isHello) : Greets B st q := by
  have e : q.threads.filter helloThread = p.threads.filter helloThread := by rw [hp, hq]; exact filter_replaced ha hb
  refine ⟨hr, by rw [hacc, e]; exact h.taken, staged_same h.staged e ?_, ?_⟩
  · intro k t ht hk
    rw [hp] at hk
    rw [hq]
    exact getElem?_replaced hk (fun e => by rw [e, ha] at ht; cases ht)
  · intro t ht m hm
    rw [hq] at ht
    rcases Whole.mem_replaced (x := a) ht with rfl | ht
    · exact h.source a (by rw [hp]; simp) m (.inl (hsrc m hm))
    · exact h.source t (by rw [hp]; exact ht) m hm

/-- A hello is taken, or given up. -/
theorem greets_hello {B : Block E → Prop} {st : Stage} {p q : Lifecycle.Peer (Message E)} (h : Greets B st p)
    {l r : List (Lifecycle.Thread (Message E))} {m : Message E} (hm : isHello m = true) (b : Bool)
    (hp : p.threads = l ++ .send m :: r) (hq : q.threads = l ++ .sent m b :: r)
    (hr : ∀ m, q.reader = .replying m → isHello m = false)
    (hacc : q.accepted = p.accepted ++ if b then [m] else []) : Greets B st q := by
  have ep : p.threads.filter helloThread = l.filter helloThread ++ .send m :: r.filter helloThread := by
    rw [hp, List.filter_append, List.filter_cons_of_pos (by exact hm)]
  have eq : q.threads.filter helloThread = l.filter helloThread ++ .sent m b :: r.filter helloThread := by
    rw [hq, List.filter_append, List.filter_cons_of_pos (by exact hm)]
  have src : ∀ t ∈ q.threads, ∀ m, t = .send m ∨ (∃ b, t = .sent m b) → isHello m = true ∨ ∃ b, m = .block b ∧ B b := by
    intro t ht m' hm'
    rw [hq] at ht
    rcases Whole.mem_replaced (x := .send m) ht with rfl | ht
    · rcases hm' with hm' | ⟨_, hm'⟩
      · cases hm'
      · cases hm'; exact .inl hm
    · exact h.source t (by rw [hp]; exact ht) m' hm'
  have fin : r.filter helloThread = [] → q.accepted.filter isHello = (q.threads.filter helloThread).flatMap takenFrom := by
    intro hr0
    have := h.taken
    rw [ep, hr0] at this
    rw [hacc, eq, hr0, List.filter_append, this]
    cases b <;> simp [takenFrom, hm]
  have hst := h.staged
  cases st with
  | fresh =>
    have hst : p.threads.filter helloThread = [] := hst
    rw [ep] at hst
    simp at hst
  | pinging k =>
    obtain ⟨t, h1, h2, h3⟩ := hst
    rw [ep] at h2
    have hl0 : l.filter helloThread = [] := by
      cases hl : l.filter helloThread with
      | nil => rfl
      | cons a as => rw [hl] at h2; simp at h2
    rw [hl0] at h2
    injection h2 with h2 h2'
    refine ⟨hr, fin h2', ⟨.sent m b, ?_, by rw [eq, hl0, h2']; rfl, .inr ⟨b, ?_⟩⟩, src⟩
    · rw [hp] at h1
      rw [hq]
      have hk : k = l.length := by
        rcases Nat.lt_trichotomy k l.length with hk | hk | hk
        · rw [List.getElem?_append_left hk] at h1
          have := List.filter_eq_nil_iff.1 hl0 t (List.mem_of_getElem? h1)
          rw [← h2] at this
          exact absurd hm this
        · exact hk
        · rw [List.getElem?_append_right (by omega)] at h1
          obtain ⟨j, hj⟩ : ∃ j, k - l.length = j + 1 := ⟨k - l.length - 1, by omega⟩
          rw [hj, List.getElem?_cons_succ] at h1
          have := List.filter_eq_nil_iff.1 h2' t (List.mem_of_getElem? h1)
          rw [← h2] at this
          exact absurd hm this
      subst hk
      simp
    · rcases h3 with h3 | ⟨_, h3⟩ <;> rw [← h2] at h3 <;> cases h3
      rfl
  | done =>
    obtain ⟨c, h2 | ⟨b', h2⟩⟩ := hst
    · rw [ep] at h2
      have : l.filter helloThread = [.sent ping c] ∧ m = ask ∧ r.filter helloThread = [] := by
        generalize l.filter helloThread = fl at h2 ⊢
        generalize r.filter helloThread = fr at h2 ⊢
        rcases fl with _ | ⟨a, _ | ⟨a', l'⟩⟩
        · simp at h2
        · simp at h2; exact ⟨by rw [h2.1], h2.2.1, h2.2.2⟩
        · simp at h2
      obtain ⟨e1, e2, e3⟩ := this
      exact ⟨hr, fin e3, ⟨c, .inr ⟨b, by rw [eq, e1, e2, e3]; rfl⟩⟩, src⟩
    · rw [ep] at h2
      have : .send m ∈ l.filter helloThread ++ .send m :: r.filter helloThread := by simp
      rw [h2] at this
      simp at this

/-- One step of the goroutines of a connection that is no new call. -/
theorem greets_inner {B : Block E → Prop} {st : Stage} {k : Lifecycle.Kind} {p q : Lifecycle.Peer (Message E)}
    (hs : Lifecycle.Step Talk.frame k p q) (hk : k ≠ .call) (hc : ∀ a, p.reader ≠ .handling a) (h : Greets B st p) :
    Greets B st q := by
  have d : ∀ {d d' : Lifecycle.Disc} {z : Lifecycle.Peer (Message E)}, Lifecycle.DiscStep d p d' z →
      z.reader = p.reader ∧ z.threads = p.threads ∧ z.accepted = p.accepted := by
    intro d d' z h; cases h <;> exact ⟨rfl, rfl, rfl⟩
  have same : ∀ {z : Lifecycle.Peer (Message E)}, (∀ m, z.reader = .replying m → isHello m = false) →
      z.threads = p.threads → z.accepted.filter isHello = p.accepted.filter isHello → Greets B st z := by
    intro z h1 h2 h3
    exact ⟨h1, by rw [h2, h3]; exact h.taken, by rw [h2]; exact h.staged, by rw [h2]; exact h.source⟩
  cases hs with
  | start | callDisconnect | callSend | callWait => exact absurd rfl hk
  | handleReply _ m hr => exact absurd hr (hc _)
  | replyTaken _ m hr hw =>
    refine same nofun rfl ?_
    simp [h.replying m hr]
  | closingStep _ s0 _ _ _ hd => obtain ⟨-, h2, h3⟩ := d hd; exact same nofun h2 (congrArg _ h3)
  | readerLeave _ s0 _ _ _ hd => obtain ⟨-, h2, h3⟩ := d hd; exact same nofun h2 (congrArg _ h3)
  | writerLeave _ s0 _ _ _ hd =>
    obtain ⟨h1, h2, h3⟩ := d hd
    exact same (fun m e => h.replying m (h1 ▸ e)) h2 (congrArg _ h3)
  | threadDisc _ s0 l r d0 d' hp hd =>
    obtain ⟨h1, h2, h3⟩ := d hd
    exact greets_other h (b := .disconnect d') rfl rfl (by rintro m (e | ⟨_, e⟩) <;> cases e) hp rfl
      (fun m e => h.replying m (h1 ▸ e)) (congrArg _ h3)
  | waitQuit _ l r hp _ =>
    exact greets_other h (b := .waitGroup) rfl rfl (by rintro m (e | ⟨_, e⟩) <;> cases e) hp rfl h.replying rfl
  | waitEnd _ l r hp _ =>
    exact greets_other h (b := .woken) rfl rfl (by rintro m (e | ⟨_, e⟩) <;> cases e) hp rfl h.replying rfl
  | sendQuit _ l r m hp _ =>
    cases hm : isHello m with
    | false =>
      exact greets_other h (a := .send m) (b := .sent m false) hm hm (by rintro m' (e | ⟨_, e⟩) <;> cases e; rfl) hp rfl h.replying rfl
    | true => exact greets_hello h hm false hp rfl h.replying (List.append_nil _).symm
  | sendTaken _ l r m hp _ =>
    cases hm : isHello m with
    | false =>
      refine greets_other h (a := .send m) (b := .sent m true) hm hm (by rintro m' (e | ⟨_, e⟩) <;> cases e; rfl) hp rfl h.replying ?_
      simp [hm]
    | true => exact greets_hello h hm true hp rfl h.replying rfl
  | _ => first | exact same h.replying rfl rfl | exact same nofun rfl rfl

/-- A new call that is no hello. -/
theorem greets_call {B : Block E → Prop} {st : Stage} {p : Lifecycle.Peer (Message E)} (h : Greets B st p)
    {t : Lifecycle.Thread (Message E)} (ht : helloThread t = false)
    (hsrc : ∀ m, (t = .send m ∨ ∃ x, t = .sent m x) → ∃ b, m = .block b ∧ B b) :
    Greets B st { p with threads := p.threads ++ [t] } := by
  have e : (p.threads ++ [t]).filter helloThread = p.threads.filter helloThread := by simp [ht]
  refine ⟨h.replying, by dsimp only; rw [e]; exact h.taken, staged_same h.staged e ?_, ?_⟩
  · intro k u _ hk
    obtain ⟨hlt, -⟩ := List.getElem?_eq_some_iff.1 hk
    rw [List.getElem?_append_left hlt]
    exact hk
  · intro u hu m hm
    rcases List.mem_append.1 hu with hu | hu
    · exact h.source u hu m hm
    · rw [List.mem_singleton.1 hu] at hm
      exact .inr (hsrc m hm)

/-! ### The pool -/

theorem handed_calls (x : Whole.Conn (Message E)) (m : Message E) : handed (x.calls (.send m)) = handed x ++ [m] := by
  unfold handed Whole.Conn.calls
  simp

/-- One step of the pool. -/
theorem greets_pool {B : Block E → Prop} {w w' : Whole.State (Message E)} {k : Lifecycle.Kind}
    (hw : Whole.Reachable Talk.frame ping ask w) (hs : Whole.Step Talk.frame ping ask w k w')
    (hm : w'.loop = w.loop → ∀ x ∈ w.conns, ∀ y ∈ w'.conns, y.id = x.id → handed y = handed x)
    (hcalm : ∀ x ∈ w.conns, ∀ a, x.peer.reader ≠ .handling a)
    (h : ∀ x ∈ w.conns, Greets B (stage w.loop x.id) x.peer) :
    ∀ y ∈ w'.conns, Greets B (stage w'.loop y.id) y.peer := by
  have mem : ∀ {l r : List (Whole.Conn (Message E))} {u v : Whole.Conn (Message E)}, w.conns = l ++ u :: r →
      ∀ z ∈ l ++ v :: r, z = v ∨ (z ∈ w.conns ∧ z.id ≠ u.id) := by
    intro l r u v e z hz
    have hn := Whole.ids_nodup hw
    rw [List.mem_append, List.mem_cons] at hz
    rw [e, List.map_append, List.map_cons, List.nodup_append] at hn
    obtain ⟨-, n2, n3⟩ := hn
    rw [List.nodup_cons] at n2
    rcases hz with hz | rfl | hz
    · exact .inr ⟨by rw [e]; simp [hz], fun e => n3 z.id (List.mem_map.2 ⟨z, hz, rfl⟩) u.id (by simp) e⟩
    · exact .inl rfl
    · exact .inr ⟨by rw [e]; simp [hz], fun e => n2.1 (List.mem_map.2 ⟨z, hz, e⟩)⟩
  -- a connection is replaced by one that has come as far
  have rep : ∀ {l r : List (Whole.Conn (Message E))} {u v : Whole.Conn (Message E)} {lp : Whole.Loop},
      w.conns = l ++ u :: r → v.id = u.id →
      (Greets B (stage w.loop u.id) u.peer → Greets B (stage lp u.id) v.peer) →
      (∀ c, c ≠ u.id → stage lp c = stage w.loop c) →
      ∀ y ∈ l ++ v :: r, Greets B (stage lp y.id) y.peer := by
    intro l r u v lp e hid hv hc y hy
    rcases mem e y hy with rfl | ⟨hy, hne⟩
    · rw [hid]; exact hv (h u (by rw [e]; simp))
    · rw [hc _ hne]; exact h y hy
  have only : ∀ {lp : Whole.Loop}, (∀ c, stage lp c = stage w.loop c) →
      ∀ y ∈ w.conns, Greets B (stage lp y.id) y.peer := by
    intro lp e y hy
    rw [e]; exact h y hy
  cases hs with
  | register addr c told now n hl =>
    intro y hy
    show Greets B (stage (.starting addr c) y.id) y.peer
    obtain ⟨-, s, hr, hwr⟩ := Whole.refines hw
    have hg := ((PoolRun.inv_reachable hr).conns.greeting addr c (by rw [hwr.loop, hl]; rfl)).2
    rcases List.mem_append.1 hy with hy | hy
    · have hne : y.id ≠ c := hg y.abs (by rw [hwr.links]; exact List.mem_map.2 ⟨y, hy, rfl⟩)
      have := h y hy
      rw [hl] at this
      rw [show stage (.starting addr c) y.id = .done from if_neg hne]
      exact this
    · rw [List.mem_singleton.1 hy]
      rw [show stage (.starting addr c) c = .fresh from if_pos rfl]
      exact ⟨nofun, rfl, rfl, fun t ht => by cases ht⟩
  | start addr l r x hl hx p hr0 hw0 hp =>
    refine rep hx rfl (fun g => ?_) (fun c hc => by rw [hl]; rfl)
    rw [hl] at g
    subst hp
    exact ⟨nofun, g.taken, g.staged, g.source⟩
  | ping addr l r x hl hx =>
    refine rep hx rfl (fun g => ?_) (fun c hc => by rw [hl]; simp [stage, hc])
    rw [hl] at g
    rw [show stage (.pinging addr x.id) x.id = .fresh from if_pos rfl] at g
    rw [show stage (.pinged addr x.id x.peer.threads.length) x.id = .pinging x.peer.threads.length from if_pos rfl]
    have hst : x.peer.threads.filter helloThread = [] := g.staged
    have e : (x.peer.threads ++ [Lifecycle.Thread.send ping]).filter helloThread = [.send ping] := by
      rw [List.filter_append, hst]; rfl
    refine ⟨g.replying, ?_, ⟨.send ping, by simp [Whole.Conn.calls], e, .inl rfl⟩, ?_⟩
    · show x.peer.accepted.filter isHello = ((x.peer.threads ++ [Lifecycle.Thread.send ping]).filter helloThread).flatMap takenFrom
      rw [e, g.taken, hst]; rfl
    · intro t ht m hm
      rcases List.mem_append.1 ht with ht | ht
      · exact g.source t ht m hm
      · rw [List.mem_singleton.1 ht] at hm
        rcases hm with hm | ⟨_, hm⟩ <;> cases hm
        exact .inl rfl
  | ask addr k m b l r x hl hx hk =>
    refine rep hx rfl (fun g => ?_) (fun c hc => by rw [hl]; simp [stage, hc])
    rw [hl] at g
    rw [show stage (.pinged addr x.id k) x.id = .pinging k from if_pos rfl] at g
    rw [show stage (.asked addr x.id x.peer.threads.length) x.id = .done from rfl]
    obtain ⟨t, h1, h2, h3⟩ := g.staged
    have ht : t = .sent m b := by
      have hk : x.peer.threads[k]? = some (.sent m b) := hk
      rw [h1] at hk
      exact Option.some.inj hk
    obtain ⟨b', h3⟩ : ∃ b', t = .sent ping b' := by
      rcases h3 with h3 | h3
      · rw [ht] at h3; cases h3
      · exact h3
    have e : (x.peer.threads ++ [Lifecycle.Thread.send ask]).filter helloThread = [.sent ping b', .send ask] := by
      rw [List.filter_append, h2, h3]; rfl
    refine ⟨g.replying, ?_, ⟨b', .inl e⟩, ?_⟩
    · show x.peer.accepted.filter isHello = ((x.peer.threads ++ [Lifecycle.Thread.send ask]).filter helloThread).flatMap takenFrom
      rw [e, g.taken, h2, h3]
      cases b' <;> rfl
    · intro t ht m hm
      rcases List.mem_append.1 ht with ht | ht
      · exact g.source t ht m hm
      · rw [List.mem_singleton.1 ht] at hm
        rcases hm with hm | ⟨_, hm⟩ <;> cases hm
        exact .inl rfl
  | spawn addr k m b l r x hl hx hk =>
    refine rep hx rfl (fun g => ?_) (fun c hc => by rw [hl]; rfl)
    rw [hl] at g
    exact greets_call g (t := .wait) rfl (by rintro m (e | ⟨_, e⟩) <;> cases e)
  | inner l r x hx kind p hk hs hh =>
    exact rep hx rfl (fun g => greets_inner hs hk (hcalm x (by rw [hx]; simp)) g) (fun _ _ => rfl)
  | relay l r x m hx =>
    have := hm rfl x (by rw [hx]; simp) (x.calls (.send m)) (by simp) rfl
    rw [handed_calls] at this
    simp at this
  | want l r x a hx hr ha hb0 => exact absurd hr (hcalm x (by rw [hx]; simp) a)
  | record l r x td height hx hl => exact rep hx rfl id (fun _ _ => rfl)
  | mark l r x k hx hw hk hl => exact rep hx rfl id (fun _ _ => rfl)
  | seeDown l r x hx hw => exact rep hx rfl id (fun _ _ => rfl)
  | count l r x n hx hw => exact rep hx rfl id (fun _ _ => rfl)
  | drop l r x hx hw => exact rep hx rfl id (fun _ _ => rfl)
  | free l r x hx hw hs => exact rep hx rfl id (fun _ _ => rfl)
  | banSelf addr i l r x hx hr ht hp hb => exact absurd hr (hcalm x (by rw [hx]; simp) _)
  | banOther addr i l r y b hx ht hp hb =>
    exact rep hx rfl (fun g => greets_call g (t := .disconnect .cas) rfl (by rintro m (e | ⟨_, e⟩) <;> cases e)) (fun _ _ => rfl)
  | closeCall l r addr i l' r' x hx ht hp hx' =>
    exact rep hx' rfl (fun g => greets_call g (t := .disconnect .cas) rfl (by rintro m (e | ⟨_, e⟩) <;> cases e)) (fun _ _ => rfl)
  | _ => first | exact h | (refine only fun c => ?_; first | rfl | (rename_i hl _; rw [hl]; rfl) | simp_all [stage])

/-! ### The whole program -/

theorem camein_mono {s s' : State E} {b : Block E} (h : CameIn remote s b) (hc : s'.chain = s.chain)
    (hst : s'.storage = s.storage)
    (hx : ∀ x ∈ s.pool.conns, ∃ y ∈ s'.pool.conns, y.id = x.id ∧ y.addr = x.addr)
    (ha : ∀ c, (s.io c).arrived <+: (s'.io c).arrived) : CameIn remote s' b := by
  obtain ⟨x, hm, fs, h1, h2, h3, h4⟩ := h
  obtain ⟨y, hy, e1, e2⟩ := hx x hm
  refine ⟨y, hy, fs, ?_, h2, by rw [hc]; exact h3, by rw [hc, hst, e1, e2]; exact h4⟩
  rw [e1]
  exact h1.trans (ha _)

/-- What holds at all times of what is sent. -/
structure Sent (remote : Nat → String) (s : State E) : Prop where
  conns : ∀ x ∈ s.pool.conns, Greets (CameIn remote s) (stage s.pool.loop x.id) x.peer
  jobs : ∀ j ∈ s.jobs, CameIn remote s j.block

variable {chain : Chain E} {storage : Storage E} {mempool : Option (Transaction E → Out Unit)}

/-- A step that changes one connection and leaves the loop alone. -/
theorem sent_one {s s' : State E} (h : Sent remote s)
    {l r : List (Whole.Conn (Message E))} {x x' : Whole.Conn (Message E)} (hx : s.pool.conns = l ++ x :: r)
    (hx' : s'.pool.conns = l ++ x' :: r) (hid : x'.id = x.id) (haddr : x'.addr = x.addr)
    (hl : s'.pool.loop = s.pool.loop) (hc : s'.chain = s.chain) (hst : s'.storage = s.storage)
    (ha : ∀ c, (s.io c).arrived <+: (s'.io c).arrived)
    (hg : Greets (CameIn remote s) (stage s.pool.loop x.id) x.peer →
      Greets (CameIn remote s) (stage s.pool.loop x.id) x'.peer)
    (hr : ∀ j ∈ s'.jobs, j ∈ s.jobs ∨ CameIn remote s j.block) : Sent remote s' := by
  have mono : ∀ b, CameIn remote s b → CameIn remote s' b := fun b hb => by
    refine camein_mono hb hc hst (fun z hz => ?_) ha
    rw [hx] at hz
    rcases mem_changed (y := x') hz with rfl | hz
    · exact ⟨x', by rw [hx']; simp, hid, haddr⟩
    · exact ⟨z, hx' ▸ hz, rfl, rfl⟩
  refine ⟨fun z hz => ?_, fun e he => ?_⟩
  · rw [hl]
    rw [hx'] at hz
    rcases Whole.mem_replaced (x := x) hz with rfl | hz
    · rw [hid]; exact (hg (h.conns x (by rw [hx]; simp))).mono mono
    · exact (h.conns z (by rw [hx]; exact hz)).mono mono
  · rcases hr e he with h' | h'
    · exact mono _ (h.jobs e h')
    · exact mono _ h'

theorem answer_hello {es : List (Effect E)} {a : Message E} (h : Talk.answer es = some a) : isHello a = false := by
  induction es with
  | nil => cases h
  | cons e es ih =>
    cases e with
    | reply r => cases h; cases r <;> rfl
    | relay _ _ _ => exact ih h

theorem sent_step {s s' : State E} (hi : Inv remote chain storage mempool s) {headHash : Bytes}
    (hh : HasHash chain.head headHash) (h : Sent remote s) {k : Lifecycle.Kind} (hs : Step remote k s s') : Sent remote s' := by
  have noReply : ∀ {rd : Lifecycle.Reader (Message E)} {st : Stage} {p : Lifecycle.Peer (Message E)},
      (∀ m, rd = .replying m → isHello m = false) → Greets (CameIn remote s) st p →
      Greets (CameIn remote s) st { p with reader := rd } := fun hr g => ⟨hr, g.taken, g.staged, g.source⟩
  have keep : ∀ (c : Nat) (io : Reading E), (s.io c).arrived <+: io.arrived → ∀ d,
      (s.io d).arrived <+: (Function.update s.io c io d).arrived := by
    intro c io h d
    by_cases e : d = c
    · subst e; rw [Function.update_self]; exact h
    · rw [Function.update_of_ne e]; exact List.prefix_rfl
  -- the blocks that a message starts to relay came in
  have came : ∀ {x : Whole.Conn (Message E)} {w : World} {m : Message E}, x ∈ s.pool.conns → (s.io x.id).task = some m →
      (processMessage w s.node (sender remote x) m).ended = .done →
      ∀ j ∈ started s.pool.online (processMessage w s.node (sender remote x) m).node.chain m, CameIn remote s j.block := by
    intro x w m hx ht he j hj
    obtain ⟨t, en, -⟩ := process_touches w s.node (sender remote x) m
    rw [en] at hj
    obtain ⟨rfl, h2, -⟩ := started_block hj
    obtain ⟨node, n1, n2, n3, n4⟩ := hi.talks x hx
    obtain ⟨-, -, fs, ms, es, late, lost, harr, hms, -⟩ := Talk.in_reachable (fun _ _ h => h) (n1 ▸ hh) n3 n4
    have hk : Known s.node (sender remote x) := (C64_goroutines s.pool s.pool hi.whole .here x hx).1
    refine ⟨x, hx, fs, ⟨(s.io x.id).inbox, harr.symm⟩, ?_, h2, (handled_block w s.node _ _ hk he).imp id fun hf e => ?_⟩
    · rw [hms]
      have : (talk s x).task = some (.block j.block) := ht
      rw [this]
      simp
    · obtain ⟨i, hi⟩ := (known_iff _ _).1 hk
      have hi : s.node.table.find x.addr = some i := hi
      have hf : s.node.table.find (remote x.id) = none := hf
      rw [e, hi] at hf
      cases hf
  cases hs with
  | pool k q hs hr hw hm =>
    have mono : ∀ b, CameIn remote s b → CameIn remote { s with pool := q } b := fun b hb =>
      camein_mono hb rfl rfl (fun x hx => by
        obtain ⟨y, hy, h1, h2, -⟩ := comes_of hi.whole hs hx
        exact ⟨y, hy, h1, h2⟩) (fun _ => List.prefix_rfl)
    refine ⟨fun y hy => ?_, fun e he => mono _ (h.jobs e he)⟩
    exact (greets_pool hi.whole hs hm (fun x hx => (hi.calm x hx).2) h.conns y hy).mono mono
  | arrive c bs =>
    have mono : ∀ b, CameIn remote s b → CameIn remote { s with io := Function.update s.io c { s.io c with
        inbox := (s.io c).inbox ++ bs, arrived := (s.io c).arrived ++ bs } } b := fun b hb =>
      camein_mono hb rfl rfl (fun x hx => ⟨x, hx, rfl, rfl⟩) (keep c _ (List.prefix_append _ _))
    exact ⟨fun y hy => (h.conns y hy).mono mono, fun e he => mono _ (h.jobs e he)⟩
  | look l' r' j i st hj hi' hn hst =>
    refine ⟨h.conns, fun e he => ?_⟩
    rcases Whole.mem_replaced (x := j) he with rfl | he
    · exact h.jobs j (by rw [hj]; simp)
    · exact h.jobs e (by rw [hj]; exact he)
  | relay l' r' j i l r x hj hi' hn hx =>
    have hb := h.jobs j (by rw [hj]; simp)
    refine sent_one h (x' := x.calls (.send (.block j.block))) hx rfl rfl rfl rfl rfl rfl (fun _ => List.prefix_rfl) (fun g => ?_) (fun e he => ?_)
    · refine greets_call g (t := .send (.block j.block)) rfl ?_
      rintro m (e | ⟨_, e⟩) <;> cases e
      exact ⟨_, rfl, hb⟩
    · rcases Whole.mem_replaced (x := j) he with rfl | he
      · exact .inr hb
      · exact .inl (by rw [hj]; exact he)
  | skip l r x c rest hx hr ht h0 =>
    exact sent_one h hx rfl rfl rfl rfl rfl rfl (keep _ _ List.prefix_rfl) (noReply nofun) (fun e he => .inl he)
  | read x m c rest hx hr ht h0 =>
    obtain ⟨l, r, e⟩ := List.append_of_mem hx
    exact sent_one h e e rfl rfl rfl rfl rfl (keep _ _ List.prefix_rfl) id (fun e he => .inl he)
  | process l r x w m hx hr ht hs hw hl he ha =>
    have hm : x ∈ s.pool.conns := by rw [hx]; simp
    obtain ⟨t, e, -⟩ := process_touches w s.node (sender remote x) m
    refine sent_one h (x' := { x with peer := { x.peer with reader := .loop } }) hx rfl rfl rfl rfl ?_ rfl
      (keep _ _ List.prefix_rfl) (noReply nofun) (fun e hj => ?_)
    · show (processMessage w s.node (sender remote x) m).node.chain = s.chain
      rw [e]; rfl
    · exact (List.mem_append.1 hj).imp id (came hm ht he e)
  | answer l r x w m a hx hr ht hs hw hl he ha =>
    have hm : x ∈ s.pool.conns := by rw [hx]; simp
    obtain ⟨t, e, -⟩ := process_touches w s.node (sender remote x) m
    refine sent_one h (x' := { x with peer := { x.peer with reader := .replying a } }) hx rfl rfl rfl rfl ?_ rfl
      (keep _ _ List.prefix_rfl) (noReply fun m e => by cases e; exact answer_hello ha) (fun e hj => ?_)
    · show (processMessage w s.node (sender remote x) m).node.chain = s.chain
      rw [e]; rfl
    · exact (List.mem_append.1 hj).imp id (came hm ht he e)
  | ban l r x w m hx hr ht hs he =>
    obtain ⟨t, e, -⟩ := process_touches w s.node (sender remote x) m
    refine sent_one h (x' := { x with peer := { x.peer with reader := .closing .cas } }) hx rfl rfl rfl rfl ?_ rfl
      (keep _ _ List.prefix_rfl) (noReply nofun) (fun e he => .inl he)
    show (processMessage w s.node (sender remote x) m).node.chain = s.chain
    rw [e]; rfl
  | banOther l r x y w m i hx hr ht hs hy he hf hpe hne =>
    exact sent_one h (x' := y.calls (.disconnect .cas)) hy rfl rfl rfl rfl rfl rfl (keep _ _ List.prefix_rfl)
      (fun g => greets_call g (t := .disconnect .cas) rfl (by rintro m (e | ⟨_, e⟩) <;> cases e)) (fun e he => .inl he)
  | readerDies => exact ⟨h.conns, h.jobs⟩
  | processDies => exact ⟨h.conns, h.jobs⟩
  | writerDies => exact ⟨h.conns, h.jobs⟩

theorem sent_reachable {s : State E} {headHash : Bytes} (hh : HasHash chain.head headHash)
    (h : Reachable remote chain storage mempool s) : Sent remote s := by
  induction h with
  | new => exact ⟨fun _ h => (by cases h), fun _ h => (by cases h)⟩
  | next h _ _ hs ih => exact sent_step (inv_reachable h) hh ih hs

end Gringo.Program
