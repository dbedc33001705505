import Verif.Spec.Program
import Verif.Props.Rest
/-
Helper lemmas for Props/Program.lean: Model/Program.lean refines Model/Whole.lean and, for every connection, Model/Talk.lean.
-/
namespace Gringo.Whole
open Gringo.P2P Gringo.Spec Gringo.Props

variable {M : Type} {frame : M → Bytes} {ping ask : M}

/-! ### More about the pool -/

theorem unique_reachable {w : State M} (h : Reachable frame ping ask w) : UniqueKeys w.table := by
  induction h with
  | new => exact List.nodup_nil
  | @next w w' k _ _ hs ih =>
    have up : ∀ (a : String) (f : PeerInfo → PeerInfo), UniqueKeys (w.table.update a f) := fun a f => by
      unfold UniqueKeys; rw [update_keys]; exact ih
    cases hs with
    | add addr resolve hr =>
      obtain ⟨l, e, h⟩ := add_prefix resolve w.table addr
      show UniqueKeys (P2P.add resolve w.table addr)
      rw [e]
      rcases h with rfl | ⟨rfl, -, -, hn⟩
      · rw [List.append_nil]; exact ih
      · unfold UniqueKeys at ih ⊢
        rw [List.map_append]
        exact List.nodup_append.2 ⟨ih, by simp, fun a ha b hb e => hn (by simp at hb; rw [← hb, ← e]; exact ha)⟩
    | record l r x td height hx hl =>
      exact up x.addr fun i => { i with totalDifficulty := td, height := height }
    | _ => first | exact ih | exact up _ _

theorem ids_nodup {w : State M} (h : Reachable frame ping ask w) : (w.conns.map (·.id)).Nodup := by
  obtain ⟨-, s, hr, h⟩ := refines h
  have := (PoolRun.inv_reachable hr).conns.nodup
  rw [h.links, List.map_map] at this
  exact this

theorem ids_small {w : State M} (h : Reachable frame ping ask w) : ∀ x ∈ w.conns, x.id < w.next := by
  obtain ⟨-, s, hr, h⟩ := refines h
  intro x hx
  have := (PoolRun.inv_reachable hr).conns.small x.abs (by rw [h.links]; exact List.mem_map.2 ⟨x, hx, rfl⟩)
  rw [h.next] at this
  exact this

theorem same_id {w : State M} (h : Reachable frame ping ask w) {x y : Conn M} (hx : x ∈ w.conns) (hy : y ∈ w.conns)
    (e : x.id = y.id) : x = y := List.inj_on_of_nodup_map (ids_nodup h) hx hy e

/-- Where a connection comes from: it is new, or was there before. -/
def Comes (frame : M → Bytes) (x y : Conn M) : Prop :=
  y.id = x.id ∧ y.addr = x.addr ∧ (y.peer = x.peer ∨ ∃ k, Lifecycle.Step frame k x.peer y.peer) ∧
    (x.peer.reader = .closing .returned → y.peer.reader = .closing .returned) ∧
    (x.lock = .before → (∀ a, x.peer.reader ≠ .handling a) → y.lock = .before)

theorem conn_from {w w' : State M} {k : Lifecycle.Kind} (h : Reachable frame ping ask w)
    (hs : Step frame ping ask w k w') {y : Conn M} (hy : y ∈ w'.conns) :
    (y.peer = .new M ∧ y.lock = .before ∧ (∀ x ∈ w.conns, x.id ≠ y.id) ∧
      y.addr ∈ w.table.map (·.1) ∧ ∃ a, w'.loop = .starting a y.id) ∨ ∃ x ∈ w.conns, Comes frame x y := by
  have same : ∀ {x : Conn M}, x ∈ w.conns → ∃ z ∈ w.conns, Comes frame z x :=
    fun {x} hx => ⟨x, hx, rfl, rfl, .inl rfl, id, fun h _ => h⟩
  have rep : ∀ {l r : List (Conn M)} {u v : Conn M}, w.conns = l ++ u :: r → y ∈ l ++ v :: r → Comes frame u v →
      (y.peer = .new M ∧ y.lock = .before ∧ (∀ x ∈ w.conns, x.id ≠ y.id) ∧
        y.addr ∈ w.table.map (·.1) ∧ ∃ a, w'.loop = .starting a y.id) ∨ ∃ x ∈ w.conns, Comes frame x y := by
    intro l r u v e hy hc
    rcases mem_replaced (x := u) hy with rfl | hy
    · exact .inr ⟨u, by rw [e]; simp, hc⟩
    · exact .inr (same (by rw [e]; exact hy))
  cases hs with
  | register addr c told now n hl =>
    rcases List.mem_append.1 hy with hy | hy
    · exact .inr (same hy)
    · have e := List.mem_singleton.1 hy
      subst e
      obtain ⟨-, s, hr, hw⟩ := refines h
      have h1 := (PoolRun.inv_reachable hr).conns.greeting addr c (by rw [hw.loop, hl]; rfl)
      have h2 := (PoolRun.inv_reachable hr).known.loop addr (by rw [hw.loop, hl]; rfl)
      rw [hw.table] at h2
      exact .inl ⟨rfl, rfl, fun x hx => h1.2 x.abs (by rw [hw.links]; exact List.mem_map.2 ⟨x, hx, rfl⟩), h2, addr, rfl⟩
  | start addr l r x hl hx p hr hw hp =>
    refine rep hx hy ⟨rfl, rfl, .inr ⟨_, by rw [hp]; exact .start _ hr hw⟩, fun e => ?_, fun h _ => h⟩
    rw [hr] at e; cases e
  | ping addr l r x hl hx => exact rep hx hy ⟨rfl, rfl, .inr ⟨_, .callSend _ _⟩, id, fun h _ => h⟩
  | ask addr k m b l r x hl hx hk => exact rep hx hy ⟨rfl, rfl, .inr ⟨_, .callSend _ _⟩, id, fun h _ => h⟩
  | spawn addr k m b l r x hl hx hk => exact rep hx hy ⟨rfl, rfl, .inr ⟨_, .callWait _⟩, id, fun h _ => h⟩
  | inner l r x hx kind p hk hs hh =>
    exact rep hx hy ⟨rfl, rfl, .inr ⟨_, hs⟩, fun e => (hh (.inr (.inr e))).trans e,
      fun h _ => by dsimp only; split <;> [exact h; rfl]⟩
  | relay l r x m hx => exact rep hx hy ⟨rfl, rfl, .inr ⟨_, .callSend _ _⟩, id, fun h _ => h⟩
  | want l r x a hx hr ha hb0 => exact rep hx hy ⟨rfl, rfl, .inl rfl, id, fun _ h => absurd hr (h a)⟩
  | record l r x td height hx hl => exact rep hx hy ⟨rfl, rfl, .inl rfl, id, fun h _ => by rw [hl] at h; cases h⟩
  | mark l r x k hx hw hk hl => exact rep hx hy ⟨rfl, rfl, .inl rfl, id, fun h _ => h⟩
  | seeDown l r x hx hw => exact rep hx hy ⟨rfl, rfl, .inl rfl, id, fun h _ => h⟩
  | count l r x n hx hw => exact rep hx hy ⟨rfl, rfl, .inl rfl, id, fun h _ => h⟩
  | drop l r x hx hw => exact rep hx hy ⟨rfl, rfl, .inl rfl, id, fun h _ => h⟩
  | free l r x hx hw hs => exact rep hx hy ⟨rfl, rfl, .inl rfl, id, fun h _ => h⟩
  | banSelf addr i l r x hx hr ht hp hb =>
    exact rep hx hy ⟨rfl, rfl, .inr ⟨_, .handleClose _ hr⟩, (fun e => by rw [hr] at e; cases e),
      fun h _ => h⟩
  | banOther addr i l r y b hx ht hp hb => exact rep hx hy ⟨rfl, rfl, .inr ⟨_, .callDisconnect _⟩, id, fun h _ => h⟩
  | closeCall l r addr i l' r' x hx ht hp hx' => exact rep hx' hy ⟨rfl, rfl, .inr ⟨_, .callDisconnect _⟩, id, fun h _ => h⟩
  | _ => exact .inr (same hy)

/-- The socket of a connection that was closed is not among the open ones. -/
theorem closed_reachable {w : State M} (h : Reachable frame ping ask w) :
    ∀ x ∈ w.conns, 0 < x.peer.conn → x.id ∉ w.opened := by
  induction h with
  | new => intro x hx; cases hx
  | @next w w' k h _ hs ih =>
    have rep : ∀ {l r : List (Conn M)} {x y : Conn M}, w.conns = l ++ x :: r → y.id = x.id → y.peer.conn = x.peer.conn →
        ∀ z ∈ l ++ y :: r, 0 < z.peer.conn → z.id ∉ w.opened := by
      intro l r x y e h1 h2 z hz hc
      rcases mem_replaced (x := x) hz with rfl | hz
      · rw [h1]; exact ih x (by rw [e]; simp) (h2 ▸ hc)
      · exact ih z (by rw [e]; exact hz) hc
    cases hs with
    | opens addr hl =>
      intro x hx hc e
      rcases List.mem_cons.1 e with e | e
      · have := ids_small h x hx; omega
      · exact ih x hx hc e
    | register addr c told now n hl =>
      intro x hx hc
      rcases List.mem_append.1 hx with hx | hx
      · exact ih x hx hc
      · rw [List.mem_singleton.1 hx] at hc
        exact absurd hc (Nat.lt_irrefl 0)
    | inner l r x hx kind p hk hs hh =>
      intro z hz hc
      show z.id ∉ if 0 < p.conn then w.opened.filter (· ≠ x.id) else w.opened
      rcases mem_replaced (x := x) hz with rfl | hz
      · have hc : 0 < p.conn := hc
        rw [if_pos hc]; simp
      · have := ih z (by rw [hx]; exact hz) hc
        split
        · simp [this]
        · exact this
    | start addr l r x hl hx p hr hw hp => exact rep hx rfl (by rw [hp])
    | ping addr l r x hl hx => exact rep hx rfl rfl
    | ask addr k m b l r x hl hx hk => exact rep hx rfl rfl
    | spawn addr k m b l r x hl hx hk => exact rep hx rfl rfl
    | relay l r x m hx => exact rep hx rfl rfl
    | want l r x a hx hr ha hb0 => exact rep hx rfl rfl
    | record l r x td height hx hl => exact rep hx rfl rfl
    | mark l r x k hx hw hk hl => exact rep hx rfl rfl
    | seeDown l r x hx hw => exact rep hx rfl rfl
    | count l r x n hx hw => exact rep hx rfl rfl
    | drop l r x hx hw => exact rep hx rfl rfl
    | free l r x hx hw hs => exact rep hx rfl rfl
    | banSelf addr i l r x hx hr ht hp hb => exact rep hx rfl rfl
    | banOther addr i l r y b hx ht hp hb => exact rep hx rfl rfl
    | closeCall l r addr i l' r' x hx ht hp hx' => exact rep hx' rfl rfl
    | _ => exact ih

theorem Later.trans {w w' w'' : State M} (h : Later frame ping ask w w') (h' : Later frame ping ask w' w'') :
    Later frame ping ask w w'' := by
  induction h' with
  | here => exact h
  | next _ hp hs ih => exact ih.next hp hs

/-! ### Handling one message, as steps of the pool -/

/-- A step of the goroutines that leaves the socket alone. -/
theorem inner_step {w : State M} {l r : List (Conn M)} {x : Conn M} {k : Lifecycle.Kind} {p : Lifecycle.Peer M}
    (hx : w.conns = l ++ x :: r) (hop : 0 < x.peer.conn → x.id ∉ w.opened) (hk : k ≠ .call)
    (hs : Lifecycle.Step frame k x.peer p) (hc : p.conn = x.peer.conn) (hh : ¬ x.held) :
    Step frame ping ask w k { w with
      conns := l ++ { x with peer := p, lock := if p.reader.handles then x.lock else .before } :: r } := by
  have := Step.inner (ping := ping) (ask := ask) w l r x hx k p hk hs (fun h => absurd h hh)
  have e : (if 0 < p.conn then w.opened.filter (· ≠ x.id) else w.opened) = w.opened := by
    split
    · rename_i h
      exact List.filter_eq_self.2 fun c hc' => decide_eq_true fun e => hop (hc ▸ h) (e ▸ hc')
    · rfl
  rw [e] at this
  exact this

/-- A message is delivered. -/
theorem deliver_later {w : State M} {l r : List (Conn M)} {x : Conn M} (hp : w.panicked = false)
    (hx : w.conns = l ++ x :: r) (hop : 0 < x.peer.conn → x.id ∉ w.opened) (hl : x.lock = .before)
    (hr : x.peer.reader = .reading) (a : Lifecycle.Act M) :
    Later frame ping ask w { w with conns := l ++ { x with peer := { x.peer with reader := .handling a } } :: r } := by
  have h := inner_step (ping := ping) (ask := ask) (frame := frame) (k := .remote) hx hop (by simp)
    (.deliver _ a hr) rfl (by rintro (h | h | h) <;> simp_all)
  have e : (if Lifecycle.Reader.handles (.handling a) then x.lock else .before) = x.lock := rfl
  rw [e] at h
  exact Later.here.next hp h

/-- The handling is over. -/
theorem handled_later {w : State M} {l r : List (Conn M)} {x : Conn M} {a : Lifecycle.Act M}
    {reader : Lifecycle.Reader M} (hp : w.panicked = false) (hx : w.conns = l ++ x :: r)
    (hop : 0 < x.peer.conn → x.id ∉ w.opened) (hl : x.lock ≠ .waiting) (hr : x.peer.reader = .handling a)
    (ha : a = .nothing ∧ reader = .loop ∨ ∃ m, a = .reply m ∧ reader = .replying m) :
    Later frame ping ask w { w with
      conns := l ++ { x with peer := { x.peer with reader := reader }, lock := .before } :: r } := by
  rcases ha with ⟨rfl, rfl⟩ | ⟨m, rfl, rfl⟩
  · exact Later.here.next hp (inner_step (ping := ping) (ask := ask) (frame := frame) (k := .own) hx hop (by simp)
      (.handleNothing _ hr) rfl (by rintro (h | h | h) <;> simp_all))
  · exact Later.here.next hp (inner_step (ping := ping) (ask := ask) (frame := frame) (k := .own) hx hop (by simp)
      (.handleReply _ m hr) rfl (by rintro (h | h | h) <;> simp_all))

/-- The calls of `Add` for a list of addresses. -/
theorem adds_later {w : State M} (hp : w.panicked = false) (resolve : String → Option TCPAddr)
    (hr : ∀ a, resolve "" = some a → a.port = 0) (g : TCPAddr → String) (l : List TCPAddr) :
    Later frame ping ask w { w with table := l.foldl (fun t a => P2P.add resolve t (g a)) w.table } := by
  induction l generalizing w with
  | nil => exact .here
  | cons a l ih =>
    have h1 : Later frame ping ask w { w with table := P2P.add resolve w.table (g a) } :=
      Later.here.next hp (.add w (g a) resolve hr)
    exact h1.trans (ih hp)

/-- The record of a peer is changed. -/
theorem record_later {w : State M} {l r : List (Conn M)} {x : Conn M} {a : Lifecycle.Act M} (hp : w.panicked = false)
    (hx : w.conns = l ++ x :: r) (hl : x.lock = .before) (hr : x.peer.reader = .handling a) (ha : a ≠ .close)
    (hf : ¬ w.locked x.addr) (td height : UInt64) :
    Later frame ping ask w { w with
      conns := l ++ { x with lock := .after } :: r
      table := w.table.update x.addr fun i => { i with totalDifficulty := td, height := height } } := by
  have h1 := Later.here.next hp (.want (frame := frame) (ping := ping) (ask := ask) w l r x a hx hr ha hl)
  exact h1.next hp (.record _ l r { x with lock := .waiting } td height rfl rfl hf)

end Gringo.Whole

namespace Gringo.Program
open Gringo.P2P Gringo.Spec Gringo.Props

variable {E : Env}

/-! ### What handling one message does -/

theorem update_congr {t : Table} (hu : UniqueKeys t) {a : String} {i : PeerInfo} (h : t.find a = some i)
    {f g : PeerInfo → PeerInfo} (e : f i = g i) : t.update a f = t.update a g := by
  unfold Table.update
  refine List.map_congr_left fun x hx => ?_
  split
  · rename_i hk
    have : x.2 = i := by
      obtain ⟨y, hy, e1, e2⟩ : ∃ y ∈ t, y.1 = a ∧ y.2 = i := by
        unfold Table.find at h
        obtain ⟨l, r, e, -⟩ := List.lookup_eq_some_iff.1 h
        exact ⟨(a, i), by rw [e]; simp, rfl, rfl⟩
      have := List.inj_on_of_nodup_map hu hx hy (hk.trans e1.symm)
      rw [this, e2]
    rw [this, e]
  · rfl

theorem update_id {t : Table} (hu : UniqueKeys t) {a : String} {i : PeerInfo} (h : t.find a = some i)
    {f : PeerInfo → PeerInfo} (e : f i = i) : t.update a f = t := by
  rw [update_congr hu h (g := id) e]
  unfold Table.update
  conv => rhs; rw [← List.map_id t]
  refine List.map_congr_left fun x _ => ?_
  split <;> rfl

/-- The table after a message that was handled. -/
theorem done_table (w : World) (node : Node E) (f : Sender) (m : Message E) (hu : UniqueKeys node.table)
    (h : (processMessage w node f m).ended = .done) :
    (processMessage w node f m).node.table = node.table ∨
    (∃ td height, (locks m = true ∧ Tells m td height) ∧ (processMessage w node f m).node.table =
      node.table.update f.addr fun i => { i with totalDifficulty := td, height := height }) ∨
    ∃ p, m = .peerAddrs p ∧ (processMessage w node f m).node.table =
      p.peers.foldl (fun t a => add w.resolve t (w.addrString a)) node.table := by
  revert h
  unfold processMessage
  split
  · intro h; cases h
  rename_i i hi
  cases m with
  | ping m => exact fun _ => .inr (.inl ⟨_, _, ⟨rfl, rfl, rfl⟩, rfl⟩)
  | pong m => exact fun _ => .inr (.inl ⟨_, _, ⟨rfl, rfl, rfl⟩, rfl⟩)
  | getPeerAddrs m => exact fun _ => .inl rfl
  | peerAddrs m => exact fun _ => .inr (.inr ⟨m, rfl, rfl⟩)
  | getHeaders m => intro _; simp only [handle]; split <;> exact .inl rfl
  | header m => intro _; simp only [handle]; split <;> exact .inl rfl
  | headers m =>
    intro h
    simp only [handle] at h ⊢
    rcases orBan_cases w node f (Chain.processHeaders E m.headers) (fun node => { node, effects := [], ended := .done })
      with e | ⟨e, -⟩
    · rw [e]; exact .inl rfl
    · exact absurd h e
  | getBlock m => exact fun _ => .inl rfl
  | block b =>
    intro h
    simp only [handle] at h ⊢
    rcases orBan_cases w { node with chain := (node.chain.processBlock node.storage b).2 } f
        (node.chain.processBlock node.storage b).1 (fun node =>
        let node := { node with table := node.table.update f.addr (blockRecord b) }
        { node
          effects := if b.header.height = node.chain.height then
              (relayTargets node.table node.online b.header.height b.header.totalDifficulty).map fun (a, c) =>
                .relay a c b
            else []
          ended := .done }) with e | ⟨e, -⟩
    · rw [e]
      show node.table.update f.addr (blockRecord b) = _ ∨ _
      by_cases hc : i.totalDifficulty < b.header.totalDifficulty ∨ i.height < b.header.height
      · refine .inr (.inl ⟨b.header.totalDifficulty, b.header.height, ⟨rfl, rfl, rfl⟩, update_congr hu hi ?_⟩)
        unfold blockRecord
        rw [if_pos hc]
      · refine .inl (update_id hu hi ?_)
        unfold blockRecord
        rw [if_neg hc]
    · exact absurd h e
  | transaction t =>
    intro h
    simp only [handle] at h ⊢
    split at h
    · cases h
    · rename_i tx e0
      rcases orBan_cases w node f (tx t) (fun node => { node, effects := [], ended := .done })
        with e | ⟨e, -⟩
      · rw [e]; exact .inl rfl
      · exact absurd h e

theorem orBan_blocked (w : World) (n : Node E) (f : Sender) (r : Out Unit) (k : Node E → Handled E)
    (hk : ∀ n, (k n).ended = .done) (h : (orBan w n f r k).ended = .blocked) :
    ∃ i, n.table.find f.remote = some i ∧ i.peer = some f.conn ∧
      (orBan w n f r k).node = { n with table := n.table.update f.remote (PoolRun.setStatus .banned) } := by
  cases r with
  | ok u => have := hk n; simp only [orBan] at h; rw [this] at h; cases h
  | panic p => cases h
  | fatal p => cases h
  | err e =>
    simp only [orBan, afterBan, ban] at h ⊢
    cases hf : n.table.find f.remote with
    | none => simp only [hf] at h; rw [hk] at h; cases h
    | some i =>
      simp only [hf] at h ⊢
      refine ⟨i, rfl, ?_⟩
      cases hp : i.peer with
      | none => simp only [hp] at h; cases h
      | some c =>
        simp only [hp] at h ⊢
        split at h <;> rename_i heq
        · split at heq <;> simp at heq
        · cases h
        · split at heq
          · rename_i hc
            cases heq
            exact ⟨hc.1.symm, rfl⟩
          · simp at heq

/-- The handling of a message gets stuck in `Ban` only if the connection bans itself. -/
theorem blocked_table (w : World) (node : Node E) (f : Sender) (m : Message E)
    (h : (processMessage w node f m).ended = .blocked) :
    ∃ i, node.table.find f.remote = some i ∧ i.peer = some f.conn ∧
      (processMessage w node f m).node.table = node.table.update f.remote (PoolRun.setStatus .banned) := by
  revert h
  unfold processMessage
  split
  · intro h; cases h
  cases m with
  | ping m => intro h; cases h
  | pong m => intro h; cases h
  | getPeerAddrs m => intro h; cases h
  | peerAddrs m => intro h; cases h
  | getHeaders m => intro h; simp only [handle] at h; split at h <;> cases h
  | header m => intro h; simp only [handle] at h; split at h <;> cases h
  | headers m =>
    intro h
    obtain ⟨i, h1, h2, h3⟩ := orBan_blocked w node f (Chain.processHeaders E m.headers) _ (fun _ => rfl) h
    exact ⟨i, h1, h2, congrArg Node.table h3⟩
  | getBlock m => intro h; cases h
  | block b =>
    intro h
    obtain ⟨i, h1, h2, h3⟩ := orBan_blocked w { node with chain := (node.chain.processBlock node.storage b).2 } f
      (node.chain.processBlock node.storage b).1 _ (fun _ => rfl) h
    exact ⟨i, h1, h2, congrArg Node.table h3⟩
  | transaction t =>
    intro h
    simp only [handle] at h ⊢
    split at h
    · cases h
    · rename_i tx e0
      obtain ⟨i, h1, h2, h3⟩ := orBan_blocked w node f (tx t) _ (fun _ => rfl) h
      exact ⟨i, h1, h2, congrArg Node.table h3⟩

/-- The blocks that are relayed because of a message. -/
theorem started_block {online : List String} {chain : Chain E} {m : Message E} {j : Job E} (h : j ∈ started online chain m) :
    m = .block j.block ∧ j.block.header.height = chain.height ∧ j.addr ∈ online ∧ j.stage = .height := by
  cases m with
  | block b =>
    simp only [started] at h
    split at h
    · rename_i hh
      obtain ⟨a, ha, rfl⟩ := List.mem_map.1 h
      exact ⟨rfl, hh, ha, rfl⟩
    · cases h
  | _ => cases h

/-- A block that is handled to the end is accepted, or its sender could not be banned. -/
theorem handled_block (w : World) (node : Node E) (f : Sender) (b : Block E) (known : Known node f)
    (h : (processMessage w node f (.block b)).ended = .done) :
    (node.chain.processBlock node.storage b).1 = .ok () ∨ node.table.find f.remote = none := by
  rcases block_cases w node f b known with ⟨h1, -⟩ | ⟨h1, -⟩
  · refine h1.imp id fun h1 => ?_
    cases hf : node.table.find f.remote with
    | none => rfl
    | some i => exact absurd ((find_isSome_iff _ _).1 (by rw [hf]; rfl)) h1.2
  · exact absurd h h1

end Gringo.Program
