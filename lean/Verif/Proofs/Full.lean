import Verif.Proofs.ProgramEnds
import Verif.Proofs.ProgramRest
import Verif.Props.Announce
import Verif.Spec.Full
/-
Helper lemmas for Props/Full.lean: Model/Full.lean refines Model/Program.lean, and what its handshakes leave behind.
-/
namespace Gringo.Rd

theorem u32_ok {s r : Bytes} {x : UInt32} (h : u32 s = (.ok x, r)) : s = be32 x ++ r := by
  obtain ⟨b, s1, h1, h2⟩ := cont_eq_ok h
  obtain ⟨rfl, hl⟩ := readFull_ok h1
  cases h2
  have hlt := ofBE_lt b
  rw [hl] at hlt
  have : be32 (UInt32.ofNat (ofBE b)) = b := by
    unfold be32
    rw [UInt32.toNat_ofNat', Nat.mod_eq_of_lt (by simpa using hlt)]
    have := be_ofBE b
    rwa [hl] at this
  rw [this]

theorem u64_ok {s r : Bytes} {x : UInt64} (h : u64 s = (.ok x, r)) : s = be64 x ++ r := by
  obtain ⟨b, s1, h1, h2⟩ := cont_eq_ok h
  obtain ⟨rfl, hl⟩ := readFull_ok h1
  cases h2
  have hlt := ofBE_lt b
  rw [hl] at hlt
  have : be64 (UInt64.ofNat (ofBE b)) = b := by
    unfold be64
    rw [UInt64.toNat_ofNat', Nat.mod_eq_of_lt (by simpa using hlt)]
    have := be_ofBE b
    rwa [hl] at this
  rw [this]

/-- A decoder that has succeeded does the same when more follows. -/
def Stable {α : Type} (rd : Rd α) : Prop := ∀ s a r, rd s = (.ok a, r) → ∀ t, rd (s ++ t) = (.ok a, r ++ t)

theorem Stable.pure {α : Type} (a : α) : Stable (pure a : Rd α) := by
  intro s b r h t; cases h; rfl

theorem Stable.fail {α : Type} (e : String) : Stable (Rd.fail e : Rd α) := by
  intro s b r h t; simp at h

theorem Stable.bind {α β : Type} {x : Rd α} {f : α → Rd β} (hx : Stable x) (hf : ∀ a, Stable (f a)) : Stable (x >>= f) := by
  intro s b r h t
  obtain ⟨a, s1, h1, h2⟩ := cont_eq_ok h
  rw [bind_run, hx _ _ _ h1 t, cont_ok]
  exact hf a _ _ _ h2 t

theorem Stable.readFull (n : Nat) : Stable (Rd.readFull n) := by
  intro s b r h t
  obtain ⟨rfl, hl⟩ := readFull_ok h
  rw [List.append_assoc]
  exact readFull_append hl _

theorem Stable.u8 : Stable Rd.u8 := (Stable.readFull 1).bind fun _ => .pure _
theorem Stable.u32 : Stable Rd.u32 := (Stable.readFull 4).bind fun _ => .pure _
theorem Stable.u64 : Stable Rd.u64 := (Stable.readFull 8).bind fun _ => .pure _

theorem Stable.make (lim count size : Nat) : Stable (Rd.make lim count size) := by
  unfold Rd.make
  split
  · exact .pure _
  · intro s a r h; cases h

theorem Stable.ite {α : Type} {c : Prop} [Decidable c] {x y : Rd α} (hx : Stable x) (hy : Stable y) :
    Stable (if c then x else y) := by split <;> assumption

theorem Stable.limit {α : Type} {rd : Rd α} (h : Stable rd) (n : Nat) : Stable (Rd.limit n rd) := by
  intro s a r e t
  unfold Rd.limit at e ⊢
  generalize hq : rd (s.take n) = q at e
  obtain ⟨o, left⟩ := q
  simp only [Prod.mk.injEq] at e
  obtain ⟨rfl, rfl⟩ := e
  rw [List.take_append, h _ _ _ hq]
  simp only [Prod.mk.injEq, true_and]
  rw [List.drop_append, List.append_assoc, List.append_assoc]
  congr 1
  by_cases hl : n ≤ s.length
  · rw [show n - s.length = 0 by omega]; simp
  · rw [List.drop_of_length_le (l := s) (by omega)]
    simp

end Gringo.Rd

namespace Gringo.Full
open Gringo.P2P Gringo.Spec Gringo.Props Rd

variable {E : Env}

/-! ### Reading the shake -/

theorem stable_shake : Stable (Shake.read E) := by
  unfold Shake.read
  refine Stable.u32.bind fun _ => .ite (.fail _) (Stable.u32.bind fun _ => Stable.u64.bind fun _ => Stable.u64.bind fun _ =>
    (Stable.make _ _ _).bind fun _ => (Stable.readFull _).bind fun _ => (Stable.readFull _).bind fun _ => .pure _)

/-- What has been read of the shake does not depend on what comes later. -/
theorem readShake_more {came rest : Bytes} {sh : Shake} {n : UInt64} (h : readShake E came = (.ok (sh, n), rest)) (bs : Bytes) :
    readShake E (came ++ bs) = (.ok (sh, n), rest ++ bs) := by
  have : Stable (readMessage MsgTypeShake (Shake.read E)) := by
    unfold readMessage
    refine Stable.bind (.limit ?_ _) fun _ => .ite (.fail _) (.ite (.fail _) ((Stable.limit stable_shake _).bind fun _ => .pure _))
    unfold Header.read
    exact (Stable.readFull _).bind fun _ => .ite (.fail _) (Stable.u8.bind fun _ => Stable.u64.bind fun _ => .pure _)
  exact this _ _ _ h bs

/-- A shake that was read begins the input, byte for byte. -/
theorem shake_spelled {s r : Bytes} {sh : Shake} (h : Shake.read E s = (.ok sh, r)) : s = sh.bytes ++ r := by
  simp only [Shake.read, Rd.bind_run] at h
  obtain ⟨v, r1, h1, h⟩ := cont_eq_ok h
  split at h
  · simp at h
  simp only [Rd.bind_run] at h
  obtain ⟨caps, r2, h2, h⟩ := cont_eq_ok h
  simp only [Rd.bind_run] at h
  obtain ⟨td, r3, h3, h⟩ := cont_eq_ok h
  simp only [Rd.bind_run] at h
  obtain ⟨len, r4, h4, h⟩ := cont_eq_ok h
  simp only [Rd.bind_run] at h
  obtain ⟨_, r5, h5, h⟩ := cont_eq_ok h
  simp only [Rd.bind_run] at h
  obtain ⟨ua, r6, h6, h⟩ := cont_eq_ok h
  simp only [Rd.bind_run] at h
  obtain ⟨g, r7, h7, h⟩ := cont_eq_ok h
  cases h
  have e5 : r4 = r5 := by
    unfold Rd.make at h5
    split at h5
    · cases h5; rfl
    · cases h5
  obtain ⟨e6, l6⟩ := readFull_ok h6
  obtain ⟨e7, -⟩ := readFull_ok h7
  rw [u32_ok h1, u32_ok h2, u64_ok h3, u64_ok h4, e5, e6, e7]
  simp only [Shake.bytes, l6, List.append_assoc, UInt64.ofNat_toNat]

theorem shakeBody_eq {sh : Shake} (h : sh.userAgent.length < 2 ^ 64) : shakeBody sh = sh.bytes := by
  unfold shakeBody
  rw [be64_eq h]
  rfl

theorem readShake_ok {came rest : Bytes} {sh : Shake} {n : UInt64} (h : readShake E came = (.ok (sh, n), rest)) :
    sh.version = 1 ∧ sh.genesis.length = 32 ∧
    ∃ len, (shakeBody sh).length ≤ len ∧ len ≤ 20000000 ∧
      came = [0x54, 0x34, 2] ++ be 8 len ++ shakeBody sh ++ rest := by
  obtain ⟨len, tail, left, h1, h2, h3, h4⟩ := readMessage_ok h
  obtain ⟨g1, g2⟩ := C23_shake_gate E _ _ _ h3
  have hl : sh.bytes.length ≤ len := by
    have := congrArg List.length (shake_spelled h3)
    rw [List.length_take, List.length_append] at this
    omega
  have hu : sh.userAgent.length < 2 ^ 64 := by
    simp only [Shake.bytes, List.length_append] at hl
    omega
  refine ⟨g1, g2, len, by rw [shakeBody_eq hu]; exact hl, h1, ?_⟩
  rw [shakeBody_eq hu, h2, h4, List.append_assoc _ sh.bytes, ← List.append_assoc sh.bytes, ← shake_spelled h3,
    List.take_append_drop]
  rfl

/-! ### What the steps of the program leave alone -/

/-- The same entry, but for its status and the time of the last connection. -/
def SameSaid (i j : PeerInfo) : Prop :=
  j.peer = i.peer ∧ j.protocolVersion = i.protocolVersion ∧ j.capabilities = i.capabilities ∧
    j.totalDifficulty = i.totalDifficulty ∧ j.height = i.height

/-- Nobody was connected. -/
def Unsaid (i : PeerInfo) : Prop :=
  i.peer = none ∧ i.protocolVersion = 0 ∧ i.capabilities = 0 ∧ i.totalDifficulty = 0 ∧ i.height = 0

theorem add_from {resolve : String → Option TCPAddr} {t : Table} {addr a : String} {j : PeerInfo}
    (h : (add resolve t addr).find a = some j) : t.find a = some j ∨ Unsaid j := by
  obtain ⟨l, e, hl⟩ := add_prefix resolve t addr
  rw [e] at h
  rcases hl with rfl | ⟨rfl, -⟩
  · rw [List.append_nil] at h; exact .inl h
  · unfold Table.find at h ⊢
    rw [List.lookup_append] at h
    cases hf : List.lookup a t with
    | some i => rw [hf] at h; exact .inl h
    | none =>
      rw [hf] at h
      by_cases ea : a = addr
      · subst ea
        simp [List.lookup] at h
        subst h
        exact .inr ⟨rfl, rfl, rfl, rfl, rfl⟩
      · have : (a == addr) = false := by simpa using ea
        simp [List.lookup, this] at h

theorem update_from {t : Table} {b a : String} {f : PeerInfo → PeerInfo} {j : PeerInfo}
    (h : (t.update b f).find a = some j) : t.find a = some j ∨ (a = b ∧ ∃ i, t.find a = some i ∧ j = f i) := by
  rw [find_update] at h
  split at h
  · rename_i e
    obtain ⟨i, hi, e'⟩ := Option.map_eq_some_iff.1 h
    exact .inr ⟨e, i, hi, e'.symm⟩
  · exact .inl h

/-- Where an entry of the table comes from. -/
def From (w : Whole.State (Message E)) (a : String) (j : PeerInfo) : Prop :=
  (∃ i, w.table.find a = some i ∧ SameSaid i j) ∨ Unsaid j ∨
  ∃ c t n now i, w.loop = .counting a c t n ∧ j = PoolRun.registered c now t i

theorem From.same {w : Whole.State (Message E)} {a : String} {j : PeerInfo} (h : w.table.find a = some j) : From w a j :=
  .inl ⟨j, h, rfl, rfl, rfl, rfl, rfl⟩

theorem From.status {w : Whole.State (Message E)} {b a : String} {st : PeerStatus} {j : PeerInfo}
    (h : (w.table.update b (PoolRun.setStatus st)).find a = some j) : From w a j := by
  rcases update_from h with h | ⟨-, i, hi, rfl⟩
  · exact .same h
  · exact .inl ⟨i, hi, rfl, rfl, rfl, rfl, rfl⟩

theorem table_pool {w w' : Whole.State (Message E)} {k : Lifecycle.Kind} {frame : Message E → Bytes} {ping ask : Message E}
    (hs : Whole.Step frame ping ask w k w') (hc : ∀ x ∈ w.conns, x.lock = .before) {a : String} {j : PeerInfo}
    (h : w'.table.find a = some j) : From w a j := by
  cases hs with
  | noAnswer addr hl => exact .status h
  | noShake addr c hl => exact .status h
  | register addr c told now n hl =>
    rcases update_from h with h | ⟨rfl, i, hi, rfl⟩
    · exact .same h
    · exact .inr (.inr ⟨c, told, n, now, i, hl, rfl⟩)
  | record l r x td height hx hl => rw [hc x (by rw [hx]; simp)] at hl; cases hl
  | mark l r x k hx hw hk hl => exact .status h
  | add addr resolve hr => exact (add_from h).elim .same fun h => .inr (.inl h)
  | banSelf addr i l r x hx hr ht hp hb => exact .status h
  | banOther addr i l r y b hx ht hp hb => exact .status h
  | banNil addr i ht hp => exact .status h
  | closeDone l r addr k x hx hx' hk => exact .status h
  | _ => exact .same h

/-- A step changes what the table says about an address only when a connection to it is entered, or when a message from
a connection to it is handled. -/
theorem table_prog {s s' : Program.State E} {remote : Nat → String} {chain : Chain E} {storage : Storage E}
    {mempool : Option (Transaction E → Out Unit)} (hi : Program.Inv remote chain storage mempool s)
    {k : Lifecycle.Kind} (hs : Program.Step remote k s s') {a : String} {j : PeerInfo}
    (h : s'.pool.table.find a = some j) :
    From s.pool a j ∨ ∃ x ∈ s.pool.conns, ∃ i m, s.pool.table.find a = some i ∧ x.addr = a ∧ (s.io x.id).task = some m ∧
      Tells m j.totalDifficulty j.height ∧ j.peer = i.peer ∧ j.protocolVersion = i.protocolVersion ∧
      j.capabilities = i.capabilities := by
  have done : ∀ {x : Whole.Conn (Message E)} {w : World} {m : Message E}, x ∈ s.pool.conns → (s.io x.id).task = some m →
      (processMessage w s.node (Program.sender remote x) m).ended = .done →
      (processMessage w s.node (Program.sender remote x) m).node.table.find a = some j →
      From s.pool a j ∨ ∃ x ∈ s.pool.conns, ∃ i m, s.pool.table.find a = some i ∧ x.addr = a ∧ (s.io x.id).task = some m ∧
        Tells m j.totalDifficulty j.height ∧ j.peer = i.peer ∧ j.protocolVersion = i.protocolVersion ∧
        j.capabilities = i.capabilities := by
    intro x w m hx ht he h
    rcases Program.done_table w s.node _ m (Whole.unique_reachable hi.whole) he with e | ⟨td, height, ⟨-, htl⟩, e⟩ | ⟨p, -, e⟩
    · rw [e] at h; exact .inl (.same h)
    · rw [e] at h
      rcases update_from h with h | ⟨rfl, i, hi, rfl⟩
      · exact .inl (.same h)
      · exact .inr ⟨x, hx, i, m, hi, rfl, ht, htl, rfl, rfl, rfl⟩
    · rw [e] at h
      refine .inl ?_
      have : s.pool.table.find a = some j ∨ Unsaid j := by
        have hn : s.node.table = s.pool.table := rfl
        rw [hn] at h
        generalize s.pool.table = t at h ⊢
        clear e
        generalize p.peers = ps at h
        induction ps generalizing t with
        | nil => exact .inl h
        | cons q ps ih =>
          rcases ih _ h with h | h
          · exact add_from h
          · exact .inr h
      exact this.elim .same fun h => .inr (.inl h)
  cases hs with
  | pool k q hs hr hw hm => exact .inl (table_pool hs (fun x hx => (hi.calm x hx).1) h)
  | process l r x w m hx hr ht hst hw hl he ha => exact done (by rw [hx]; simp) ht he h
  | answer l r x w m b hx hr ht hst hw hl he ha => exact done (by rw [hx]; simp) ht he h
  | ban l r x w m hx hr ht hst he =>
    obtain ⟨i, -, -, e⟩ := Program.blocked_table w s.node _ m he
    have h : (processMessage w s.node (Program.sender remote x) m).node.table.find a = some j := h
    rw [e] at h
    exact .inl (.status h)
  | banOther l r x y w m i hx hr ht hst hy he hf hpe hne => exact .inl (.status h)
  | _ => exact .inl (.same h)

/-- The loop of the pool comes to a handshake, or leaves it, only with a step from outside. -/
theorem loop_pool {w w' : Whole.State (Message E)} {frame : Message E → Bytes} {ping ask : Message E} {k : Lifecycle.Kind}
    (hs : Whole.Step frame ping ask w k w') (hk : k = .own) :
    w'.loop = w.loop ∨ (greets w.loop = false ∧ greets w'.loop = false) := by
  have of : ∀ {l : Whole.Loop}, w.loop = l → greets l = false → greets w.loop = false := fun e h => e ▸ h
  cases hs <;> first | exact .inl rfl | (cases hk; done) | exact .inr ⟨of (by assumption) rfl, rfl⟩

/-- The counter is read at the end of a handshake. -/
theorem counting_pool {w w' : Whole.State (Message E)} {frame : Message E → Bytes} {ping ask : Message E} {k : Lifecycle.Kind}
    (hs : Whole.Step frame ping ask w k w') {a : String} {c : Nat} {t : PoolRun.Told} {n : Int}
    (h : w'.loop = .counting a c t n) : w.loop = .counting a c t n ∨ w.loop = .greeting a c := by
  cases hs <;> first | exact .inl h | (cases h; rename_i h _; exact .inr h) | cases h

/-- A connection is entered into the list when the counter is written. -/
theorem conns_pool {w w' : Whole.State (Message E)} {frame : Message E → Bytes} {ping ask : Message E} {k : Lifecycle.Kind}
    (hs : Whole.Step frame ping ask w k w') {y : Whole.Conn (Message E)} (hy : y ∈ w'.conns) :
    (∃ x ∈ w.conns, x.id = y.id ∧ x.addr = y.addr) ∨ ∃ t n, w.loop = .counting y.addr y.id t n := by
  have rep : ∀ {l r : List (Whole.Conn (Message E))} {u v : Whole.Conn (Message E)}, w.conns = l ++ u :: r → y ∈ l ++ v :: r →
      u.id = v.id → u.addr = v.addr → (∃ x ∈ w.conns, x.id = y.id ∧ x.addr = y.addr) ∨ ∃ t n, w.loop = .counting y.addr y.id t n := by
    intro l r u v e hy h1 h2
    rcases Whole.mem_replaced (x := u) hy with rfl | hy
    · exact .inl ⟨u, by rw [e]; simp, h1, h2⟩
    · exact .inl ⟨y, by rw [e]; exact hy, rfl, rfl⟩
  cases hs with
  | register addr c told now n hl =>
    rcases List.mem_append.1 hy with hy | hy
    · exact .inl ⟨y, hy, rfl, rfl⟩
    · rw [List.mem_singleton.1 hy]; exact .inr ⟨told, n, hl⟩
  | start addr l r x hl hx p hr hw hp => exact rep hx hy rfl rfl
  | ping addr l r x hl hx => exact rep hx hy rfl rfl
  | ask addr k m b l r x hl hx hk => exact rep hx hy rfl rfl
  | spawn addr k m b l r x hl hx hk => exact rep hx hy rfl rfl
  | inner l r x hx kind p hk hs hh => exact rep hx hy rfl rfl
  | relay l r x m hx => exact rep hx hy rfl rfl
  | want l r x a hx hr ha hb0 => exact rep hx hy rfl rfl
  | record l r x td height hx hl => exact rep hx hy rfl rfl
  | mark l r x k hx hw hk hl => exact rep hx hy rfl rfl
  | seeDown l r x hx hw => exact rep hx hy rfl rfl
  | count l r x n hx hw => exact rep hx hy rfl rfl
  | drop l r x hx hw => exact rep hx hy rfl rfl
  | free l r x hx hw hs => exact rep hx hy rfl rfl
  | banSelf addr i l r x hx hr ht hp hb => exact rep hx hy rfl rfl
  | banOther addr i l r z b hx ht hp hb => exact rep hx hy rfl rfl
  | closeCall l r addr i l' r' x hx ht hp hx' => exact rep hx' hy rfl rfl
  | _ => exact .inl ⟨y, hy, rfl, rfl⟩

theorem next_pool {w w' : Whole.State (Message E)} {frame : Message E → Bytes} {ping ask : Message E} {k : Lifecycle.Kind}
    (hs : Whole.Step frame ping ask w k w') :
    w'.next = w.next ∨ (greets w'.loop = true ∧ w'.loop ≠ w.loop) := by
  cases hs <;> first | exact .inl rfl | exact .inr ⟨rfl, by rename_i h; rw [h]; simp⟩

theorem pool_prog {s s' : Program.State E} {remote : Nat → String} {k : Lifecycle.Kind} (hs : Program.Step remote k s s') :
    (∃ k', Whole.Step Talk.frame Program.ping Program.ask s.pool k' s'.pool ∧ k' = k) ∨
    (s'.pool.loop = s.pool.loop ∧ s'.pool.next = s.pool.next ∧
      ∀ y ∈ s'.pool.conns, ∃ x ∈ s.pool.conns, x.id = y.id ∧ x.addr = y.addr) := by
  have rep : ∀ {l r : List (Whole.Conn (Message E))} {u v : Whole.Conn (Message E)}, s.pool.conns = l ++ u :: r →
      u.id = v.id → u.addr = v.addr → ∀ y ∈ l ++ v :: r, ∃ x ∈ s.pool.conns, x.id = y.id ∧ x.addr = y.addr := by
    intro l r u v e h1 h2 y hy
    rcases Whole.mem_replaced (x := u) hy with rfl | hy
    · exact ⟨u, by rw [e]; simp, h1, h2⟩
    · exact ⟨y, by rw [e]; exact hy, rfl, rfl⟩
  cases hs with
  | pool k q hs hr hw hm => exact .inl ⟨k, hs, rfl⟩
  | relay l' r' j i l r x h hi hn hx => exact .inr ⟨rfl, rfl, rep hx rfl rfl⟩
  | skip l r x c rest hx hr ht h => exact .inr ⟨rfl, rfl, rep hx rfl rfl⟩
  | process l r x w m hx => exact .inr ⟨rfl, rfl, rep hx rfl rfl⟩
  | answer l r x w m a hx => exact .inr ⟨rfl, rfl, rep hx rfl rfl⟩
  | ban l r x w m hx => exact .inr ⟨rfl, rfl, rep hx rfl rfl⟩
  | banOther l r x y w m i hx hr ht hs hy => exact .inr ⟨rfl, rfl, rep hy rfl rfl⟩
  | _ => exact .inr ⟨rfl, rfl, fun y hy => ⟨y, hy, rfl, rfl⟩⟩

/-- Unread bytes are the last ones that came in. -/
theorem inbox_prog {s s' : Program.State E} {remote : Nat → String} {k : Lifecycle.Kind} (hs : Program.Step remote k s s')
    (c : Nat) : (s.io c).arrived <+: (s'.io c).arrived := by
  have upd : ∀ (d : Nat) (io : Program.Reading E), (s.io d).arrived <+: io.arrived →
      (s.io c).arrived <+: (Function.update s.io d io c).arrived := by
    intro d io h
    by_cases e : c = d
    · subst e; rw [Function.update_self]; exact h
    · rw [Function.update_of_ne e]
  cases hs with
  | arrive d bs => exact upd _ _ (List.prefix_append _ _)
  | skip l r x c rest hx hr ht h => exact upd _ _ List.prefix_rfl
  | read x m c rest hx hr ht h => exact upd _ _ List.prefix_rfl
  | process l r x w m hx => exact upd _ _ List.prefix_rfl
  | answer l r x w m a hx => exact upd _ _ List.prefix_rfl
  | ban l r x w m hx => exact upd _ _ List.prefix_rfl
  | banOther l r x y w m i hx hr ht hs hy => exact upd _ _ List.prefix_rfl
  | _ => exact List.prefix_rfl

/-! ### The invariant -/

variable {u : Setup} {chain : Chain E} {storage : Storage E} {mempool : Option (Transaction E → Out Unit)}
  {nonces : NonceList}

/-- What is known of a connection whose shake was read. -/
structure Shaken (s : State E) (c : Nat) (sh : Shake) : Prop where
  shake : (s.sockets c).shake = some sh
  version : sh.version = 1
  genesis : sh.genesis.length = 32
  written : (s.sockets c).written = (s.sockets c).hand.length
  came : ∃ len, (shakeBody sh).length ≤ len ∧ len ≤ 20000000 ∧
    (s.sockets c).came = [0x54, 0x34, 2] ++ be 8 len ++ shakeBody sh ++ (s.prog.io c).arrived

/-- What the table says about an address was said by somebody on a connection to it. -/
structure Told (s : State E) (a : String) (i : PeerInfo) : Prop where
  entered : ∃ x ∈ s.prog.pool.conns, x.addr = a ∧ i.peer = some x.id ∧ ∃ sh, (s.sockets x.id).shake = some sh ∧
    i.protocolVersion = sh.version ∧ i.capabilities = sh.capabilities
  said : ∃ x ∈ s.prog.pool.conns, x.addr = a ∧
    ((∃ sh, (s.sockets x.id).shake = some sh ∧ i.totalDifficulty = sh.totalDifficulty ∧ i.height = 0) ∨
      ∃ (fs : List (GoodFrame E)) (m : Message E), streamOf fs <+: (s.prog.io x.id).arrived ∧ m ∈ messagesOf fs ∧
        Tells m i.totalDifficulty i.height)

structure Inv (u : Setup) (chain : Chain E) (storage : Storage E) (mempool : Option (Transaction E → Out Unit))
    (nonces : NonceList) (s : State E) : Prop where
  prog : ∃ d, Program.Reachable u.remote chain storage mempool { s.prog with dead := d }
  alive : s.prog.dead = false → Program.Reachable u.remote chain storage mempool s.prog
  list : s.nonces.list = nonces.list
  idx : s.nonces.idx % 100 = (nonces.idx + s.prog.pool.next) % 100
  hands : ∀ c, c < s.prog.pool.next → ∃ nonce data, nonces.list[(nonces.idx + c + 1) % 100]? = some nonce ∧
    (ownHand nonce (u.receiver c) u.genesis).bytes = .ok data ∧ (s.sockets c).hand = (writeMessage MsgTypeHand data).1
  written : ∀ c, (s.sockets c).written ≤ (s.sockets c).hand.length
  fresh : ∀ c, s.prog.pool.next ≤ c → (s.sockets c).written = 0 ∧ (s.sockets c).shake = none
  early : ∀ c, (s.sockets c).shake = none → (s.prog.io c).arrived = []
  greeting : ∀ a c, s.prog.pool.loop = .greeting a c → c < s.prog.pool.next ∧ (s.sockets c).shake = none
  shaken : ∀ c sh, (s.sockets c).shake = some sh → Shaken s c sh
  counting : ∀ a c t n, s.prog.pool.loop = .counting a c t n → ∃ sh, (s.sockets c).shake = some sh ∧ t = told sh
  conns : ∀ x ∈ s.prog.pool.conns, (s.sockets x.id).shake ≠ none
  table : ∀ a i, s.prog.pool.table.find a = some i → Unsaid i ∨ Told s a i

theorem inv_new : Inv u chain storage mempool nonces (.new chain storage mempool nonces) where
  prog := ⟨false, .new⟩
  alive := fun _ => .new
  list := rfl
  idx := by show nonces.idx % 100 = (nonces.idx + 0) % 100; rw [Nat.add_zero]
  hands := fun c h => absurd h (Nat.not_lt_zero c)
  written := fun _ => Nat.zero_le _
  fresh := fun _ _ => ⟨rfl, rfl⟩
  early := fun _ _ => rfl
  greeting := fun _ _ h => by cases h
  shaken := fun _ _ h => by cases h
  counting := fun _ _ _ _ h => by cases h
  conns := fun _ h => by cases h
  table := fun _ _ h => by cases h

/-- A message that is being handled came in on its connection. -/
theorem task_came {s : Program.State E} {remote : Nat → String} (hi : Program.Inv remote chain storage mempool s)
    {headHash : Bytes} (hh : HasHash chain.head headHash) {x : Whole.Conn (Message E)} (hx : x ∈ s.pool.conns) {m : Message E}
    (ht : (s.io x.id).task = some m) :
    ∃ fs : List (GoodFrame E), streamOf fs <+: (s.io x.id).arrived ∧ m ∈ messagesOf fs := by
  obtain ⟨node, n1, n2, n3, n4⟩ := hi.talks x hx
  obtain ⟨-, -, fs, ms, es, late, lost, harr, hms, -⟩ := Talk.in_reachable (fun _ _ h => h) (n1 ▸ hh) n3 n4
  refine ⟨fs, ⟨(s.io x.id).inbox, harr.symm⟩, ?_⟩
  rw [hms]
  have : (Program.talk s x).task = some m := ht
  rw [this]
  simp

theorem Told.mono {s s' : State E} {a : String} {i : PeerInfo} (h : Told s a i)
    (hc : ∀ x ∈ s.prog.pool.conns, ∃ y ∈ s'.prog.pool.conns, y.id = x.id ∧ y.addr = x.addr)
    (hs : ∀ c sh, (s.sockets c).shake = some sh → (s'.sockets c).shake = some sh)
    (ha : ∀ c, (s.prog.io c).arrived <+: (s'.prog.io c).arrived) : Told s' a i := by
  obtain ⟨⟨x, hx, h1, h2, sh, h3, h4, h5⟩, z, hz, h6, h7⟩ := h
  obtain ⟨y, hy, e1, e2⟩ := hc x hx
  obtain ⟨v, hv, f1, f2⟩ := hc z hz
  refine ⟨⟨y, hy, e2.trans h1, by rw [e1]; exact h2, sh, by rw [e1]; exact hs _ _ h3, h4, h5⟩, v, hv, f2.trans h6, ?_⟩
  rw [f1]
  rcases h7 with ⟨sh', g1, g2, g3⟩ | ⟨fs, m, g1, g2, g3⟩
  · exact .inl ⟨sh', hs _ _ g1, g2, g3⟩
  · exact .inr ⟨fs, m, g1.trans (ha _), g2, g3⟩

theorem Told.same {s : State E} {a : String} {i j : PeerInfo} (h : Told s a i) (hj : SameSaid i j) : Told s a j := by
  obtain ⟨h1, h2, h3, h4, h5⟩ := hj
  exact ⟨by rw [h1, h2, h3]; exact h.entered, by rw [h4, h5]; exact h.said⟩

theorem peer_conn {s : Program.State E} (hi : Program.Inv remote chain storage mempool s) {a : String} {i : PeerInfo} {c : Nat}
    (hf : s.pool.table.find a = some i) (hc : i.peer = some c) : ∃ y ∈ s.pool.conns, y.id = c ∧ y.addr = a := by
  obtain ⟨-, p, hr, hwr⟩ := Whole.refines hi.whole
  rw [← hwr.table] at hf
  obtain ⟨y, hy, e1, e2⟩ := (PoolRun.inv_reachable hr).entries.peer _ i c hf hc
  rw [hwr.links] at hy
  obtain ⟨z, hz, rfl⟩ := List.mem_map.1 hy
  exact ⟨z, hz, e1, e2⟩

/-- A step of the program in which no handshake begins or ends, and nothing comes in. -/
theorem inv_prog {headHash : Bytes} (hh : HasHash chain.head headHash) {s : State E} (h : Inv u chain storage mempool nonces s)
    (hd : s.prog.dead = false) (hp : s.prog.pool.panicked = false) {k : Lifecycle.Kind} {q : Program.State E}
    (hs : Program.Step u.remote k s.prog q) (ha : ∀ c, (q.io c).arrived = (s.prog.io c).arrived)
    (hg : q.pool.loop = s.prog.pool.loop ∨ (greets s.prog.pool.loop = false ∧ greets q.pool.loop = false)) :
    Inv u chain storage mempool nonces { s with prog := q } := by
  have hi := Program.inv_reachable (h.alive hd)
  have hn : q.pool.next = s.prog.pool.next := by
    rcases pool_prog hs with ⟨k', hs', -⟩ | ⟨-, e, -⟩
    · rcases next_pool hs' with e | ⟨e1, e2⟩
      · exact e
      · rcases hg with e | ⟨-, e⟩
        · exact absurd e e2
        · rw [e] at e1; cases e1
    · exact e
  have hgr : ∀ a c, q.pool.loop = .greeting a c → s.prog.pool.loop = .greeting a c := by
    intro a c e
    rcases hg with e' | ⟨-, e'⟩
    · rw [← e', e]
    · rw [e] at e'; cases e'
  have hkeep : ∀ x ∈ s.prog.pool.conns, ∃ y ∈ q.pool.conns, y.id = x.id ∧ y.addr = x.addr := by
    intro x hx
    obtain ⟨y, hy, e1, e2, -⟩ := Program.conns_step hi hs hx
    exact ⟨y, hy, e1, e2⟩
  have hcnt : ∀ a c t n, q.pool.loop = .counting a c t n → s.prog.pool.loop = .counting a c t n := by
    intro a c t n e
    rcases pool_prog hs with ⟨k', hs', -⟩ | ⟨e', -, -⟩
    · rcases counting_pool hs' e with e' | e'
      · exact e'
      · rcases hg with e'' | ⟨e'', -⟩
        · rw [e'', e'] at e; cases e
        · rw [e'] at e''; cases e''
    · rw [← e', e]
  have hfrom : ∀ y ∈ q.pool.conns, (∃ x ∈ s.prog.pool.conns, x.id = y.id ∧ x.addr = y.addr) ∨
      ∃ t n, s.prog.pool.loop = .counting y.addr y.id t n := by
    intro y hy
    rcases pool_prog hs with ⟨k', hs', -⟩ | ⟨-, -, e⟩
    · exact conns_pool hs' hy
    · exact .inl (e y hy)
  have mono : ∀ {a : String} {i : PeerInfo}, Told s a i → Told { s with prog := q } a i := fun ht =>
    ht.mono hkeep (fun _ _ h => h) (fun c => by show _ <+: (q.io c).arrived; rw [ha c])
  have hq : Program.Reachable u.remote chain storage mempool q := (h.alive hd).next hd hp hs
  refine ⟨⟨q.dead, hq⟩, fun _ => hq, h.list, ?_, ?_, h.written, ?_, fun c e => (ha c).trans (h.early c e), ?_, ?_, fun a c t n e =>
    h.counting a c t n (hcnt a c t n e), ?_, ?_⟩
  · show _ = (nonces.idx + q.pool.next) % 100
    rw [hn]; exact h.idx
  · intro c hc
    exact h.hands c (by rw [← hn]; exact hc)
  · intro c hc
    exact h.fresh c (by rw [← hn]; exact hc)
  · intro a c e
    obtain ⟨h1, h2⟩ := h.greeting a c (hgr a c e)
    exact ⟨by show c < q.pool.next; rw [hn]; exact h1, h2⟩
  · intro c sh e
    obtain ⟨h1, h2, h3, h4, len, hle, h5, h6⟩ := h.shaken c sh e
    exact ⟨h1, h2, h3, h4, len, hle, h5, by show _ = _ ++ (q.io c).arrived; rw [ha c]; exact h6⟩
  · intro y hy
    rcases hfrom y hy with ⟨x, hx, e, -⟩ | ⟨t, n, e⟩
    · show (s.sockets y.id).shake ≠ none
      rw [← e]; exact h.conns x hx
    · obtain ⟨sh, e, -⟩ := h.counting _ _ _ _ e
      show (s.sockets y.id).shake ≠ none
      rw [e]; simp
  · intro a j hj
    rcases table_prog hi hs hj with (⟨i, h1, h2⟩ | hu | ⟨c, t, n, now, i, hl, rfl⟩) | ⟨x, hx, i, m, h1, h2, h3, h4, h5, h6, h7⟩
    · rcases h.table a i h1 with hu | ht
      · obtain ⟨e1, e2, e3, e4, e5⟩ := h2
        obtain ⟨f1, f2, f3, f4, f5⟩ := hu
        exact .inl ⟨e1.trans f1, e2.trans f2, e3.trans f3, e4.trans f4, e5.trans f5⟩
      · exact .inr (mono (ht.same h2))
    · exact .inl hu
    · obtain ⟨sh, e1, rfl⟩ := h.counting _ _ _ _ hl
      -- the entry is made in the step that enters the connection
      have : ∃ y ∈ q.pool.conns, y.id = c ∧ y.addr = a := by
        rcases peer_conn (Program.inv_reachable hq) hj rfl with ⟨y, hy, e1, e2⟩
        exact ⟨y, hy, e1, e2⟩
      obtain ⟨y, hy, rfl, e3⟩ := this
      exact .inr ⟨⟨y, hy, e3, rfl, sh, e1, rfl, rfl⟩, y, hy, e3, .inl ⟨sh, e1, rfl, rfl⟩⟩
    · obtain ⟨y, hy, e1, e2⟩ := hkeep x hx
      obtain ⟨fs, g1, g2⟩ := task_came hi hh hx h3
      have hp' : i.peer ≠ none := by
        obtain ⟨i', c', f1, f2, -⟩ := Program.entry_of hi hx
        rw [h2, h1] at f1; cases f1; rw [f2]; simp
      rcases h.table a i h1 with hu | ht
      · exact absurd hu.1 hp'
      · have ht := mono ht
        refine .inr ⟨by rw [h5, h6, h7]; exact ht.entered, y, hy, e2.trans h2, .inr ⟨fs, m, ?_, g2, h4⟩⟩
        rw [e1]
        show _ <+: (q.io x.id).arrived
        rw [ha]; exact g1

/-- The program is dead before its handshake is over. -/
theorem inv_dies {s : State E} (h : Inv u chain storage mempool nonces s) :
    Inv u chain storage mempool nonces { s with prog := { s.prog with dead := true } } where
  prog := h.prog
  alive := fun e => by cases e
  list := h.list
  idx := h.idx
  hands := h.hands
  written := h.written
  fresh := h.fresh
  early := h.early
  greeting := h.greeting
  shaken := fun c sh e => by
    obtain ⟨h1, h2, h3, h4, h5⟩ := h.shaken c sh e
    exact ⟨h1, h2, h3, h4, h5⟩
  counting := h.counting
  conns := h.conns
  table := fun a i e => (h.table a i e).imp_right fun ht =>
    ht.mono (fun x hx => ⟨x, hx, rfl, rfl⟩) (fun _ _ h => h) fun _ => List.prefix_rfl

theorem next_nonce {l m : NonceList} {x : UInt64} (h : l.next = .ok (x, m)) :
    l.list[(l.idx + 1) % 100]? = some x ∧ m.list = l.list ∧ m.idx = (l.idx + 1) % 100 := by
  unfold NonceList.next at h
  dsimp only [noncesCap] at h
  split at h
  · rename_i y hy
    cases h
    exact ⟨hy, rfl, rfl⟩
  · cases h

theorem inv_step {headHash : Bytes} (hh : HasHash chain.head headHash) {s s' : State E}
    (h : Inv u chain storage mempool nonces s) (hd : s.prog.dead = false) (hp : s.prog.pool.panicked = false)
    {k : Lifecycle.Kind} (hs : Step u k s s') : Inv u chain storage mempool nonces s' := by
  have hi := Program.inv_reachable (h.alive hd)
  have pool : ∀ {k : Lifecycle.Kind} {q : Whole.State (Message E)},
      Whole.Step Talk.frame Program.ping Program.ask s.prog.pool k q → q.conns = s.prog.pool.conns →
      Program.Reachable u.remote chain storage mempool { s.prog with pool := q } := fun hs e =>
    (h.alive hd).next hd hp (Program.pool_same hi hs e)
  cases hs with
  | prog k q hs ha hg => exact inv_prog hh h hd hp hs ha hg
  | opensDies addr h' hn => exact inv_dies h
  | shakeDies addr c h' hw hr => exact inv_dies h
  | opens addr nonce nonces' data hl hn hdata =>
    obtain ⟨n1, n2, n3⟩ := next_nonce hn
    have hq := pool (.opens s.prog.pool addr hl) rfl
    have hsock : ∀ c, c ≠ s.prog.pool.next → Function.update s.sockets s.prog.pool.next
        { s.sockets s.prog.pool.next with hand := (writeMessage MsgTypeHand data).1 } c = s.sockets c := fun c e =>
      Function.update_of_ne e _ _
    have hshake : ∀ c, (Function.update s.sockets s.prog.pool.next
        { s.sockets s.prog.pool.next with hand := (writeMessage MsgTypeHand data).1 } c).shake = (s.sockets c).shake := by
      intro c
      by_cases e : c = s.prog.pool.next
      · subst e; rw [Function.update_self]
      · rw [hsock c e]
    refine ⟨⟨_, hq⟩, fun _ => hq, n2.trans h.list, ?_, ?_, ?_, ?_, ?_, ?_, ?_, ?_, ?_, ?_⟩
    · show nonces'.idx % 100 = (nonces.idx + (s.prog.pool.next + 1)) % 100
      have := h.idx
      omega
    · intro c hc
      have hc : c < s.prog.pool.next + 1 := hc
      by_cases e : c = s.prog.pool.next
      · subst e
        refine ⟨nonce, data, ?_, hdata, ?_⟩
        · rw [h.list] at n1
          have := h.idx
          rw [← n1, show (nonces.idx + s.prog.pool.next + 1) % 100 = (s.nonces.idx + 1) % 100 by omega]
        · show (Function.update s.sockets s.prog.pool.next _ s.prog.pool.next).hand = _
          rw [Function.update_self]
      · obtain ⟨n, d, g1, g2, g3⟩ := h.hands c (by omega)
        refine ⟨n, d, g1, g2, ?_⟩
        show (Function.update s.sockets s.prog.pool.next _ c).hand = _
        rw [hsock c e]; exact g3
    · intro c
      show (Function.update s.sockets s.prog.pool.next _ c).written ≤ (Function.update s.sockets s.prog.pool.next _ c).hand.length
      by_cases e : c = s.prog.pool.next
      · subst e; rw [Function.update_self]
        have := (h.fresh _ (Nat.le_refl _)).1
        show (s.sockets s.prog.pool.next).written ≤ _
        rw [this]; exact Nat.zero_le _
      · rw [hsock c e]; exact h.written c
    · intro c hc
      have hc : s.prog.pool.next + 1 ≤ c := hc
      show (Function.update s.sockets s.prog.pool.next _ c).written = 0 ∧
        (Function.update s.sockets s.prog.pool.next _ c).shake = none
      rw [hsock c (by omega)]; exact h.fresh c (by omega)
    · intro c hc
      exact h.early c ((hshake c).symm.trans hc)
    · intro a c e
      cases e
      exact ⟨Nat.lt_succ_self _, (hshake _).trans (h.fresh _ (Nat.le_refl _)).2⟩
    · intro c sh e
      have e := (hshake c).symm.trans e
      have hc : c ≠ s.prog.pool.next := by
        rintro rfl
        rw [(h.fresh _ (Nat.le_refl _)).2] at e; cases e
      obtain ⟨h1, h2, h3, h4, len, hle, h5, h6⟩ := h.shaken c sh e
      refine ⟨?_, h2, h3, ?_, len, hle, h5, ?_⟩
      · show (Function.update s.sockets s.prog.pool.next _ c).shake = _
        rw [hsock c hc]; exact h1
      · show (Function.update s.sockets s.prog.pool.next _ c).written = (Function.update s.sockets s.prog.pool.next _ c).hand.length
        rw [hsock c hc]; exact h4
      · show (Function.update s.sockets s.prog.pool.next _ c).came = _
        rw [hsock c hc]; exact h6
    · intro a c t n e
      cases e
    · intro x hx e
      exact h.conns x hx ((hshake _).symm.trans e)
    · intro a i e
      exact (h.table a i e).imp_right fun ht => ht.mono (fun x hx => ⟨x, hx, rfl, rfl⟩)
        (fun c sh e => (hshake c).trans e) fun _ => List.prefix_rfl
  | writes addr c n hl h1 h2 =>
    have hsh : ∀ d, (Function.update s.sockets c { s.sockets c with written := n } d).shake = (s.sockets d).shake ∧
        (Function.update s.sockets c { s.sockets c with written := n } d).hand = (s.sockets d).hand ∧
        (Function.update s.sockets c { s.sockets c with written := n } d).came = (s.sockets d).came ∧
        (d ≠ c → (Function.update s.sockets c { s.sockets c with written := n } d).written = (s.sockets d).written) := by
      intro d
      by_cases e : d = c
      · subst e; rw [Function.update_self]; exact ⟨rfl, rfl, rfl, fun e => absurd rfl e⟩
      · rw [Function.update_of_ne e]; exact ⟨rfl, rfl, rfl, fun _ => rfl⟩
    obtain ⟨g1, g2⟩ := h.greeting _ _ hl
    refine ⟨h.prog, h.alive, h.list, h.idx, ?_, ?_, ?_, ?_, ?_, ?_, ?_, ?_, ?_⟩
    · intro d hd
      obtain ⟨nn, dd, k1, k2, k3⟩ := h.hands d hd
      exact ⟨nn, dd, k1, k2, (hsh d).2.1.trans k3⟩
    · intro d
      show (Function.update s.sockets c _ d).written ≤ (Function.update s.sockets c _ d).hand.length
      by_cases e : d = c
      · subst e; rw [Function.update_self]; exact h2
      · rw [Function.update_of_ne e]; exact h.written d
    · intro d hd
      have hne : d ≠ c := fun e => by
        subst e
        exact absurd hd (Nat.not_le.2 g1)
      obtain ⟨k1, k2⟩ := h.fresh d hd
      exact ⟨((hsh d).2.2.2 hne).trans k1, (hsh d).1.trans k2⟩
    · intro d e
      exact h.early d ((hsh d).1.symm.trans e)
    · intro a d e
      obtain ⟨k1, k2⟩ := h.greeting a d e
      exact ⟨k1, (hsh d).1.trans k2⟩
    · intro d sh e
      have e0 := (hsh d).1.symm.trans e
      obtain ⟨h1, h2, h3, h4, len, hle, h5, h6⟩ := h.shaken d sh e0
      have hne : d ≠ c := by rintro rfl; cases g2.symm.trans e0
      refine ⟨(hsh d).1.trans h1, h2, h3, ?_, len, hle, h5, (hsh d).2.2.1.trans h6⟩
      show (Function.update s.sockets c _ d).written = (Function.update s.sockets c _ d).hand.length
      rw [Function.update_of_ne hne]; exact h4
    · intro a d t m e
      obtain ⟨sh, k1, k2⟩ := h.counting a d t m e
      exact ⟨sh, (hsh d).1.trans k1, k2⟩
    · intro x hx e
      exact h.conns x hx ((hsh _).1.symm.trans e)
    · intro a i e
      exact (h.table a i e).imp_right fun ht => ht.mono (fun x hx => ⟨x, hx, rfl, rfl⟩)
        (fun c sh e => (hsh c).1.trans e) fun _ => List.prefix_rfl
  | early c bs hc h0 =>
    have hsh : ∀ d, (Function.update s.sockets c { s.sockets c with came := (s.sockets c).came ++ bs } d).shake = (s.sockets d).shake ∧
        (Function.update s.sockets c { s.sockets c with came := (s.sockets c).came ++ bs } d).hand = (s.sockets d).hand ∧
        (Function.update s.sockets c { s.sockets c with came := (s.sockets c).came ++ bs } d).written = (s.sockets d).written ∧
        (d ≠ c → (Function.update s.sockets c { s.sockets c with came := (s.sockets c).came ++ bs } d).came = (s.sockets d).came) := by
      intro d
      by_cases e : d = c
      · subst e; rw [Function.update_self]; exact ⟨rfl, rfl, rfl, fun e => absurd rfl e⟩
      · rw [Function.update_of_ne e]; exact ⟨rfl, rfl, rfl, fun _ => rfl⟩
    refine ⟨h.prog, h.alive, h.list, h.idx, ?_, ?_, ?_, ?_, ?_, ?_, ?_, ?_, ?_⟩
    · intro d hd
      obtain ⟨nn, dd, k1, k2, k3⟩ := h.hands d hd
      exact ⟨nn, dd, k1, k2, (hsh d).2.1.trans k3⟩
    · intro d
      show (Function.update s.sockets c _ d).written ≤ (Function.update s.sockets c _ d).hand.length
      rw [(hsh d).2.1, (hsh d).2.2.1]; exact h.written d
    · intro d hd
      obtain ⟨k1, k2⟩ := h.fresh d hd
      exact ⟨(hsh d).2.2.1.trans k1, (hsh d).1.trans k2⟩
    · intro d e
      exact h.early d ((hsh d).1.symm.trans e)
    · intro a d e
      obtain ⟨k1, k2⟩ := h.greeting a d e
      exact ⟨k1, (hsh d).1.trans k2⟩
    · intro d sh e
      have e0 := (hsh d).1.symm.trans e
      obtain ⟨h1, h2, h3, h4, len, hle, h5, h6⟩ := h.shaken d sh e0
      have hne : d ≠ c := by rintro rfl; cases h0.symm.trans e0
      refine ⟨(hsh d).1.trans h1, h2, h3, ?_, len, hle, h5, ((hsh d).2.2.2 hne).trans h6⟩
      show (Function.update s.sockets c _ d).written = (Function.update s.sockets c _ d).hand.length
      rw [(hsh d).2.1, (hsh d).2.2.1]; exact h4
    · intro a d t m e
      obtain ⟨sh, k1, k2⟩ := h.counting a d t m e
      exact ⟨sh, (hsh d).1.trans k1, k2⟩
    · intro x hx e
      exact h.conns x hx ((hsh _).1.symm.trans e)
    · intro a i e
      exact (h.table a i e).imp_right fun ht => ht.mono (fun x hx => ⟨x, hx, rfl, rfl⟩)
        (fun c sh e => (hsh c).1.trans e) fun _ => List.prefix_rfl
  | arrive c bs h0 =>
    have hq := (h.alive hd).next hd hp (.arrive (remote := u.remote) c bs)
    have hsh : ∀ d, (Function.update s.sockets c { s.sockets c with came := (s.sockets c).came ++ bs } d).shake = (s.sockets d).shake ∧
        (Function.update s.sockets c { s.sockets c with came := (s.sockets c).came ++ bs } d).hand = (s.sockets d).hand ∧
        (Function.update s.sockets c { s.sockets c with came := (s.sockets c).came ++ bs } d).written = (s.sockets d).written ∧
        (Function.update s.sockets c { s.sockets c with came := (s.sockets c).came ++ bs } d).came =
          (s.sockets d).came ++ if d = c then bs else [] := by
      intro d
      by_cases e : d = c
      · subst e; rw [Function.update_self, if_pos rfl]; exact ⟨rfl, rfl, rfl, rfl⟩
      · rw [Function.update_of_ne e, if_neg e, List.append_nil]; exact ⟨rfl, rfl, rfl, rfl⟩
    have harr : ∀ d, (Function.update s.prog.io c { s.prog.io c with
        inbox := (s.prog.io c).inbox ++ bs, arrived := (s.prog.io c).arrived ++ bs } d).arrived =
        (s.prog.io d).arrived ++ if d = c then bs else [] := by
      intro d
      by_cases e : d = c
      · subst e; rw [Function.update_self, if_pos rfl]
      · rw [Function.update_of_ne e, if_neg e, List.append_nil]
    refine ⟨⟨_, hq⟩, fun _ => hq, h.list, h.idx, ?_, ?_, ?_, ?_, ?_, ?_, ?_, ?_, ?_⟩
    · intro d hd
      obtain ⟨nn, dd, k1, k2, k3⟩ := h.hands d hd
      exact ⟨nn, dd, k1, k2, (hsh d).2.1.trans k3⟩
    · intro d
      show (Function.update s.sockets c _ d).written ≤ (Function.update s.sockets c _ d).hand.length
      rw [(hsh d).2.1, (hsh d).2.2.1]; exact h.written d
    · intro d hd
      obtain ⟨k1, k2⟩ := h.fresh d hd
      exact ⟨(hsh d).2.2.1.trans k1, (hsh d).1.trans k2⟩
    · intro d e
      have e0 := (hsh d).1.symm.trans e
      have hne : d ≠ c := by rintro rfl; exact h0 e0
      refine (harr d).trans ?_
      rw [if_neg hne, List.append_nil]; exact h.early d e0
    · intro a d e
      obtain ⟨k1, k2⟩ := h.greeting a d e
      exact ⟨k1, (hsh d).1.trans k2⟩
    · intro d sh e
      have e := (hsh d).1.symm.trans e
      obtain ⟨h1, h2, h3, h4, len, hle, h5, h6⟩ := h.shaken d sh e
      refine ⟨(hsh d).1.trans h1, h2, h3, ?_, len, hle, h5, (hsh d).2.2.2.trans ?_⟩
      · show (Function.update s.sockets c _ d).written = (Function.update s.sockets c _ d).hand.length
        rw [(hsh d).2.1, (hsh d).2.2.1]; exact h4
      · rw [h6, List.append_assoc]
        exact congrArg _ (harr d).symm
    · intro a d t m e
      obtain ⟨sh, k1, k2⟩ := h.counting a d t m e
      exact ⟨sh, (hsh d).1.trans k1, k2⟩
    · intro x hx e
      exact h.conns x hx ((hsh _).1.symm.trans e)
    · intro a i e
      exact (h.table a i e).imp_right fun ht => ht.mono (fun x hx => ⟨x, hx, rfl, rfl⟩)
        (fun c sh e => (hsh c).1.trans e) fun d => ⟨_, (harr d).symm⟩
  | noShake addr c hl =>
    have hq := pool (.noShake s.prog.pool addr c hl) rfl
    refine ⟨⟨_, hq⟩, fun _ => hq, h.list, h.idx, h.hands, h.written, h.fresh, h.early, (fun _ _ e => by cases e), ?_,
      (fun _ _ _ _ e => by cases e), h.conns, ?_⟩
    · intro c sh e
      obtain ⟨h1, h2, h3, h4, h5⟩ := h.shaken c sh e
      exact ⟨h1, h2, h3, h4, h5⟩
    · intro a j e
      have mono : ∀ {a : String} {i : PeerInfo}, Told s a i → Told (E := E) { s with prog := { s.prog with pool := { s.prog.pool with
          loop := .failed, table := s.prog.pool.table.update addr (PoolRun.setStatus .failedConn) } } } a i := fun ht =>
        ht.mono (fun x hx => ⟨x, hx, rfl, rfl⟩) (fun _ _ h => h) fun _ => List.prefix_rfl
      rcases table_pool (.noShake (frame := Talk.frame) (ping := Program.ping) (ask := Program.ask) s.prog.pool addr c hl)
          (fun x hx => (hi.calm x hx).1) e with
        ⟨i, h1, h2⟩ | hu | ⟨c', t, n, now, i, hl', rfl⟩
      · rcases h.table a i h1 with hu | ht
        · obtain ⟨e1, e2, e3, e4, e5⟩ := h2
          obtain ⟨f1, f2, f3, f4, f5⟩ := hu
          exact .inl ⟨e1.trans f1, e2.trans f2, e3.trans f3, e4.trans f4, e5.trans f5⟩
        · exact .inr (mono (ht.same h2))
      · exact .inl hu
      · rw [hl] at hl'; cases hl'
  | otherVersion addr c sh n rest hl hw hr hv =>
    have hq := pool (.otherVersion s.prog.pool addr c (told sh) hl hv) rfl
    refine ⟨⟨_, hq⟩, fun _ => hq, h.list, h.idx, h.hands, h.written, h.fresh, h.early, (fun _ _ e => by cases e), ?_,
      (fun _ _ _ _ e => by cases e), h.conns, ?_⟩
    · intro c sh e
      obtain ⟨h1, h2, h3, h4, h5⟩ := h.shaken c sh e
      exact ⟨h1, h2, h3, h4, h5⟩
    · intro a i e
      exact (h.table a i e).imp_right fun ht => ht.mono (fun x hx => ⟨x, hx, rfl, rfl⟩)
        (fun _ _ h => h) fun _ => List.prefix_rfl
  | shake addr c sh n rest hl hw hr hv =>
    obtain ⟨g1, g2⟩ := h.greeting _ _ hl
    have hne : ∀ x ∈ s.prog.pool.conns, x.id ≠ c := by
      rintro x hx rfl
      exact h.conns x hx g2
    have harr := h.early c g2
    have hin : (s.prog.io c).inbox = [] := (hi.unused c hne).2.trans harr
    have h1 := (h.alive hd).next hd hp (.arrive (remote := u.remote) c rest)
    rw [hin, harr, List.nil_append] at h1
    have hq := h1.next hd hp (Program.pool_same (Program.inv_reachable h1) (.see s.prog.pool addr c (told sh) hl hv) rfl)
    obtain ⟨v1, v2, len, v0, v3, v4⟩ := readShake_ok hr
    have hsh : ∀ d, (d ≠ c → (Function.update s.sockets c { s.sockets c with shake := some sh } d).shake = (s.sockets d).shake) ∧
        (Function.update s.sockets c { s.sockets c with shake := some sh } d).hand = (s.sockets d).hand ∧
        (Function.update s.sockets c { s.sockets c with shake := some sh } d).written = (s.sockets d).written ∧
        (Function.update s.sockets c { s.sockets c with shake := some sh } d).came = (s.sockets d).came := by
      intro d
      by_cases e : d = c
      · subst e; rw [Function.update_self]; exact ⟨fun e => absurd rfl e, rfl, rfl, rfl⟩
      · rw [Function.update_of_ne e]; exact ⟨fun _ => rfl, rfl, rfl, rfl⟩
    have hself : (Function.update s.sockets c { s.sockets c with shake := some sh } c).shake = some sh := by
      rw [Function.update_self]
    have hio : ∀ d, d ≠ c → Function.update s.prog.io c { s.prog.io c with inbox := rest, arrived := rest } d = s.prog.io d :=
      fun d e => Function.update_of_ne e _ _
    have hios : (Function.update s.prog.io c { s.prog.io c with inbox := rest, arrived := rest } c).arrived = rest := by
      rw [Function.update_self]
    refine ⟨⟨_, hq⟩, fun _ => hq, h.list, h.idx, ?_, ?_, ?_, ?_, (fun _ _ e => by cases e), ?_, ?_, ?_, ?_⟩
    · intro d hd
      obtain ⟨nn, dd, k1, k2, k3⟩ := h.hands d hd
      exact ⟨nn, dd, k1, k2, (hsh d).2.1.trans k3⟩
    · intro d
      show (Function.update s.sockets c _ d).written ≤ (Function.update s.sockets c _ d).hand.length
      rw [(hsh d).2.1, (hsh d).2.2.1]; exact h.written d
    · intro d hd
      have hdc : d ≠ c := fun e => by
        subst e
        exact absurd hd (Nat.not_le.2 g1)
      obtain ⟨k1, k2⟩ := h.fresh d hd
      exact ⟨(hsh d).2.2.1.trans k1, ((hsh d).1 hdc).trans k2⟩
    · intro d e
      have hdc : d ≠ c := by
        rintro rfl
        rw [show _ = some sh from hself] at e; cases e
      show (Function.update s.prog.io c _ d).arrived = []
      rw [hio d hdc]
      exact h.early d (((hsh d).1 hdc).symm.trans e)
    · intro d sh' e
      by_cases hdc : d = c
      · subst hdc
        have e' : sh' = sh := by
          have := hself.symm.trans e
          cases this; rfl
        subst e'
        refine ⟨hself, v1, v2, ?_, len, v0, v3, ?_⟩
        · show (Function.update s.sockets d _ d).written = (Function.update s.sockets d _ d).hand.length
          rw [(hsh d).2.1, (hsh d).2.2.1]; exact hw
        · refine ((hsh d).2.2.2.trans v4).trans ?_
          exact congrArg _ hios.symm
      · have e := ((hsh d).1 hdc).symm.trans e
        obtain ⟨h1, h2, h3, h4, len, hle, h5, h6⟩ := h.shaken d sh' e
        refine ⟨((hsh d).1 hdc).trans h1, h2, h3, ?_, len, hle, h5, (hsh d).2.2.2.trans ?_⟩
        · show (Function.update s.sockets c _ d).written = (Function.update s.sockets c _ d).hand.length
          rw [(hsh d).2.1, (hsh d).2.2.1]; exact h4
        · show _ = _ ++ (Function.update s.prog.io c _ d).arrived
          rw [hio d hdc]; exact h6
    · intro a d t m e
      cases e
      exact ⟨sh, hself, rfl⟩
    · intro x hx e
      exact h.conns x hx (((hsh _).1 (hne x hx)).symm.trans e)
    · intro a i e
      refine (h.table a i e).imp_right fun ht => ht.mono (fun x hx => ⟨x, hx, rfl, rfl⟩) (fun d sh' e' => ?_) fun d => ?_
      · have hdc : d ≠ c := by rintro rfl; rw [g2] at e'; cases e'
        exact ((hsh d).1 hdc).trans e'
      · by_cases hdc : d = c
        · subst hdc; rw [harr]; exact List.nil_prefix
        · show _ <+: (Function.update s.prog.io c _ d).arrived
          rw [hio d hdc]

theorem inv_reachable {headHash : Bytes} (hh : HasHash chain.head headHash) {s : State E}
    (h : Reachable u chain storage mempool nonces s) : Inv u chain storage mempool nonces s := by
  induction h with
  | new => exact inv_new
  | next _ hd hp hs ih => exact inv_step hh ih hd hp hs

end Gringo.Full
