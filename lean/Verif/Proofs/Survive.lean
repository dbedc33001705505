import Verif.Proofs.Full
import Verif.Spec.Survive
import Verif.Props.Decoders
import Verif.Props.Addresses
/-
Helper lemmas for C129: as long as nothing unwelcome has come in, the process goes on.
-/
namespace Gringo.Survive
open Gringo.P2P Gringo.Spec Gringo.Props Rd

variable {E : Env}

/-! ### Reading -/

/-- Where reading a frame panics. -/
theorem crash_compact (hP : NeverCrashes E.pointRead) (hQ : NeverCrashes E.prfRead) (hmem : biggestAllocation E ≤ E.maxAlloc)
    {s : Bytes} {what : String} (h : readStep E s = .stop (.crash what)) :
    ∃ body rest, body.length ≤ 20000000 ∧ s = frameBytes 13 body ++ rest ∧ ¬ (CompactBlock.read E body).1.Safe := by
  obtain ⟨c1, c2, c3, c4, c5, c6, c7, c8, c9, c10⟩ := C27_decoders_partial E hP hQ hmem
  unfold biggestAllocation at hmem
  have bad : ∀ {α : Type} {o : Out α} {p : String}, o.Safe → o = .panic p ∨ o = .fatal p → False := by
    rintro α o p h (rfl | rfl) <;> exact h
  unfold readStep at h
  split at h
  case h_2 => cases h
  case h_3 e _ | h_4 e _ =>
    rename_i heq
    have := c1 s
    rw [heq] at this
    exact this.elim
  rename_i hd s1 hhd
  split at h
  · cases h
  rename_i hbig
  have hlen : hd.len.toNat ≤ 20000000 := by
    have : ¬ (MaxMsgLen.toNat < hd.len.toNat) := fun h => hbig (UInt64.lt_iff_toNat_lt.2 h)
    have h2 : MaxMsgLen.toNat = 20000000 := rfl
    omega
  rw [Rd.make_ok (size := 1) (by omega : hd.len.toNat * 1 ≤ E.maxAlloc)] at h
  simp only at h
  split at h
  case h_2 => cases h
  rename_i body s3 hb
  obtain ⟨e1, hl⟩ := Rd.readFull_ok hb
  obtain ⟨-, e⟩ := C01_decoded _ _ _ hhd
  have hdec : ∃ p, decodeBody E hd.type body = .panic p ∨ decodeBody E hd.type body = .fatal p := by
    split at h
    · cases h
    · cases h
    · rename_i p hp; exact ⟨p, .inl hp⟩
    · rename_i p hp; exact ⟨p, .inr hp⟩
  clear h
  have run : ∀ {α : Type} {rd : Rd α} {f : α → Out (Option (Message E))}, NeverCrashes rd → (∀ a r, rd body = (.ok a, r) → (f a).Safe) →
      (runBody rd body f).Safe := by
    intro α rd f h1 h2
    unfold runBody
    have h3 := h1 body
    generalize hq : rd body = q at h3
    obtain ⟨o, r⟩ := q
    cases o with
    | ok a => exact h2 a r hq
    | err _ => trivial
    | panic _ => exact h3.elim
    | fatal _ => exact h3.elim
  have ht : hd.type = 13 ∧ ¬ (CompactBlock.read E body).1.Safe := by
    obtain ⟨p, hp⟩ := hdec
    unfold decodeBody at hp
    by_cases ht : hd.type = MsgTypePing
    · rw [if_pos ht] at hp; refine (bad ?_ hp).elim; exact (run c2 fun _ _ _ => trivial)
    rw [if_neg ht] at hp; clear ht
    by_cases ht : hd.type = MsgTypePong
    · rw [if_pos ht] at hp; refine (bad ?_ hp).elim; exact (run c2 fun _ _ _ => trivial)
    rw [if_neg ht] at hp; clear ht
    by_cases ht : hd.type = MsgTypeGetPeerAddrs
    · rw [if_pos ht] at hp; refine (bad ?_ hp).elim; exact (run c3 fun _ _ _ => trivial)
    rw [if_neg ht] at hp; clear ht
    by_cases ht : hd.type = MsgTypePeerAddrs
    · rw [if_pos ht] at hp; refine (bad ?_ hp).elim; exact (run c4 fun _ _ _ => trivial)
    rw [if_neg ht] at hp; clear ht
    by_cases ht : hd.type = MsgTypeGetHeaders
    · rw [if_pos ht] at hp; refine (bad ?_ hp).elim; exact (run c6 fun _ _ _ => trivial)
    rw [if_neg ht] at hp; clear ht
    by_cases ht : hd.type = MsgTypeHeader
    · rw [if_pos ht] at hp; refine (bad ?_ hp).elim; exact (run c7 fun _ _ _ => trivial)
    rw [if_neg ht] at hp; clear ht
    by_cases ht : hd.type = MsgTypeHeaders
    · rw [if_pos ht] at hp; refine (bad ?_ hp).elim; exact (run c8 fun _ _ _ => trivial)
    rw [if_neg ht] at hp; clear ht
    by_cases ht : hd.type = MsgTypeGetBlock
    · rw [if_pos ht] at hp; refine (bad ?_ hp).elim; exact (run c5 fun _ _ _ => trivial)
    rw [if_neg ht] at hp; clear ht
    by_cases ht : hd.type = MsgTypeBlock
    · rw [if_pos ht] at hp
      refine (bad ?_ hp).elim
      refine run c9 fun b r hr => ?_
      obtain ⟨⟨r1, h1⟩, -⟩ := block_read_ok hr
      obtain ⟨v, hv⟩ := hash_ok h1
      simp only [hv, Out.bind_ok]
      trivial
    rw [if_neg ht] at hp; clear ht
    by_cases ht : hd.type = MsgTypeGetCompactBlock
    · rw [if_pos ht] at hp; rcases hp with hp | hp <;> cases hp
    rw [if_neg ht] at hp; clear ht
    by_cases ht : hd.type = MsgTypeCompactBlock
    · refine ⟨ht, fun hs => ?_⟩
      rw [if_pos ht] at hp
      unfold runBody at hp
      generalize hq : CompactBlock.read E body = q at hs hp
      obtain ⟨o, r⟩ := q
      cases o with
      | ok b =>
        obtain ⟨r1, h1⟩ := compact_read_header hq
        obtain ⟨v, hv⟩ := hash_ok h1
        simp only [Out.bind_ok, hv] at hp
        rcases hp with hp | hp <;> cases hp
      | err _ => rcases hp with hp | hp <;> cases hp
      | panic _ => exact hs.elim
      | fatal _ => exact hs.elim
    rw [if_neg ht] at hp; clear ht
    by_cases ht : hd.type = MsgTypeTransaction
    · rw [if_pos ht] at hp; refine (bad ?_ hp).elim; exact (run c10 fun _ _ _ => trivial)
    rw [if_neg ht] at hp
    rcases hp with hp | hp <;> cases hp
  refine ⟨body, s3, by omega, ?_, ht.2⟩
  rw [e, e1, frameBytes, hl, ht.1]
  simp

/-- What ends the process comes from the continuation when the first part is harmless. -/
theorem cont_crash {α β : Type} {x : Out α × Bytes} {f : α → Rd β} (h : ¬ (Rd.cont x f).1.Safe) (hx : x.1.Safe) :
    ∃ a s, x = (.ok a, s) ∧ ¬ (f a s).1.Safe := by
  obtain ⟨o, s⟩ := x
  cases o with
  | ok a => exact ⟨a, s, rfl, h⟩
  | err _ => exact (h trivial).elim
  | panic _ => exact hx.elim
  | fatal _ => exact hx.elim

/-- Where reading the shake panics. -/
theorem crash_shake {came : Bytes} (h : ¬ (Full.readShake E came).1.Safe) : Trouble E came := by
  unfold Full.readShake readMessage at h
  have hh : NeverCrashes Header.read := (NeverCrashes.readFull 2).bind fun m => NeverCrashes.ite (fun _ => .fail _) fun _ =>
    NeverCrashes.u8.bind fun _ => NeverCrashes.u64.bind fun _ => .pure _
  obtain ⟨hd, s1, h1, h⟩ := cont_crash h ((hh.limit _) came)
  split at h
  · exact (h trivial).elim
  rename_i ht
  split at h
  · exact (h trivial).elim
  rename_i hbig
  simp only [Rd.bind_run] at h
  have h' : ¬ (Shake.read E (s1.take hd.len.toNat)).1.Safe := by
    intro hs
    refine h ?_
    have : (Rd.limit hd.len.toNat (Shake.read E) s1).1.Safe := hs
    generalize Rd.limit hd.len.toNat (Shake.read E) s1 = q at this
    obtain ⟨o, r⟩ := q
    cases o with
    | ok _ => trivial
    | err _ => trivial
    | panic _ => exact this.elim
    | fatal _ => exact this.elim
  clear h
  simp only [Shake.read, Rd.bind_run] at h'
  obtain ⟨v, r1, e1, h⟩ := cont_crash h' (NeverCrashes.u32 _)
  split at h
  · exact (h trivial).elim
  rename_i hv
  simp only [Rd.bind_run] at h
  obtain ⟨caps, r2, e2, h⟩ := cont_crash h (NeverCrashes.u32 _)
  simp only [Rd.bind_run] at h
  obtain ⟨td, r3, e3, h⟩ := cont_crash h (NeverCrashes.u64 _)
  simp only [Rd.bind_run] at h
  obtain ⟨len, r4, e4, h⟩ := cont_crash h (NeverCrashes.u64 _)
  have hl : E.maxAlloc < len.toNat := by
    by_contra hc
    refine h (((NeverCrashes.make (by omega : len.toNat * 1 ≤ E.maxAlloc)).bind fun _ =>
      (NeverCrashes.readFull _).bind fun _ => (NeverCrashes.readFull _).bind fun _ => .pure _) r4)
  push Not at ht hv
  subst hv
  unfold Rd.limit at h1
  generalize hq : Header.read (came.take HeaderLen.toNat) = q at h1
  obtain ⟨o, left⟩ := q
  simp only [Prod.mk.injEq] at h1
  obtain ⟨rfl, rfl⟩ := h1
  obtain ⟨-, e⟩ := C01_decoded _ _ _ hq
  have hc : came = [0x54, 0x34, 2] ++ be 8 hd.len.toNat ++ (left ++ came.drop HeaderLen.toNat) := by
    conv_lhs => rw [← List.take_append_drop HeaderLen.toNat came, e, ht]
    simp [MsgTypeShake]
  have hmax : hd.len.toNat ≤ 20000000 := by
    have : hd.len.toNat ≤ MaxMsgLen.toNat := UInt64.le_iff_toNat_le.1 (UInt64.not_lt.1 hbig)
    exact this
  have hmin : 24 ≤ hd.len.toNat := by
    have := congrArg List.length (Rd.u32_ok e1)
    rw [Rd.u32_ok e2, Rd.u64_ok e3, Rd.u64_ok e4] at this
    simp only [List.length_append, be32_length, be64_length, List.length_take] at this
    omega
  have ht : left ++ came.drop HeaderLen.toNat = be 4 1 ++ be 4 caps.toNat ++ be 8 td.toNat ++ be 8 len.toNat ++
      (r4 ++ (left ++ came.drop HeaderLen.toNat).drop hd.len.toNat) := by
    conv_lhs => rw [← List.take_append_drop hd.len.toNat (left ++ _), Rd.u32_ok e1, Rd.u32_ok e2, Rd.u64_ok e3, Rd.u64_ok e4]
    simp [be32, be64, ProtocolVersion]
  rw [hc, ht]
  have := Trouble.shake (E := E) hd.len.toNat caps td len (r4 ++ (left ++ came.drop HeaderLen.toNat).drop hd.len.toNat) hmin hmax hl
  simpa only [List.append_assoc] using this

/-! ### The goroutines of a connection -/

/-- The message can be serialised. -/
def Framed (m : Message E) : Prop := ∃ b, m.frame = .ok b

/-- Whatever is to be written on the connection can be serialised, and its read handler is not in `Ban`. -/
structure GoodPeer (p : Lifecycle.Peer (Message E)) : Prop where
  reply : ∀ m, p.reader = .replying m → Framed m
  send : ∀ m, .send m ∈ p.threads → Framed m
  got : ∀ m, p.writer = .got m → Framed m
  handling : ∀ a, p.reader ≠ .handling a
  closing : ∀ d, p.reader ≠ .closing d

theorem good_new : GoodPeer (.new (Message E)) :=
  ⟨(fun _ h => by cases h), (fun _ h => by cases h), (fun _ h => by cases h), (fun _ h => by cases h), (fun _ h => by cases h)⟩

theorem disc_same {M : Type} {d d' : Lifecycle.Disc} {p q : Lifecycle.Peer M} (h : Lifecycle.DiscStep d p d' q) :
    q.reader = p.reader ∧ q.writer = p.writer ∧ q.threads = p.threads := by
  cases h <;> exact ⟨rfl, rfl, rfl⟩

/-- A read handler that is nowhere in particular. -/
theorem GoodPeer.reader {p : Lifecycle.Peer (Message E)} (h : GoodPeer p) {q : Lifecycle.Peer (Message E)}
    (hr : q.reader = p.reader ∨ ((∀ m, q.reader ≠ .replying m) ∧ (∀ a, q.reader ≠ .handling a) ∧ ∀ d, q.reader ≠ .closing d))
    (hw : q.writer = p.writer ∨ ∀ m, q.writer = .got m → Framed m) (ht : ∀ m, .send m ∈ q.threads → .send m ∈ p.threads ∨ Framed m) :
    GoodPeer q where
  reply := fun m e => hr.elim (fun e' => h.reply m (e' ▸ e)) fun e' => absurd e (e'.1 m)
  send := fun m e => (ht m e).elim (h.send m) id
  got := fun m e => hw.elim (fun e' => h.got m (e' ▸ e)) fun e' => e' m e
  handling := fun a e => hr.elim (fun e' => h.handling a (e' ▸ e)) fun e' => e'.2.1 a e
  closing := fun a e => hr.elim (fun e' => h.closing a (e' ▸ e)) fun e' => e'.2.2 a e

theorem GoodPeer.step {p q : Lifecycle.Peer (Message E)} {k : Lifecycle.Kind} (h : GoodPeer p) (hk : k ≠ .call)
    (hs : Lifecycle.Step Talk.frame k p q) (hq : ∀ a, q.reader ≠ .handling a) : GoodPeer q := by
  have mid : ∀ {l r : List (Lifecycle.Thread (Message E))} {t t'}, p.threads = l ++ t :: r → (∀ m, t' ≠ .send m) →
      ∀ m, .send m ∈ l ++ t' :: r → .send m ∈ p.threads ∨ Framed m := by
    intro l r t t' e hne m hm
    rw [List.mem_append, List.mem_cons] at hm
    rw [e, List.mem_append, List.mem_cons]
    rcases hm with hm | rfl | hm
    · exact .inl (.inl hm)
    · exact absurd rfl (hne m)
    · exact .inl (.inr (.inr hm))
  cases hs with
  | start => exact absurd rfl hk
  | callDisconnect => exact absurd rfl hk
  | callSend => exact absurd rfl hk
  | callWait => exact absurd rfl hk
  | deliver _ a h1 => exact absurd rfl (hq a)
  | handleNothing _ h1 => exact absurd h1 (h.handling _)
  | handleReply _ m h1 => exact absurd h1 (h.handling _)
  | handleClose _ h1 => exact absurd h1 (h.handling _)
  | closingStep _ _ _ _ h1 => exact absurd h1 (h.closing _)
  | closingEnd _ h1 => exact absurd h1 (h.closing _)
  | loopGo | loopEnd | readFail | readClosed | replyQuit | readerDone =>
    exact h.reader (.inr ⟨nofun, nofun, nofun⟩) (.inl rfl) fun _ e => .inl e
  | replyTaken _ m h1 =>
    exact h.reader (.inr ⟨nofun, nofun, nofun⟩) (.inr fun m' e => by cases e; exact h.reply _ h1) fun _ e => .inl e
  | readerLeave _ s' d d' h1 hd =>
    obtain ⟨-, e2, e3⟩ := disc_same hd
    exact h.reader (.inr ⟨nofun, nofun, nofun⟩) (.inl e2) fun _ e => .inl (e3 ▸ e)
  | gotDrop | gotWrite | chunk | writeFail | writeClosed | writeDone | selectQuit | writerDone =>
    exact h.reader (.inl rfl) (.inr fun m' e => by cases e) fun _ e => .inl e
  | writerLeave _ s' d d' h1 hd =>
    obtain ⟨e1, -, e3⟩ := disc_same hd
    exact h.reader (.inl e1) (.inr fun m' e => by cases e) fun _ e => .inl (e3 ▸ e)
  | threadDisc _ s' l r d d' h1 hd =>
    obtain ⟨e1, e2, -⟩ := disc_same hd
    exact h.reader (.inl e1) (.inl e2) (mid h1 nofun)
  | sendQuit _ l r m h1 => exact h.reader (.inl rfl) (.inl rfl) (mid h1 nofun)
  | sendTaken _ l r m h1 =>
    refine h.reader (.inl rfl) (.inr fun m' e => ?_) (mid h1 nofun)
    cases e
    exact h.send _ (by rw [h1]; simp)
  | waitQuit _ l r h1 => exact h.reader (.inl rfl) (.inl rfl) (mid h1 nofun)
  | waitEnd _ l r h1 => exact h.reader (.inl rfl) (.inl rfl) (mid h1 nofun)

/-- A call on the peer. -/
theorem GoodPeer.calls {p : Lifecycle.Peer (Message E)} (h : GoodPeer p) {t : Lifecycle.Thread (Message E)}
    (ht : ∀ m, t = .send m → Framed m) : GoodPeer { p with threads := p.threads ++ [t] } := by
  refine h.reader (.inl rfl) (.inl rfl) fun m e => ?_
  rw [List.mem_append, List.mem_singleton] at e
  exact e.imp id fun e => ht m e.symm

theorem framed_ping : Framed (Program.ping : Message E) := ⟨_, rfl⟩
theorem framed_ask : Framed (Program.ask : Message E) := ⟨_, rfl⟩

/-! ### The pool -/

/-- Nothing in the pool is about to end the process. -/
structure CalmPool (s : Whole.State (Message E)) : Prop where
  panicked : s.panicked = false
  bans : s.bans = []
  quit : s.quit = false
  closers : s.closers = []
  literal : Literal s.table
  peers : ∀ x ∈ s.conns, GoodPeer x.peer

theorem literal_update {t : Table} (h : Literal t) (a : String) (f : PeerInfo → PeerInfo) : Literal (t.update a f) := by
  unfold Literal
  rw [update_keys]
  exact h

theorem literal_add {t : Table} (h : Literal t) (resolve : String → Option TCPAddr) {addr : String}
    (ha : ∃ a b c d port, addr = written a b c d port) : Literal (add resolve t addr) := by
  obtain ⟨l, e, hl⟩ := add_prefix resolve t addr
  intro k hk
  rw [e, List.map_append, List.mem_append] at hk
  rcases hk with hk | hk
  · exact h k hk
  · rcases hl with rfl | ⟨rfl, -⟩
    · cases hk
    · rw [List.map_singleton, List.mem_singleton] at hk
      subst hk
      exact ha

/-- One connection is replaced. -/
theorem mem_set {α : Type} {P : α → Prop} {s l r : List α} {x y : α} (e : s = l ++ x :: r) (h : ∀ z ∈ s, P z) (hy : P x → P y) :
    ∀ z ∈ l ++ y :: r, P z := by
  subst e
  intro z hz
  rw [List.mem_append, List.mem_cons] at hz
  rcases hz with hz | rfl | hz
  · exact h z (by simp [hz])
  · exact hy (h x (by simp))
  · exact h z (by simp [hz])

theorem CalmPool.step {s q : Whole.State (Message E)} {k : Lifecycle.Kind} (h : CalmPool s) (hk : k ≠ .call)
    (hs : Whole.Step Talk.frame Program.ping Program.ask s k q) (hq : ∀ y ∈ q.conns, ∀ a, y.peer.reader ≠ .handling a) :
    CalmPool q := by
  obtain ⟨h1, h2, h3, h4, h5, h6⟩ := h
  cases hs with
  | take | choose | nothing | tooMany | missing | skip | dial | opens | otherVersion | see | release | wake =>
    exact ⟨h1, h2, h3, h4, h5, h6⟩
  | noAnswer | noShake => exact ⟨h1, h2, h3, h4, literal_update h5 _ _, h6⟩
  | register =>
    refine ⟨h1, h2, h3, h4, literal_update h5 _ _, fun x hx => ?_⟩
    rw [List.mem_append, List.mem_singleton] at hx
    rcases hx with hx | rfl
    · exact h6 x hx
    · exact good_new
  | start addr l r x hl hx p hr hw hp =>
    refine ⟨h1, h2, h3, h4, h5, mem_set hx h6 fun g => ?_⟩
    subst hp
    exact g.reader (.inr ⟨nofun, nofun, nofun⟩) (.inr fun _ e => by cases e) fun _ e => .inl e
  | ping addr l r x hl hx =>
    exact ⟨h1, h2, h3, h4, h5, mem_set hx h6 fun g => g.calls fun m e => by cases e; exact framed_ping⟩
  | ask addr k m b l r x hl hx =>
    exact ⟨h1, h2, h3, h4, h5, mem_set hx h6 fun g => g.calls fun m e => by cases e; exact framed_ask⟩
  | spawn addr k m b l r x hl hx =>
    exact ⟨h1, h2, h3, h4, h5, mem_set hx h6 fun g => g.calls (t := .wait) fun m e => by cases e⟩
  | inner l r x hx kind p hkind hp hh =>
    exact ⟨h1, h2, h3, h4, h5, mem_set hx h6 fun g => g.step hkind hp (hq _ (by simp))⟩
  | relay => exact absurd rfl hk
  | want l r x a hx => exact ⟨h1, h2, h3, h4, h5, mem_set hx h6 fun g => g⟩
  | record l r x td height hx => exact ⟨h1, h2, h3, h4, by dsimp only; exact literal_update h5 _ _, mem_set hx h6 fun g => g⟩
  | mark l r x k hx => exact ⟨h1, h2, h3, h4, literal_update h5 _ _, mem_set hx h6 fun g => g⟩
  | seeDown l r x hx => exact ⟨h1, h2, h3, h4, h5, mem_set hx h6 fun g => g⟩
  | count l r x n hx => exact ⟨h1, h2, h3, h4, h5, mem_set hx h6 fun g => g⟩
  | drop l r x hx => exact ⟨h1, h2, h3, h4, h5, mem_set hx h6 fun g => g⟩
  | free l r x hx => exact ⟨h1, h2, h3, h4, h5, mem_set hx h6 fun g => g⟩
  | add => exact absurd rfl hk
  | banSelf addr i l r x hx h => exact absurd h ((h6 x (by rw [hx]; simp)).handling _)
  | banOther => exact absurd rfl hk
  | banNil => exact absurd rfl hk
  | banEnd b hb => rw [h2] at hb; cases hb
  | stop => exact absurd rfl hk
  | quitting _ hqu => rw [h3] at hqu; cases hqu
  | closeLock l r addr hx => rw [h4] at hx; simp at hx
  | closeNil addr i hx => rw [h4] at hx; cases hx
  | closeCall l r addr i l' r' x hx => rw [h4] at hx; simp at hx
  | closeDone l r addr k x hx => rw [h4] at hx; simp at hx

/-! ### Handling a message -/

/-- A message of the shipped node's wire that is welcome is handled to the end. -/
theorem welcome_done (w : World) {node : Node E} (hl : LikeMain node) {f : Sender} (known : Known node f) {t : UInt8}
    {body : Bytes} {m : Message E} (hm : Carries E t body (some m)) (hu : ¬ Unwelcome E m) :
    (processMessage w node f m).ended = .done := by
  have ht : t ≠ 15 := by
    rintro rfl
    cases hm
    exact hu trivial
  have ho : ¬ Offends node m := by
    obtain ⟨h1, h2, -⟩ := hl
    intro h
    apply hu
    cases m with
    | block b => simpa only [Offends, h1, h2, Unwelcome] using h
    | headers hs => exact h
    | _ => exact h.elim
  have key := (C75_survives_partial { w with resolve := fun _ => none, order := id } node hl f known t body m hm ht (.inl ho)
    (List.Perm.refl _) (fun _ _ _ h => by cases h)).1
  rw [process_known _ _ _ known] at key ⊢
  cases m with
  | getPeerAddrs => rfl
  | peerAddrs => rfl
  | _ => exact key

theorem reply_framed {r : Reply E} (h : ∃ v, r.bytes = .ok v) : Framed r.message := by
  obtain ⟨v, h⟩ := h
  have : r.message.bytes = .ok v := by cases r <;> exact h
  exact ⟨_, by unfold Message.frame; rw [this]; rfl⟩

theorem block_framed {t : UInt8} {body : Bytes} {b : Block E} (hm : Carries E t body (some (.block b))) :
    Framed (.block b : Message E) := by
  cases hm with
  | block _ r _ hr =>
    obtain ⟨⟨r1, h1⟩, -⟩ := block_read_ok hr
    obtain ⟨v, hv⟩ := block_bytes_ok b (C13_decoded_safe E _ _ _ h1).1
    exact ⟨_, by unfold Message.frame; rw [show (Message.block b).bytes = .ok v from hv]; rfl⟩

theorem answer_mem {es : List (Effect E)} {a : Message E} (h : Talk.answer es = some a) : ∃ r, .reply r ∈ es ∧ a = r.message := by
  induction es with
  | nil => cases h
  | cons e es ih =>
    cases e with
    | reply r => cases h; exact ⟨r, by simp, rfl⟩
    | relay _ _ _ =>
      obtain ⟨r, h1, h2⟩ := ih h
      exact ⟨r, by simp [h1], h2⟩

/-- And what is answered can be serialised. -/
theorem welcome_framed {w : World} (hw : Program.Real w) {node : Node E} (hl : LikeMain node) (hlit : Literal node.table)
    {f : Sender} (known : Known node f) {t : UInt8}
    {body : Bytes} {m a : Message E} (hm : Carries E t body (some m)) (hu : ¬ Unwelcome E m)
    (ha : Talk.answer (processMessage w node f m).effects = some a) : Framed a := by
  have ht : t ≠ 15 := by
    rintro rfl
    cases hm
    exact hu trivial
  have ho : ¬ Offends node m := by
    obtain ⟨h1, h2, -⟩ := hl
    intro h
    apply hu
    cases m with
    | block b => simpa only [Offends, h1, h2, Unwelcome] using h
    | headers hs => exact h
    | _ => exact h.elim
  obtain ⟨r, order, closing, rfl, hord⟩ := hw
  have key := (C75_survives_partial (Net.world r order closing) node hl f known t body m hm ht (.inl ho) (hord node.table) (by
    intro e he y hy
    obtain ⟨x1, x2, x3, x4, port, hk⟩ := hlit e.1 (List.mem_map.2 ⟨e, he, rfl⟩)
    rw [world_resolve, hk, written_eq, String.toList_ofList, resolve_ipv4] at hy
    cases hy
    exact .inr rfl)).2
  obtain ⟨rep, h1, rfl⟩ := answer_mem ha
  exact reply_framed (key _ h1)

/-- The addresses stay as they were written. -/
theorem welcome_literal {w : World} (hw : Program.Real w) {node : Node E} (hk : UniqueKeys node.table) (hlit : Literal node.table)
    {f : Sender} {t : UInt8} {body : Bytes} {m : Message E} (hm : Carries E t body (some m))
    (he : (processMessage w node f m).ended = .done) : Literal (processMessage w node f m).node.table := by
  obtain ⟨r, order, closing, rfl, hord⟩ := hw
  rcases Program.done_table _ node f m hk he with e | ⟨td, height, -, e⟩ | ⟨p, rfl, e⟩
  · rw [e]; exact hlit
  · rw [e]; exact literal_update hlit _ _
  · rw [e]
    have hd : ∀ x ∈ p.peers, IPv4 x := by
      cases hm with
      | peerAddrs _ rest _ h => exact (C22_decoded body rest p h).2
    generalize p.peers = l at hd
    clear e he hm
    generalize node.table = t at hlit
    induction l generalizing t with
    | nil => exact hlit
    | cons x l ih =>
      refine ih (fun y hy => hd y (by simp [hy])) _ (literal_add hlit _ ?_)
      obtain ⟨a, b, c, d, port, rfl⟩ := ipv4_form (hd x (by simp))
      exact ⟨a, b, c, d, port, (C106_text r order closing a b c d port).1⟩

/-! ### The program -/

/-- Nothing in the program is about to end it. -/
structure Calm (s : Program.State E) : Prop where
  alive : s.dead = false
  pool : CalmPool s.pool
  stuck : ∀ c, (s.io c).stuck = false
  jobs : ∀ j ∈ s.jobs, Framed (.block j.block : Message E)

theorem Calm.step {remote : Nat → String} {s s' : Program.State E} {k : Lifecycle.Kind} (h : Calm s) (hk : k ≠ .call)
    (hi : Program.Inv remote (Chain.new (testnet1 E) (sqlStorage E)) (sqlStorage E) none s)
    (hs : Program.Step remote k s s')
    (hread : ∀ x ∈ s.pool.conns, x.peer.reader = .reading → (s.io x.id).task = none →
      ∀ what, readStep E (s.io x.id).inbox ≠ .stop (.crash what))
    (htask : ∀ x ∈ s.pool.conns, ∀ m, (s.io x.id).task = some m → (∃ t body, Carries E t body (some m)) ∧ ¬ Unwelcome E m) :
    Calm s' := by
  have hi' := Program.inv_step hi h.pool.panicked hs
  have like : LikeMain s.node := hi.same
  have known : ∀ x ∈ s.pool.conns, Known s.node (Program.sender remote x) := by
    intro x hx
    obtain ⟨node, n1, n2, n3, n4⟩ := hi.talks x hx
    exact (Talk.in_reachable (fun _ _ h => h) (headHash := E.blake2b (Network.hashed .testnet1))
      (by rw [n1]; exact genesis_hash E .testnet1) n3 n4).1.2.2.2 _ n3
  have done : ∀ x ∈ s.pool.conns, ∀ m, (s.io x.id).task = some m → ∀ w,
      (processMessage w s.node (Program.sender remote x) m).ended = .done := by
    intro x hx m ht w
    obtain ⟨⟨t, body, hm⟩, hu⟩ := htask x hx m ht
    exact welcome_done w like (known x hx) hm hu
  have hpool := h.pool
  obtain ⟨h1, h2, h3, h4⟩ := h
  have stuck : ∀ {c : Nat} {y : Program.Reading E}, y.stuck = (s.io c).stuck →
      ∀ d, (Function.update s.io c y d).stuck = false := by
    intro c y hy d
    by_cases e : d = c
    · subst e; rw [Function.update_self, hy]; exact h3 d
    · rw [Function.update_of_ne e]; exact h3 d
  cases hs with
  | pool k q hs hr hw hm => exact ⟨h1, hpool.step hk hs fun y hy => (hi'.calm y hy).2, h3, h4⟩
  | arrive c bs => exact ⟨h1, h2, stuck rfl, h4⟩
  | look l' r' j i st e => exact ⟨h1, h2, h3, mem_set e h4 id⟩
  | relay l' r' j i l r x e hf hn hx =>
    refine ⟨h1, ⟨h2.1, h2.2, h2.3, h2.4, h2.5, mem_set hx h2.6 fun g => g.calls fun m e' => ?_⟩, h3, mem_set e h4 id⟩
    cases e'
    exact h4 j (by rw [e]; simp)
  | skip l r x c rest hx =>
    exact ⟨h1, ⟨h2.1, h2.2, h2.3, h2.4, h2.5, mem_set hx h2.6 fun g =>
      g.reader (.inr ⟨nofun, nofun, nofun⟩) (.inl rfl) fun _ e => .inl e⟩, stuck rfl, h4⟩
  | read x m c rest hx => exact ⟨h1, h2, stuck rfl, h4⟩
  | readerDies x what hx hr ht hc => exact absurd hc (hread x hx hr ht what)
  | process l r x w m hx hr ht hst hw hl he ha =>
    obtain ⟨⟨t, body, hm⟩, hu⟩ := htask x (by rw [hx]; simp) m ht
    refine ⟨h1, ⟨h2.1, h2.2, h2.3, h2.4, welcome_literal hw (Whole.unique_reachable hi.whole) h2.5 hm he,
      mem_set hx h2.6 fun g => g.reader (.inr ⟨nofun, nofun, nofun⟩) (.inl rfl) fun _ e => .inl e⟩, stuck rfl, ?_⟩
    intro j hj
    rw [Program.State.handled, List.mem_append] at hj
    rcases hj with hj | hj
    · exact h4 j hj
    · unfold Program.started at hj
      split at hj
      · split at hj
        · rw [List.mem_map] at hj
          obtain ⟨a, -, rfl⟩ := hj
          exact block_framed hm
        · cases hj
      · cases hj
  | answer l r x w m a hx hr ht hst hw hl he ha =>
    have hxm : x ∈ s.pool.conns := by rw [hx]; simp
    obtain ⟨⟨t, body, hm⟩, hu⟩ := htask x hxm m ht
    refine ⟨h1, ⟨h2.1, h2.2, h2.3, h2.4, welcome_literal hw (Whole.unique_reachable hi.whole) h2.5 hm he,
      mem_set hx h2.6 fun g => ⟨?_, g.send, g.got, nofun, nofun⟩⟩, stuck rfl, ?_⟩
    · intro m' e
      cases e
      exact welcome_framed hw like h2.5 (known x hxm) hm hu ha
    intro j hj
    rw [Program.State.handled, List.mem_append] at hj
    rcases hj with hj | hj
    · exact h4 j hj
    · unfold Program.started at hj
      split at hj
      · split at hj
        · rw [List.mem_map] at hj
          obtain ⟨a, -, rfl⟩ := hj
          exact block_framed hm
        · cases hj
      · cases hj
  | ban l r x w m hx hr ht hst he =>
    rw [done x (by rw [hx]; simp) m ht w] at he; cases he
  | banOther l r x y w m i hx hr ht hst hy he =>
    rw [done x hx m ht w] at he; cases he
  | processDies x w m hx hr ht hst he => exact absurd (done x hx m ht w) he
  | writerDies x m hx hw hf hn => exact absurd ((h2.6 x hx).got m hw) hn

/-! ### What came in -/

theorem Trouble.mono {a b : Bytes} (h : Trouble E a) (hp : a <+: b) : Trouble E b := by
  obtain ⟨t, rfl⟩ := hp
  cases h with
  | shake len caps td name rest h1 h2 h =>
    simpa only [List.append_assoc] using Trouble.shake (E := E) len caps td name (rest ++ t) h1 h2 h
  | compact sh len hs fs body rest hl h =>
    simpa only [List.append_assoc] using Trouble.compact (E := E) sh len hs fs body (rest ++ t) hl h
  | message sh len hs fs rest m h hm =>
    simpa only [List.append_assoc] using Trouble.message (E := E) sh len hs fs (rest ++ t) m h hm

variable {u : Full.Setup} {nonces : NonceList}

theorem came_grows {k : Lifecycle.Kind} {s s' : Full.State E} (hs : Full.Step u k s s') (c : Nat) :
    cameOn s c <+: cameOn s' c := by
  have upd : ∀ (d : Nat) (y : Full.Socket), (s.sockets d).came <+: y.came →
      (s.sockets c).came <+: (Function.update s.sockets d y c).came := by
    intro d y hy
    by_cases e : c = d
    · subst e; rw [Function.update_self]; exact hy
    · rw [Function.update_of_ne e]
  cases hs with
  | opens | writes | shake => exact upd _ _ List.prefix_rfl
  | early | arrive => exact upd _ _ (List.prefix_append _ _)
  | _ => exact List.prefix_rfl

theorem next_prog {remote : Nat → String} {k : Lifecycle.Kind} {s s' : Program.State E} (hs : Program.Step remote k s s') :
    s.pool.next ≤ s'.pool.next := by
  rcases Full.pool_prog hs with ⟨k', h, -⟩ | ⟨-, h, -⟩
  · generalize s'.pool = q at h
    cases h <;> first | exact Nat.le_refl _ | exact Nat.le_succ _
  · exact Nat.le_of_eq h.symm

theorem serialize_ip {a : TCPAddr} (h : a.ip.length = 4 ∨ a.ip.length = 16) : ∃ v, serializeTCPAddr a = .ok v := by
  obtain ⟨v, hv⟩ := serializeAll_ok [a] (by simpa using h)
  unfold serializeAll at hv
  cases ha : serializeTCPAddr a with
  | ok v => exact ⟨v, rfl⟩
  | _ => rw [ha] at hv; cases hv

theorem next_grows {k : Lifecycle.Kind} {s s' : Full.State E} (hs : Full.Step u k s s') :
    s.prog.pool.next ≤ s'.prog.pool.next := by
  cases hs with
  | prog k q hs ha hg => exact next_prog hs
  | opens => exact Nat.le_succ _
  | _ => exact Nat.le_refl _

/-- Some connection has brought trouble. -/
def Troubled (s : Full.State E) : Prop := ∃ c, c < s.prog.pool.next ∧ Trouble E (cameOn s c)

theorem Troubled.mono {k : Lifecycle.Kind} {s s' : Full.State E} (h : Troubled s) (hs : Full.Step u k s s') : Troubled s' := by
  obtain ⟨c, h1, h2⟩ := h
  exact ⟨c, Nat.lt_of_lt_of_le h1 (next_grows hs), Trouble.mono h2 (came_grows hs c)⟩

theorem shipped_reachable {s : Full.State E} (h : Shipped u nonces s) :
    Full.Reachable u (Chain.new (testnet1 E) (sqlStorage E)) (sqlStorage E) none nonces s := by
  induction h with
  | new => exact .new
  | next _ hd hp hs _ ih => exact .next ih hd hp hs

theorem shipped_inv {s : Full.State E} (h : Shipped u nonces s) :
    Full.Inv u (Chain.new (testnet1 E) (sqlStorage E)) (sqlStorage E) none nonces s :=
  Full.inv_reachable (headHash := E.blake2b (Network.hashed .testnet1)) (genesis_hash E .testnet1) (shipped_reachable h)

/-- Everything that came in on a connection that is served. -/
theorem served_came {s : Full.State E} (hi : Full.Inv u (Chain.new (testnet1 E) (sqlStorage E)) (sqlStorage E) none nonces s)
    {x : Whole.Conn (Message E)} (hx : x ∈ s.prog.pool.conns) :
    x.id < s.prog.pool.next ∧ ∃ (sh : Shake) (len : Nat), GoodShake sh len ∧
      cameOn s x.id = [0x54, 0x34, 2] ++ be 8 len ++ shakeBody sh ++ (s.prog.io x.id).arrived := by
  have h1 := hi.conns x hx
  refine ⟨Nat.lt_of_not_le fun hle => h1 (hi.fresh _ hle).2, ?_⟩
  obtain ⟨sh, hsh⟩ := Option.ne_none_iff_exists'.1 h1
  have hk := hi.shaken _ _ hsh
  obtain ⟨len, l1, l2, e⟩ := hk.came
  refine ⟨sh, len, ⟨hk.version, hk.genesis, ?_, l1, l2⟩, e⟩
  simp only [shakeBody, List.length_append] at l1
  omega

theorem carried {fs : List (GoodFrame E)} {m : Message E} (h : m ∈ messagesOf fs) : ∃ t body, Carries E t body (some m) := by
  unfold messagesOf at h
  rw [List.mem_flatMap] at h
  obtain ⟨f, -, hm⟩ := h
  obtain ⟨type, body, msg, size, carries⟩ := f
  simp only [Option.mem_toList] at hm
  subst hm
  exact ⟨type, body, carries⟩

theorem calm_new : Calm (Full.State.new (Chain.new (testnet1 E) (sqlStorage E)) (sqlStorage E) none nonces).prog :=
  ⟨rfl, ⟨rfl, rfl, rfl, rfl, (fun _ h => by cases h), (fun _ h => by cases h)⟩, (fun _ => rfl), (fun _ h => by cases h)⟩

theorem call_only {remote : Nat → String} {k : Lifecycle.Kind} {s q : Program.State E} (hs : Program.Step remote k s q)
    (hk : k = .call) : q = { s with pool := q.pool } := by
  cases hs with
  | pool => rfl
  | _ => cases hk

/-- The hand can always be made. -/
theorem hand_made {l : NonceList} (hn : 100 ≤ l.list.length) {a : TCPAddr} (ha : a.ip.length = 4 ∨ a.ip.length = 16) (genesis : Bytes) :
    ∃ nonce l' data, l.next = .ok (nonce, l') ∧ (ownHand nonce a genesis).bytes = .ok data := by
  obtain ⟨x, hx⟩ : ∃ x, l.list[(l.idx + 1) % noncesCap]? = some x := by
    have : (l.idx + 1) % noncesCap < 100 := Nat.mod_lt _ (by decide)
    exact ⟨_, List.getElem?_eq_getElem (by omega)⟩
  have hnext : l.next = .ok (x, { l with idx := (l.idx + 1) % noncesCap }) := by
    unfold NonceList.next
    simp only [hx]
  obtain ⟨rb, hrb⟩ := serialize_ip ha
  refine ⟨_, _, ?_, hnext, ?_⟩
  rotate_left
  · unfold ownHand Hand.bytes
    simp only [hrb]
    rfl

theorem no_crash (hP : NeverCrashes E.pointRead) (hQ : NeverCrashes E.prfRead) (hmem : biggestAllocation E ≤ E.maxAlloc)
    {s : Full.State E} (hi : Full.Inv u (Chain.new (testnet1 E) (sqlStorage E)) (sqlStorage E) none nonces s)
    (hprog : Program.Inv u.remote (Chain.new (testnet1 E) (sqlStorage E)) (sqlStorage E) none s.prog) (ht0 : ¬ Troubled s)
    {x : Whole.Conn (Message E)} (hx : x ∈ s.prog.pool.conns) (what : String) :
    readStep E (s.prog.io x.id).inbox ≠ .stop (.crash what) := by
  intro hcr
  obtain ⟨body, rest, hl, e, hb⟩ := crash_compact hP hQ hmem hcr
  obtain ⟨hlt, sh, len, hsh, hcame⟩ := served_came hi hx
  obtain ⟨node, n1, n2, n3, n4⟩ := hprog.talks x hx
  obtain ⟨-, -, fs, ms, es, late, lost, harr, -⟩ := Talk.in_reachable (fun _ _ h => h)
    (headHash := E.blake2b (Network.hashed .testnet1)) (by rw [n1]; exact genesis_hash E .testnet1) n3 n4
  refine ht0 ⟨x.id, hlt, ?_⟩
  have harr' : (s.prog.io x.id).arrived = streamOf fs ++ (s.prog.io x.id).inbox := harr
  rw [hcame, harr', e]
  simpa only [List.append_assoc] using Trouble.compact (E := E) sh len hsh fs body rest hl hb

theorem task_welcome {s : Full.State E}
    (hi : Full.Inv u (Chain.new (testnet1 E) (sqlStorage E)) (sqlStorage E) none nonces s)
    (hprog : Program.Inv u.remote (Chain.new (testnet1 E) (sqlStorage E)) (sqlStorage E) none s.prog) (ht0 : ¬ Troubled s)
    {x : Whole.Conn (Message E)} (hx : x ∈ s.prog.pool.conns) {m : Message E} (htask : (s.prog.io x.id).task = some m) :
    (∃ t body, Carries E t body (some m)) ∧ ¬ Unwelcome E m := by
  obtain ⟨fs, ⟨rest, hpre⟩, hm⟩ := Full.task_came hprog (headHash := E.blake2b (Network.hashed .testnet1))
    (genesis_hash E .testnet1) hx htask
  refine ⟨carried hm, fun hu => ?_⟩
  obtain ⟨hlt, sh, len, hsh, hcame⟩ := served_came hi hx
  refine ht0 ⟨x.id, hlt, ?_⟩
  rw [hcame, ← hpre]
  simpa only [List.append_assoc] using Trouble.message (E := E) sh len hsh fs rest m hm hu

theorem Calm.same {s s' : Program.State E} (h : Calm s) (h1 : s'.dead = s.dead) (h2 : s'.pool.panicked = s.pool.panicked)
    (h3 : s'.pool.bans = s.pool.bans) (h4 : s'.pool.quit = s.pool.quit) (h5 : s'.pool.closers = s.pool.closers)
    (h6 : Literal s'.pool.table) (h7 : s'.pool.conns = s.pool.conns) (h8 : ∀ c, (s'.io c).stuck = (s.io c).stuck)
    (h9 : s'.jobs = s.jobs) : Calm s' :=
  ⟨h1.trans h.alive, ⟨h2.trans h.pool.panicked, h3.trans h.pool.bans, h4.trans h.pool.quit, h5.trans h.pool.closers, h6,
    h7 ▸ h.pool.peers⟩, fun c => (h8 c).trans (h.stuck c), h9 ▸ h.jobs⟩

theorem Calm.adds {s q : Program.State E} (h : Calm s) {t : Table} (hq : q = { s with pool := q.pool })
    (e : q.pool = { s.pool with table := t }) (ht : Literal t) : Calm q := by
  rw [hq, e]
  exact h.same rfl rfl rfl rfl rfl ht rfl (fun _ => rfl) rfl

theorem stuck_update {io : Nat → Program.Reading E} {c : Nat} {y : Program.Reading E} (hy : y.stuck = (io c).stuck) (d : Nat) :
    (Function.update io c y d).stuck = (io d).stuck := by
  by_cases e : d = c
  · subst e; rw [Function.update_self, hy]
  · rw [Function.update_of_ne e]

theorem calm_full (hP : NeverCrashes E.pointRead) (hQ : NeverCrashes E.prfRead) (hmem : biggestAllocation E ≤ E.maxAlloc)
    (hn : 100 ≤ nonces.list.length) (hip : ∀ c, (u.receiver c).ip.length = 4 ∨ (u.receiver c).ip.length = 16)
    {s s' : Full.State E} {k : Lifecycle.Kind}
    (hi : Full.Inv u (Chain.new (testnet1 E) (sqlStorage E)) (sqlStorage E) none nonces s)
    (hprog : Program.Inv u.remote (Chain.new (testnet1 E) (sqlStorage E)) (sqlStorage E) none s.prog) (ht0 : ¬ Troubled s)
    (hcalm : Calm s.prog) (hs : Full.Step u k s s') (hc : k = .call → Adds s s') : Calm s'.prog := by
  cases hs with
  | prog k q hs ha hg =>
    by_cases hk : k = .call
    · obtain ⟨r, a, b, c, d, port, e⟩ := hc hk
      exact hcalm.adds (call_only hs hk) e
        (literal_add (addr := written a b c d port) hcalm.pool.literal _ ⟨a, b, c, d, port, rfl⟩)
    · exact hcalm.step hk hprog hs (fun x hx _ _ what => no_crash hP hQ hmem hi hprog ht0 hx what)
        fun x hx m htask => task_welcome hi hprog ht0 hx htask
  | opens => exact hcalm.same rfl rfl rfl rfl rfl hcalm.pool.literal rfl (fun _ => rfl) rfl
  | opensDies addr hl hno =>
    obtain ⟨nonce, l', data, h1, h2⟩ := hand_made (l := s.nonces) (by rw [hi.list]; exact hn) (hip s.prog.pool.next) u.genesis
    exact absurd h2 (hno _ _ _ h1)
  | writes => exact hcalm
  | early => exact hcalm
  | arrive c bs hsh => exact hcalm.same rfl rfl rfl rfl rfl hcalm.pool.literal rfl (stuck_update rfl) rfl
  | noShake addr c hl =>
    exact hcalm.same rfl rfl rfl rfl rfl (literal_update hcalm.pool.literal _ _) rfl (fun _ => rfl) rfl
  | shakeDies addr c hl hw hr =>
    refine (ht0 ⟨c, (hi.greeting addr c hl).1, crash_shake fun hs => ?_⟩).elim
    have hs : (Full.readShake E (s.sockets c).came).1.Safe := hs
    rcases hr with ⟨e, he⟩ | ⟨e, he⟩ <;> (rw [he] at hs; exact hs)
  | otherVersion => exact hcalm.same rfl rfl rfl rfl rfl hcalm.pool.literal rfl (fun _ => rfl) rfl
  | shake => exact hcalm.same rfl rfl rfl rfl rfl hcalm.pool.literal rfl (stuck_update rfl) rfl

theorem calm_or_trouble (hP : NeverCrashes E.pointRead) (hQ : NeverCrashes E.prfRead) (hmem : biggestAllocation E ≤ E.maxAlloc)
    (hn : 100 ≤ nonces.list.length) (hip : ∀ c, (u.receiver c).ip.length = 4 ∨ (u.receiver c).ip.length = 16)
    {s : Full.State E} (h : Shipped u nonces s) : Troubled s ∨ Calm s.prog := by
  induction h with
  | new => exact .inr calm_new
  | @next s s' k h hd hp hs hc ih =>
    by_cases ht : Troubled s'
    · exact .inl ht
    have ht0 : ¬ Troubled s := fun h => ht (h.mono hs)
    have hcalm := ih.resolve_left ht0
    right
    have hi := shipped_inv h
    have hprog := Program.inv_reachable (hi.alive hd)
    exact calm_full hP hQ hmem hn hip hi hprog ht0 hcalm hs hc

/-- What holds as long as no connection has brought trouble. -/
theorem calm_goes_on {s : Full.State E} (h : Shipped u nonces s) (hc : Calm s.prog) : ¬ HasEnded s := by
  rintro (e | e | ⟨x, hx, e⟩)
  · rw [hc.alive] at e; cases e
  · rw [hc.pool.panicked] at e; cases e
  · obtain ⟨d, hr⟩ := (shipped_inv h).prog
    have := (Lifecycle.inv_reachable ((Whole.inv_reachable (Program.inv_reachable hr).whole).conns x hx).peer).fine
    rw [this] at e; cases e

end Gringo.Survive
