import Verif.Model.Talk
import Verif.Spec.Talk
import Verif.Props.Session
import Verif.Props.Lifecycle
/-
Helper lemmas for Props/Talk.lean.
-/
namespace Gringo.Talk
open Gringo.P2P Gringo.Spec Gringo.Lifecycle Gringo.Props

variable {E : Env}

/-! ### The goroutines: this is a run of Model/Lifecycle.lean -/

theorem peer_reachable {others : Node E → Node E → Prop} {f : Sender} {node : Node E} {s : State E}
    (h : Reachable others f node s) : Lifecycle.Reachable frame s.peer := by
  induction h with
  | new => exact .new
  | @step s s' _ _ hs ih =>
    have go : ∀ (a : Act (Message E)), s.peer.reader = .reading →
        Lifecycle.Reachable frame { s.peer with reader := .handling a } :=
      fun a hr => .step ih (.deliver _ a hr)
    cases hs with
    | inner k p hd h1 hr hb hw => exact .step ih h1
    | skip c rest hd hr ht h => exact .step (go .nothing hr) (.handleNothing _ rfl)
    | process w m hd hr ht he ha => exact .step (go .nothing hr) (.handleNothing _ rfl)
    | answer w m a hd hr ht he ha => exact .step (go (.reply a) hr) (.handleReply _ a rfl)
    | ban w m hd hr ht he => exact .step (go .close hr) (.handleClose _ rfl)
    | _ => exact ih

theorem quit_flag {p : Peer (Message E)} (h : Lifecycle.Reachable frame p) (hq : 0 < p.quit) : p.flag = true := by
  have h1 := (inv_reachable h).quit
  cases hf : p.flag with
  | true => rfl
  | false => rw [hf] at h1; simp at h1; omega

/-! ### What the read handler owes -/

/-- The answer that is not accepted yet, by where the read handler is. -/
def Late (flag : Bool) (late : List (Message E)) : Reader (Message E) → Prop
  | .replying m => late = [m]
  | .loop | .stopping | .leaving _ => late = [] ∨ (flag = true ∧ late.length = 1)
  | .handling _ => False
  | _ => late = []

/-- The message that is lost in a `Ban` of the connection itself. -/
def Lost (lost : List (Message E)) : Reader (Message E) → Prop
  | .closing _ => lost.length ≤ 1
  | _ => lost = []

theorem late_flag {flag : Bool} {late : List (Message E)} {r : Reader (Message E)} (h : Late flag late r) :
    Late true late r := by
  cases r with
  | loop | stopping | leaving => exact h.imp id fun x => ⟨rfl, x.2⟩
  | _ => exact h

/-- One step of the goroutines, for the answers. -/
theorem late_step {k : Kind} {p q : Peer (Message E)} (hr : Lifecycle.Reachable frame p)
    (hs : Lifecycle.Step frame k p q)
    (h1 : p.reader = .reading → q.reader = .reading ∨ q.reader = .stopping)
    (h2 : p.reader = .closing .returned → q.reader = .closing .returned)
    {late lost : List (Message E)} (hl : Late p.flag late p.reader) (ho : Lost lost p.reader) :
    ∃ late', p.replies ++ late = q.replies ++ late' ∧ Late q.flag late' q.reader ∧ Lost lost q.reader := by
  have keep : ∀ {d d' : Disc} {z : Peer (Message E)}, DiscStep d p d' z →
      z.replies = p.replies ∧ z.reader = p.reader ∧ (z.flag = p.flag ∨ z.flag = true) := by
    intro d d' z hd; cases hd <;> simp [Peer.closeQuit]
  have fl : ∀ {b : Bool} {r : Reader (Message E)}, b = p.flag ∨ b = true → Late p.flag late r → Late b late r := by
    intro b r hb h
    rcases hb with rfl | rfl
    · exact h
    · exact late_flag h
  cases hs with
  | start _ a b => rw [a] at hl ho; exact ⟨late, rfl, .inl hl, ho⟩
  | loopGo _ a b =>
    rw [a] at hl ho
    rcases hl with rfl | ⟨x, -⟩
    · exact ⟨[], rfl, rfl, ho⟩
    · rw [b] at x; cases x
  | loopEnd _ a b => rw [a] at hl ho; exact ⟨late, rfl, hl, ho⟩
  | deliver _ x a => rcases h1 a with h | h <;> cases h
  | readFail _ a => rw [a] at hl ho; exact ⟨late, rfl, .inl hl, ho⟩
  | readClosed _ a b => rw [a] at hl ho; exact ⟨late, rfl, .inl hl, ho⟩
  | handleNothing _ a => rw [a] at hl; exact hl.elim
  | handleReply _ m a => rw [a] at hl; exact hl.elim
  | handleClose _ a => rw [a] at hl; exact hl.elim
  | replyQuit _ m a b =>
    rw [a] at hl ho
    have hl' : late = [m] := hl
    subst hl'
    have hf := quit_flag hr b
    exact ⟨[m], rfl, .inr ⟨hf, rfl⟩, ho⟩
  | replyTaken _ m a b =>
    rw [a] at hl ho
    have hl' : late = [m] := hl
    subst hl'
    exact ⟨[], by simp, .inl rfl, ho⟩
  | closingStep _ s0 d d' a b =>
    obtain ⟨e1, -, -⟩ := keep b
    rw [a] at hl ho
    exact ⟨late, by rw [← e1], hl, ho⟩
  | closingEnd _ a => have := h2 a; cases this
  | readerDone _ a => rw [a] at hl ho; exact ⟨late, rfl, hl, ho⟩
  | readerLeave _ s0 d d' a b =>
    obtain ⟨e1, -, e3⟩ := keep b
    rw [a] at hl ho
    exact ⟨late, by rw [← e1], fl (r := .leaving d') e3 hl, ho⟩
  | writerLeave _ s0 d d' a b =>
    obtain ⟨e1, e2, e3⟩ := keep b
    exact ⟨late, by rw [← e1], by rw [← e2] at hl; exact fl e3 hl, by rw [← e2] at ho; exact ho⟩
  | threadDisc _ s0 l r d d' a b =>
    obtain ⟨e1, e2, e3⟩ := keep b
    exact ⟨late, by rw [← e1], by rw [← e2] at hl; exact fl e3 hl, by rw [← e2] at ho; exact ho⟩
  | _ => exact ⟨late, rfl, hl, ho⟩

theorem answersOf_append (a b : List (Effect E)) : answersOf (a ++ b) = answersOf a ++ answersOf b := by
  induction a with
  | nil => rfl
  | cons x a ih =>
    cases x with
    | reply r => cases r <;> simp [answersOf, ih]
    | relay a c b => simp [answersOf, ih]

/-- A call of `ProcessMessage` answers at most once. -/
theorem process_one (w : World) (node : Node E) (f : Sender) (m : Message E) :
    answersOf (processMessage w node f m).effects = (answer (processMessage w node f m).effects).toList := by
  have relays : ∀ (l : List (String × Nat)) (b : Block E),
      answersOf (l.map fun x : String × Nat => Effect.relay x.1 x.2 b) = [] ∧
      answer (l.map fun x : String × Nat => Effect.relay x.1 x.2 b) = none := by
    intro l b
    induction l with
    | nil => exact ⟨rfl, rfl⟩
    | cons x l ih => exact ih
  unfold processMessage
  split
  · rfl
  cases m with
  | ping m => rfl
  | pong m => rfl
  | getPeerAddrs m => rfl
  | peerAddrs m => rfl
  | getHeaders m => simp only [handle]; split <;> rfl
  | header m => simp only [handle]; split <;> rfl
  | headers m =>
    simp only [handle]
    rcases orBan_cases w node f (Chain.processHeaders E m.headers) (fun node => { node, effects := [], ended := .done })
      with h | ⟨-, h, -⟩ <;> rw [h] <;> rfl
  | getBlock m => simp only [handle]; split <;> rfl
  | block b =>
    simp only [handle]
    rcases orBan_cases w { node with chain := (node.chain.processBlock node.storage b).2 } f
        (node.chain.processBlock node.storage b).1 (fun node =>
        let node := { node with table := node.table.update f.addr (blockRecord b) }
        { node
          effects := if b.header.height = node.chain.height then
              (relayTargets node.table node.online b.header.height b.header.totalDifficulty).map fun (a, c) =>
                .relay a c b
            else []
          ended := .done }) with h | ⟨-, h, -⟩
    · rw [h]
      simp only
      split
      · rw [(relays _ _).1, (relays _ _).2]; rfl
      · rfl
    · rw [h]; rfl
  | transaction t =>
    simp only [handle]
    split
    · rfl
    · rename_i tx _
      rcases orBan_cases w node f (tx t) (fun node => { node, effects := [], ended := .done })
        with h | ⟨-, h, -⟩ <;> rw [h] <;> rfl

/-- Answers to some messages, and to some more. -/
theorem answered_append {c : Chain E} {st : Storage E} {hh : Bytes} {ms ms' : List (Message E)}
    {es es' : List (Effect E)} (h : Answered c st hh ms es) (h' : Answered c st hh ms' es') :
    Answered c st hh (ms ++ ms') (es ++ es') := by
  induction h with
  | nil => exact h'
  | ping m h ih => exact .ping m ih
  | getPeerAddrs m p hp h ih => exact .getPeerAddrs m p hp ih
  | getHeaders m h ih => exact .getHeaders m ih
  | getBlock m b hb h ih => exact .getBlock m b hb ih
  | getBlockUnknown m hb h ih => exact .getBlockUnknown m hb ih
  | pong m h ih => exact .pong m ih
  | peerAddrs m h ih => exact .peerAddrs m ih
  | header m h ih => exact .header m ih
  | headers m h ih => exact .headers m ih
  | transaction m h ih => exact .transaction m ih
  | block b relays hr h ih => rw [List.append_assoc]; exact .block b relays hr ih

/-- The invariant of the reading side. -/
structure In (node : Node E) (headHash : Bytes) (s : State E) : Prop where
  leaves : LeavesEntries node s.node
  task : s.task ≠ none → s.peer.reader = .reading
  owes : ∃ (fs : List (GoodFrame E)) (ms : List (Message E)) (es : List (Effect E)) (late lost : List (Message E)),
    s.arrived = streamOf fs ++ s.inbox ∧ messagesOf fs = ms ++ (s.task.toList ++ lost) ∧
    Answered node.chain node.storage headHash ms es ∧ answersOf es = s.peer.replies ++ late ∧
    Late s.peer.flag late s.peer.reader ∧ Lost lost s.peer.reader

theorem in_reachable {others : Node E → Node E → Prop} (ho : ∀ a b, others a b → LeavesEntries a b) {f : Sender}
    {node : Node E} {headHash : Bytes} (hh : HasHash node.chain.head headHash) (known : Known node f) {s : State E}
    (h : Reachable others f node s) : In node headHash s := by
  induction h with
  | new =>
    exact ⟨⟨rfl, rfl, rfl, fun _ h => h⟩, fun h => absurd rfl h,
      [], [], [], [], [], rfl, rfl, .nil, rfl, rfl, rfl⟩
  | @step s s' _ hr0 hs ih =>
    obtain ⟨hlv, htk, fs, ms, es, late, lost, harr, hms, hans, hrep, hlate, hlost⟩ := ih
    have known' : ∀ {n : Node E}, LeavesEntries node n → Known n f := fun h => h.2.2.2 _ known
    have hproc : ∀ (w : World) (m : Message E), (processMessage w s.node f m).ended = .done →
        Answered node.chain node.storage headHash [m] (processMessage w s.node f m).effects := by
      intro w m he
      have := (process_answers w s.node f m headHash (by rw [hlv.1]; exact hh) (known' hlv)).1 he [] [] .nil
      rw [hlv.1, hlv.2.1, List.append_nil] at this
      exact this
    cases hs with
    | others n hd h =>
      exact ⟨leaves_trans hlv (ho _ _ h), htk, fs, ms, es, late, lost, harr, hms, hans, hrep, hlate, hlost⟩
    | arrive bs hd =>
      exact ⟨hlv, htk, fs, ms, es, late, lost, by simp only [harr, List.append_assoc], hms, hans, hrep, hlate, hlost⟩
    | inner k p hd h1 hr hb hw =>
      obtain ⟨late', e1, e2, e3⟩ := late_step (peer_reachable hr0) h1
        (fun x => (hr x).imp id And.right) hb hlate hlost
      refine ⟨hlv, ?_, fs, ms, es, late', lost, harr, hms, hans, by rw [hrep, e1], e2, e3⟩
      intro ht
      rcases hr (htk ht) with h | ⟨h, -⟩
      · exact h
      · exact absurd h ht
    | skip c rest hd hr ht h =>
      obtain ⟨t, body, hsz, hc, e⟩ := readStep_next E h
      rw [hr] at hlate hlost
      refine ⟨hlv, fun h => absurd ht h, fs ++ [⟨t, body, none, hsz, hc⟩], ms, es, late, lost, ?_, ?_, hans, hrep,
        .inl hlate, hlost⟩
      · simp only [harr, e]; simp [streamOf]
      · simp only [messagesOf, List.flatMap_append] at hms ⊢
        rw [hms]; simp
    | read m c rest hd hr ht h =>
      obtain ⟨t, body, hsz, hc, e⟩ := readStep_next E h
      have hlost' := hlost
      rw [hr] at hlost'
      have hl0 : lost = [] := hlost'
      subst hl0
      refine ⟨hlv, fun _ => hr, fs ++ [⟨t, body, some m, hsz, hc⟩], ms, es, late, [], ?_, ?_, hans, hrep, hlate,
        hlost⟩
      · simp only [harr, e]; simp [streamOf]
      · simp only [messagesOf, List.flatMap_append] at hms ⊢
        rw [hms, ht]; simp
    | process w m hd hr ht he ha =>
      rw [hr] at hlate hlost
      have hl0 : lost = [] := hlost
      have hl1 : late = [] := hlate
      subst hl0 hl1
      refine ⟨leaves_trans hlv (process_leaves w s.node f m), fun h => absurd rfl h, fs, ms ++ [m],
        es ++ (processMessage w s.node f m).effects, [], [], harr, ?_, answered_append hans (hproc w m he), ?_,
        .inl rfl, rfl⟩
      · rw [hms, ht]; simp
      · rw [answersOf_append, hrep, process_one, ha]; simp
    | answer w m a hd hr ht he ha =>
      rw [hr] at hlate hlost
      have hl0 : lost = [] := hlost
      have hl1 : late = [] := hlate
      subst hl0 hl1
      refine ⟨leaves_trans hlv (process_leaves w s.node f m), fun h => absurd rfl h, fs, ms ++ [m],
        es ++ (processMessage w s.node f m).effects, [a], [], harr, ?_, answered_append hans (hproc w m he), ?_,
        rfl, rfl⟩
      · rw [hms, ht]; simp
      · rw [answersOf_append, hrep, process_one, ha]; simp
    | ban w m hd hr ht he =>
      rw [hr] at hlate hlost
      have hl0 : lost = [] := hlost
      subst hl0
      refine ⟨leaves_trans hlv (process_leaves w s.node f m), fun h => absurd rfl h, fs, ms, es, late, [m], harr, ?_,
        hans, hrep, hlate, Nat.le_refl 1⟩
      rw [hms, ht]; simp
    | _ => exact ⟨hlv, htk, fs, ms, es, late, lost, harr, hms, hans, hrep, hlate, hlost⟩

/-! ### What is written -/

/-- A message that can be serialised. -/
def Ser (m : Message E) : Prop := ∃ b, m.frame = .ok b

/-- The invariant of the writing side. -/
structure OutOf (p : Peer (Message E)) : Prop where
  out : ∃ done cur x, p.accepted = done ++ cur ∧ p.wire = done.flatMap frame ++ x ∧ (∀ m ∈ done, Ser m) ∧
    match p.writer with
    | .notStarted | .select => cur = [] ∧ x = []
    | .got m => cur = [m] ∧ x = []
    | .writing m rest => cur = [m] ∧ Ser m ∧ x ++ rest = frame m
    | .stopping | .leaving _ => x = [] ∧ cur.length ≤ 1 ∨ ∃ m q, cur = [m] ∧ Ser m ∧ x ++ q = frame m
  sub : p.replies.Sublist p.accepted

theorem out_step' {k : Kind} {p q : Peer (Message E)} (hs : Lifecycle.Step frame k p q)
    (hw : ∀ m r, p.writer = .got m → q.writer = .writing m r → Ser m) (h : OutOf p) : OutOf q := by
  obtain ⟨⟨done, cur, x, ha, hx, hd, hh⟩, ho⟩ := h
  have keep : ∀ {d d' : Disc} {z : Peer (Message E)}, DiscStep d p d' z →
      z.writer = p.writer ∧ z.accepted = p.accepted ∧ z.replies = p.replies ∧ z.wire = p.wire := by
    intro d d' z hd; cases hd <;> exact ⟨rfl, rfl, rfl, rfl⟩
  cases hs with
  | start _ h1 h2 => rw [h2] at hh; exact ⟨⟨done, cur, x, ha, hx, hd, hh⟩, ho⟩
  | replyTaken _ m h1 h2 =>
    rw [h2] at hh
    obtain ⟨rfl, rfl⟩ := hh
    exact ⟨⟨done, [m], [], by simp only [ha, List.append_nil], hx, hd, rfl, rfl⟩, ho.append (List.Sublist.refl _)⟩
  | sendTaken _ l r m h1 h2 =>
    rw [h2] at hh
    obtain ⟨rfl, rfl⟩ := hh
    exact ⟨⟨done, [m], [], by simp only [ha, List.append_nil], hx, hd, rfl, rfl⟩,
      ho.trans (List.sublist_append_left _ _)⟩
  | closingStep _ s0 d d' h1 hz =>
    obtain ⟨k1, k2, k3, k4⟩ := keep hz
    exact ⟨⟨done, cur, x, by rw [← ha, ← k2], by rw [← hx, ← k4], hd, by rw [← k1] at hh; exact hh⟩,
      by rw [← k2, ← k3] at ho; exact ho⟩
  | readerLeave _ s0 d d' h1 hz =>
    obtain ⟨k1, k2, k3, k4⟩ := keep hz
    exact ⟨⟨done, cur, x, by rw [← ha, ← k2], by rw [← hx, ← k4], hd, by rw [← k1] at hh; exact hh⟩,
      by rw [← k2, ← k3] at ho; exact ho⟩
  | threadDisc _ s0 l r d d' h1 hz =>
    obtain ⟨k1, k2, k3, k4⟩ := keep hz
    exact ⟨⟨done, cur, x, by rw [← ha, ← k2], by rw [← hx, ← k4], hd, by rw [← k1] at hh; exact hh⟩,
      by rw [← k2, ← k3] at ho; exact ho⟩
  | writerLeave _ s0 d d' h1 hz =>
    obtain ⟨k1, k2, k3, k4⟩ := keep hz
    rw [h1] at hh
    exact ⟨⟨done, cur, x, by rw [← ha, ← k2], by rw [← hx, ← k4], hd, hh⟩, by rw [← k2, ← k3] at ho; exact ho⟩
  | gotDrop _ m h1 hf =>
    rw [h1] at hh
    obtain ⟨rfl, rfl⟩ := hh
    exact ⟨⟨done, [m], [], ha, hx, hd, .inl ⟨rfl, Nat.le_refl 1⟩⟩, ho⟩
  | gotWrite _ m h1 hf =>
    rw [h1] at hh
    obtain ⟨rfl, rfl⟩ := hh
    exact ⟨⟨done, [m], [], ha, hx, hd, rfl, hw m _ h1 rfl, rfl⟩, ho⟩
  | chunk _ m y z h1 hy hc =>
    rw [h1] at hh
    obtain ⟨rfl, hm, hp⟩ := hh
    exact ⟨⟨done, [m], x ++ y, ha, by simp only [hx, List.append_assoc], hd, rfl, hm,
      by rw [List.append_assoc]; exact hp⟩, ho⟩
  | writeFail _ m z h1 hz =>
    rw [h1] at hh
    obtain ⟨rfl, hm, hp⟩ := hh
    exact ⟨⟨done, [m], x, ha, hx, hd, .inr ⟨m, z, rfl, hm, hp⟩⟩, ho⟩
  | writeClosed _ m z h1 hz hc =>
    rw [h1] at hh
    obtain ⟨rfl, hm, hp⟩ := hh
    exact ⟨⟨done, [m], x, ha, hx, hd, .inr ⟨m, z, rfl, hm, hp⟩⟩, ho⟩
  | writeDone _ m h1 =>
    rw [h1] at hh
    obtain ⟨rfl, hm, hp⟩ := hh
    rw [List.append_nil] at hp
    subst hp
    refine ⟨⟨done ++ [m], [], [], by simp only [ha, List.append_nil], by simp [hx], ?_, rfl, rfl⟩, ho⟩
    intro z hz
    rcases List.mem_append.1 hz with hz | hz
    · exact hd z hz
    · cases List.mem_singleton.1 hz; exact hm
  | selectQuit _ h1 hq =>
    rw [h1] at hh
    obtain ⟨rfl, rfl⟩ := hh
    exact ⟨⟨done, [], [], ha, hx, hd, .inl ⟨rfl, Nat.zero_le 1⟩⟩, ho⟩
  | writerDone _ h1 => rw [h1] at hh; exact ⟨⟨done, cur, x, ha, hx, hd, hh⟩, ho⟩
  | _ => exact ⟨⟨done, cur, x, ha, hx, hd, hh⟩, ho⟩

theorem out_reachable' {others : Node E → Node E → Prop} {f : Sender} {node : Node E} {s : State E}
    (h : Reachable others f node s) : OutOf s.peer := by
  induction h with
  | new => exact ⟨⟨[], [], [], rfl, rfl, by simp, rfl, rfl⟩, List.Sublist.refl _⟩
  | step hr hs ih =>
    cases hs with
    | inner k p hd h1 hr hb hw => exact out_step' h1 hw ih
    | skip | process | answer | ban => exact ⟨ih.out, ih.sub⟩
    | _ => exact ih

theorem frame_of {m : Message E} {b : Bytes} (h : m.frame = .ok b) : frame m = b := by simp only [frame, h]

theorem frame_ne (m : Message E) : frame m ≠ [] := by
  unfold frame
  split
  · rename_i b hb
    simp only [Message.frame] at hb
    cases hv : m.bytes with
    | ok v =>
      rw [hv] at hb
      simp only [Out.bind_ok, Out.pure_def, Out.ok.injEq] at hb
      rw [← hb]
      simp [writeMessage, Header.bytes, MagicCode]
    | err _ => rw [hv] at hb; cases hb
    | panic _ => rw [hv] at hb; cases hb
    | fatal _ => rw [hv] at hb; cases hb
  · simp

theorem frames_of (l : List (Message E)) (h : ∀ m ∈ l, Ser m) :
    ∃ bs : List Bytes, List.Forall₂ (fun m b => m.frame = .ok b) l bs ∧ l.flatMap frame = bs.flatten := by
  induction l with
  | nil => exact ⟨[], .nil, rfl⟩
  | cons m l ih =>
    obtain ⟨b, hb⟩ := h m (List.mem_cons_self ..)
    obtain ⟨bs, h1, h2⟩ := ih fun x hx => h x (List.mem_cons_of_mem _ hx)
    exact ⟨b :: bs, .cons hb h1, by rw [List.flatMap_cons, h2, frame_of hb, List.flatten_cons]⟩

end Gringo.Talk
