import Verif.Spec.Isolation
import Verif.Props.FullRest
import Verif.Props.Survive
import Verif.Props.FullWitness
/-
C130: what one peer is answered does not depend on the others.
-/
namespace Gringo.Props
open Gringo.Spec Gringo.P2P

variable {E : Env}

namespace Isolation

theorem alike_symm {m m' : Message E} (h : Alike m m') : Alike m' m := by
  rcases h with rfl | ⟨p, p', rfl, rfl⟩
  · exact .inl rfl
  · exact .inr ⟨p', p, rfl, rfl⟩

theorem agree_symm {l l' : List (Message E)} (h : Agree l l') : Agree l' l := by
  unfold Agree at *
  refine List.Forall₂.flip ?_
  exact h.imp fun _ _ => alike_symm

/-- Shorter lists agree too. -/
theorem agree_left {a b l' : List (Message E)} (h : Agree (a ++ b) l') : Agree a l' := by
  unfold Agree at *
  have := List.forall₂_take a.length h
  rw [List.take_take, List.take_take] at this
  rw [show min a.length (a ++ b).length = a.length by simp] at this
  rw [Nat.min_comm, ← List.take_take, List.take_left'] at this
  · exact this
  · rfl

theorem agree_both {a b a' b' : List (Message E)} (h : Agree (a ++ b) (a' ++ b')) : Agree a a' :=
  agree_symm (agree_left (agree_symm (agree_left h)))

theorem agree_cons {m m' : Message E} {l l' : List (Message E)} (hm : Alike m m') (h : Agree l l') : Agree (m :: l) (m' :: l') := by
  unfold Agree at *
  exact .cons hm h

theorem agree_nil (l : List (Message E)) : Agree [] l := by
  unfold Agree
  simp

theorem nil_agree (l : List (Message E)) : Agree l [] := agree_symm (agree_nil l)

/-- Frames are read back in one way. -/
theorem frames_agree (hmem : 20000000 ≤ E.maxAlloc) (fs fs' : List (GoodFrame E)) (r r' : Bytes)
    (h : streamOf fs ++ r = streamOf fs' ++ r') : messagesOf fs <+: messagesOf fs' ∨ messagesOf fs' <+: messagesOf fs := by
  induction fs generalizing fs' with
  | nil => exact .inl (List.nil_prefix)
  | cons f fs ih =>
    cases fs' with
    | nil => exact .inr (List.nil_prefix)
    | cons g fs' =>
      simp only [streamOf, List.flatMap_cons, List.append_assoc] at h
      have h1 := readStep_good E hmem f.type f.body f.msg f.size f.carries (streamOf fs ++ r)
      have h2 := readStep_good E hmem g.type g.body g.msg g.size g.carries (streamOf fs' ++ r')
      rw [show frameBytes f.type f.body ++ (streamOf fs ++ r) = frameBytes g.type g.body ++ (streamOf fs' ++ r') from h, h2] at h1
      injection h1 with e1 e2 e3
      simp only [messagesOf, List.flatMap_cons, e1]
      exact (ih fs' e3.symm).imp (List.prefix_append_right_inj _).2 (List.prefix_append_right_inj _).2

/-- Messages that came over the wire. -/
def Wire (ms : List (Message E)) : Prop := ∀ m, .getBlock m ∈ ms → m.hash ≠ []

theorem wire_of (fs : List (GoodFrame E)) : Wire (messagesOf fs) := by
  intro m hm
  obtain ⟨f, -, hf⟩ := List.mem_flatMap.1 hm
  obtain ⟨t, b, msg, size, carries⟩ := f
  have hf : msg = some (.getBlock m) := Option.mem_toList.1 hf
  subst hf
  cases carries with
  | getBlock _ r _ h =>
    have : m.hash.length = 32 := by
      obtain ⟨a, t, h1, h2⟩ := cont_eq_ok h
      cases h2
      exact (Rd.readFull_ok h1).2
    intro e
    rw [e] at this
    cases this

/-- Answers are determined by the questions. -/
theorem answers_det {c : Chain E} {st : Storage E} {hd : Bytes} {ms t : List (Message E)} {es es' : List (Effect E)}
    (h : Answered c st hd ms es) (h' : Answered c st hd (ms ++ t) es') (hw : Wire (ms ++ t)) :
    ∃ pre post, answersOf es' = pre ++ post ∧ List.Forall₂ Alike (answersOf es) pre ∧ (t = [] → post = []) := by
  have relays : ∀ {b : Block E} {rs : List (Effect E)} (es : List (Effect E)), (∀ x ∈ rs, ∃ a n, x = .relay a n b) →
      answersOf (rs ++ es) = answersOf es := by
    intro b rs es hr
    induction rs with
    | nil => rfl
    | cons r rs ih =>
      obtain ⟨a, n, rfl⟩ := hr r (by simp)
      exact ih fun x hx => hr x (by simp [hx])
  have cons : ∀ {m m' : Message E} {l l' : List (Message E)}, Alike m m' →
      (∃ pre post, l' = pre ++ post ∧ List.Forall₂ Alike l pre ∧ (t = [] → post = [])) →
      ∃ pre post, m' :: l' = pre ++ post ∧ List.Forall₂ Alike (m :: l) pre ∧ (t = [] → post = []) := by
    rintro m m' l l' ha ⟨pre, post, h1, h2, h3⟩
    exact ⟨m' :: pre, post, by rw [h1]; rfl, .cons ha h2, h3⟩
  induction h generalizing es' with
  | nil =>
    refine ⟨[], _, rfl, .nil, ?_⟩
    rintro rfl
    cases h'
    rfl
  | _ =>
    rename_i ih
    have hw' : Wire (_ ++ t) := fun m hm => hw m (List.mem_cons_of_mem _ hm)
    cases h' <;> first
      | exact ih ‹_› hw'
      | exact cons (.inl rfl) (ih ‹_› hw')
      | exact cons (.inr ⟨_, _, rfl, rfl⟩) (ih ‹_› hw')
      | (rename_i h1 _ _ _ _ _ h2 h3
         rw [h1] at h2
         cases h2
         exact cons (.inl rfl) (ih h3 hw'))
      | (rename_i h2 h3
         rcases h2 with h2 | h2
         · exact absurd h2 (hw _ (by simp))
         · simp_all)
      | (rename_i h1 _ _ _ _ _ h2 h3
         rcases h1 with h1 | h1
         · exact absurd h1 (hw _ (by simp))
         · rw [h1] at h2; cases h2)
      | (rename_i h1 _ _ _ _ _ h2 h3
         rw [relays _ h1, relays _ h2]
         exact ih h3 hw')

theorem frames_eq (hmem : 20000000 ≤ E.maxAlloc) (fs fs' : List (GoodFrame E)) (r r' : Bytes)
    (h : streamOf fs ++ r = streamOf fs' ++ r') (hr : ∀ g : GoodFrame E, ¬ frameBytes g.type g.body <+: r)
    (hr' : ∀ g : GoodFrame E, ¬ frameBytes g.type g.body <+: r') : messagesOf fs = messagesOf fs' := by
  induction fs generalizing fs' with
  | nil =>
    cases fs' with
    | nil => rfl
    | cons g fs' =>
      refine absurd ⟨streamOf fs' ++ r', ?_⟩ (hr g)
      simp only [streamOf, List.flatMap_nil, List.nil_append, List.flatMap_cons, List.append_assoc] at h
      exact h.symm
  | cons f fs ih =>
    cases fs' with
    | nil =>
      refine absurd ⟨streamOf fs ++ r, ?_⟩ (hr' f)
      simp only [streamOf, List.flatMap_nil, List.nil_append, List.flatMap_cons, List.append_assoc] at h
      exact h
    | cons g fs' =>
      simp only [streamOf, List.flatMap_cons, List.append_assoc] at h
      have h1 := readStep_good E hmem f.type f.body f.msg f.size f.carries (streamOf fs ++ r)
      have h2 := readStep_good E hmem g.type g.body g.msg g.size g.carries (streamOf fs' ++ r')
      rw [show frameBytes f.type f.body ++ (streamOf fs ++ r) = frameBytes g.type g.body ++ (streamOf fs' ++ r') from h, h2] at h1
      injection h1 with e1 e2 e3
      have := ih fs' e3.symm
      simp only [messagesOf, List.flatMap_cons, e1] at this ⊢
      rw [this]

/-- Only answers tell. -/
theorem telling {u : Full.Setup} {s : Full.State E} {x : Whole.Conn (Message E)} {re : List (Message E)} (h : Answers u s x re) :
    x.peer.accepted.filter isTelling = re.filter isTelling := by
  obtain ⟨h1, un, h2, h3⟩ := h
  have hl := (h2.filter isTelling).length_eq
  have : un.filter isTelling = [] := by
    rw [List.filter_eq_nil_iff]
    intro m hm
    rcases h3 m hm with e | ⟨b, rfl, -⟩
    · cases m <;> simp_all [isHello, isTelling]
    · simp [isTelling]
  rw [List.filter_append, this, List.nil_append] at hl
  exact ((h1.filter isTelling).eq_of_length hl).symm

theorem agree_of {l pre post : List (Message E)} (h : List.Forall₂ Alike l pre) : Agree l (pre ++ post) := by
  unfold Agree
  rw [h.length_eq, List.take_left' rfl, List.take_of_length_le (by rw [h.length_eq]; simp)]
  exact h

end Isolation

section
variable (hmem : 20000000 ≤ E.maxAlloc) (chain : Chain E) (storage : Storage E) (headHash : Bytes)
  (hh : HasHash chain.head headHash)
  (u : Full.Setup) (mempool : Option (Transaction E → Out Unit)) (nonces : NonceList) (s : Full.State E)
  (h : Full.Reachable u chain storage mempool nonces s) (x : Whole.Conn (Message E)) (hx : x ∈ s.prog.pool.conns)
include hmem hh h hx

omit hmem in
/-- What came in is a shake and what was left to the read handler. -/
theorem Isolation.parse : ∃ (sh : Shake) (len : Nat), GoodShake sh len ∧
    cameOn s x.id = [0x54, 0x34, 2] ++ be 8 len ++ shakeBody sh ++ (s.prog.io x.id).arrived := by
  have hi := Full.inv_reachable hh h
  obtain ⟨sh, hsh⟩ := Option.ne_none_iff_exists'.1 (hi.conns x hx)
  obtain ⟨-, g2, g3, -, len, g0, g5, g6⟩ := hi.shaken x.id sh hsh
  refine ⟨sh, len, ⟨g2, g3, ?_, g0, g5⟩, g6⟩
  simp only [shakeBody, List.length_append] at g0
  omega

variable (u' : Full.Setup) (mempool' : Option (Transaction E → Out Unit)) (nonces' : NonceList) (s' : Full.State E)
  (h' : Full.Reachable u' chain storage mempool' nonces' s') (x' : Whole.Conn (Message E)) (hx' : x' ∈ s'.prog.pool.conns)
include h' hx'

theorem Isolation.arrived (hc : cameOn s x.id <+: cameOn s' x'.id) :
    (s.prog.io x.id).arrived <+: (s'.prog.io x'.id).arrived := by
  obtain ⟨sh, len, g1, g2⟩ := Isolation.parse chain storage headHash hh u mempool nonces s h x hx
  obtain ⟨sh', len', g1', g2'⟩ := Isolation.parse chain storage headHash hh u' mempool' nonces' s' h' x' hx'
  obtain ⟨t, ht⟩ := hc
  rw [g2, g2'] at ht
  simp only [List.append_assoc] at ht
  have e := Survive.strip (by simpa only [List.append_assoc] using ht)
  have r1 := Survive.shake_read g1 hmem ((s.prog.io x.id).arrived ++ t)
  rw [e, Survive.shake_read g1' hmem] at r1
  injection r1 with r1 r2
  exact ⟨t, r2.symm⟩

/-- **C130, never different.** Take any two runs of nodes with the same chain, with whatever peers, networks and schedules,
and a connection of each. If what came in on the one begins with what came in on the other, then the answers that were
sent are the same, one by one, as far as both go; except that lists of addresses may differ. -/
theorem C130_alike (hc : cameOn s x.id <+: cameOn s' x'.id) :
    ∃ re re', Answers u s x re ∧ Answers u' s' x' re' ∧ Agree re re' := by
  obtain ⟨d, hp⟩ := (Full.inv_reachable hh h).prog
  obtain ⟨d', hp'⟩ := (Full.inv_reachable hh h').prog
  obtain ⟨-, -, un, re, c3, c4, c5, fs, ms, unh, es, late, c6, c7, c8, c9, -, -⟩ :=
    C124_what_a_peer_sees u.remote chain storage mempool headHash hh _ hp x hx
  obtain ⟨-, -, un', re', c3', c4', c5', fs', ms', unh', es', late', c6', c7', c8', c9', -, -⟩ :=
    C124_what_a_peer_sees u'.remote chain storage mempool' headHash hh _ hp' x' hx'
  refine ⟨re, re', ⟨c4, un, c3, c5⟩, ⟨c4', un', c3', c5'⟩, ?_⟩
  obtain ⟨t, ht⟩ := Isolation.arrived hmem chain storage headHash hh u mempool nonces s h x hx u' mempool' nonces' s' h' x' hx' hc
  have c6 : (s.prog.io x.id).arrived = _ := c6
  have c6' : (s'.prog.io x'.id).arrived = _ := c6'
  rw [c6, c6', List.append_assoc] at ht
  refine Isolation.agree_both (b := late) (b' := late') ?_
  rw [← c9, ← c9']
  have w := Isolation.wire_of fs
  have w' := Isolation.wire_of fs'
  have p1 : ms <+: messagesOf fs := ⟨_, c7.symm⟩
  have p2 : ms' <+: messagesOf fs' := ⟨_, c7'.symm⟩
  have cmp : ms <+: ms' ∨ ms' <+: ms := by
    rcases Isolation.frames_agree hmem fs fs' _ _ ht with e | e
    · exact List.prefix_or_prefix_of_prefix (p1.trans e) p2
    · exact List.prefix_or_prefix_of_prefix p1 (p2.trans e)
  rcases cmp with ⟨v, rfl⟩ | ⟨v, rfl⟩
  · obtain ⟨pre, post, a1, a2, -⟩ := Isolation.answers_det c8 c8' (fun m hm => w' m (p2.subset hm))
    rw [a1]
    exact Isolation.agree_of a2
  · obtain ⟨pre, post, a1, a2, -⟩ := Isolation.answers_det c8' c8 (fun m hm => w m (p1.subset hm))
    rw [a1]
    exact Isolation.agree_symm (Isolation.agree_of a2)

/-- **C130, the same in the end.** If the same bytes have come in on the two connections, and both nodes are at rest, both
connections open, and their read loops not in `Ban`, then all answers have been written, and they are the same, one by
one; except that lists of addresses may differ. What the nodes have told the two peers about their chain is the same. -/
theorem C130_same (hc : cameOn s x.id = cameOn s' x'.id)
    (hd : s.prog.dead = false) (hp : s.prog.pool.panicked = false) (hrest : FullAtRest u s)
    (hf : x.peer.flag = false) (hb : ¬ InBan s.prog x)
    (hd' : s'.prog.dead = false) (hp' : s'.prog.pool.panicked = false)
    (hrest' : FullAtRest u' s') (hf' : x'.peer.flag = false) (hb' : ¬ InBan s'.prog x') :
    (∃ re re', Answers u s x re ∧ Answers u' s' x' re' ∧ List.Forall₂ Alike re re' ∧
      AllWritten x.peer.accepted x.peer.wire ∧ AllWritten x'.peer.accepted x'.peer.wire) ∧
    x.peer.accepted.filter isTelling = x'.peer.accepted.filter isTelling := by
  have key : ∀ {u : Full.Setup} {mempool : Option (Transaction E → Out Unit)} {nonces : NonceList} {s : Full.State E}
      {x : Whole.Conn (Message E)}, Full.Reachable u chain storage mempool nonces s → x ∈ s.prog.pool.conns →
      s.prog.dead = false → s.prog.pool.panicked = false → FullAtRest u s →
      x.peer.flag = false → ¬ InBan s.prog x →
      ∃ re fs es, Answers u s x re ∧ AllWritten x.peer.accepted x.peer.wire ∧
        (s.prog.io x.id).arrived = streamOf fs ++ (s.prog.io x.id).inbox ∧
        (∀ g : GoodFrame E, ¬ frameBytes g.type g.body <+: (s.prog.io x.id).inbox) ∧
        Answered chain storage headHash (messagesOf fs) es ∧ answersOf es = re := by
    intro u mempool nonces s x h hx hd hp hrest hf hb
    have hi := Full.inv_reachable hh h
    have hpr := hi.alive hd
    have hprest : ProgramAtRest u.remote s.prog := fun q hq => hrest _ (Full.lift_work (Program.inv_reachable hpr) hq)
    obtain ⟨-, -, un, re, c3, c4, c5, fs, ms, unh, es, late, c6, c7, c8, c9, c10, c11⟩ :=
      C124_what_a_peer_sees u.remote chain storage mempool headHash hh _ hpr x hx
    have r1 := Program.reader_rest hpr hd hp hprest hx hf
    have r2 := (Program.task_rest hpr hd hp hprest hx r1 (Bool.eq_false_iff.2 fun e => hb (.inr e))).resolve_right
      (Program.not_held hpr hx hf)
    obtain ⟨w1, -, w3⟩ := ((C127_at_rest hmem u.remote chain storage mempool headHash hh s.prog hpr hd hp hprest).1 x hx).2 hf
    obtain ⟨-, -, -, w4, -⟩ := w3.resolve_left hb
    have e1 : unh = [] := by
      refine c10.resolve_right ?_
      rintro ⟨m, -, e | ⟨d, e⟩⟩
      · rw [r2] at e; cases e
      · rw [r1] at e; cases e
    have e2 : late = [] := by
      refine c11.resolve_right ?_
      rintro ⟨m, -, e | e⟩
      · rw [r1] at e; cases e
      · rw [hf] at e; cases e
    subst e1 e2
    rw [List.append_nil] at c7 c9
    exact ⟨re, fs, es, ⟨c4, un, c3, c5⟩, w1, c6, w4, c7 ▸ c8, c9⟩
  obtain ⟨re, fs, es, a1, a2, a3, a4, a5, a6⟩ := key h hx hd hp hrest hf hb
  obtain ⟨re', fs', es', a1', a2', a3', a4', a5', a6'⟩ := key h' hx' hd' hp' hrest' hf' hb'
  have ar : (s.prog.io x.id).arrived = (s'.prog.io x'.id).arrived := by
    have p1 := Isolation.arrived hmem chain storage headHash hh u mempool nonces s h x hx u' mempool' nonces' s' h' x' hx'
      (hc ▸ List.prefix_refl _)
    have p2 := Isolation.arrived hmem chain storage headHash hh u' mempool' nonces' s' h' x' hx' u mempool nonces s h x hx
      (hc ▸ List.prefix_refl _)
    exact p1.eq_of_length (Nat.le_antisymm p1.length_le p2.length_le)
  rw [a3, a3'] at ar
  have em := Isolation.frames_eq hmem fs fs' _ _ ar a4 a4'
  rw [← em] at a5'
  obtain ⟨pre, post, b1, b2, b3⟩ := Isolation.answers_det (t := []) a5 (by rwa [List.append_nil])
    (by rw [List.append_nil]; exact Isolation.wire_of fs)
  rw [b3 rfl, List.append_nil, a6'] at b1
  rw [a6, ← b1] at b2
  refine ⟨⟨re, re', a1, a1', b2, a2, a2'⟩, ?_⟩
  rw [Isolation.telling a1, Isolation.telling a1']
  clear a6 a6' b1 a1 a1'
  induction b2 with
  | nil => rfl
  | cons ha _ ih =>
    rcases ha with rfl | ⟨p, p', rfl, rfl⟩
    · rw [List.filter_cons, List.filter_cons, ih]
    · exact ih

end

/-- `C130_alike` and `C130_same`: two nodes, one of which takes transactions, have had the same ping. -/
example (w : World) (hw : Program.Real w) : ∃ (s s' : Full.State Toy.env) (x x' : Whole.Conn (Message Toy.env)),
    s.prog.mempool ≠ s'.prog.mempool ∧
    x.peer.accepted.filter isTelling = [.pong ⟨10, 0⟩] ∧ x'.peer.accepted.filter isTelling = [.pong ⟨10, 0⟩] ∧
    ∃ re re', Answers oneSetup s x re ∧ Answers oneSetup s' x' re' ∧ Agree re re' ∧ List.Forall₂ Alike re re' := by
  obtain ⟨-, -, s, x, t1, t2, t3, -, t5, t6, t7, t8, t9, t10, -, -, -, -, -, t11, -⟩ :=
    greeted_run toyNode.chain toyNode.storage none _ (Full.closed toyNode_head) w hw (by decide) pingFrame rfl
  obtain ⟨-, -, s', x', r1, r2, r3, -, r5, r6, r7, r8, r9, r10, -, -, -, -, -, r11, -⟩ :=
    greeted_run toyNode.chain toyNode.storage (some fun _ => .ok ()) _ (Full.closed toyNode_head) w hw (by decide) pingFrame rfl
  have hx : x ∈ s.prog.pool.conns := by rw [t6]; simp
  have hx' : x' ∈ s'.prog.pool.conns := by rw [r6]; simp
  have hc : cameOn s x.id = cameOn s' x'.id := by rw [t7, r7, t10, r10]
  have key := C130_same (by decide) _ _ _ toyNode_head oneSetup none someNonces s t1 x hx oneSetup _ someNonces s' r1 x' hx' hc
    t2 t3 t5 t8 t9 r2 r3 r5 r8 r9
  have m1 := (Program.inv_reachable ((Full.inv_reachable toyNode_head t1).alive t2)).same.2.2
  have m2 := (Program.inv_reachable ((Full.inv_reachable toyNode_head r1).alive r2)).same.2.2
  obtain ⟨⟨re, re', k1, k2, k3, -⟩, -⟩ := key
  refine ⟨s, s', x, x', by rw [m1, m2]; simp, by rw [t11]; rfl, by rw [r11]; rfl, re, re', k1, k2, ?_, k3⟩
  have := Isolation.agree_of (post := []) k3
  rwa [List.append_nil] at this

end Gringo.Props
