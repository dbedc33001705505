import Verif.Proofs.Rest
import Verif.Props.Talk
/-
C123: the node gets done with what came in on a connection.
-/
namespace Gringo.Props
open Gringo.Spec Gringo.P2P Gringo.Lifecycle

variable {E : Env}

/-- **C123, it ends.** Whatever is going on on a connection: if nothing more comes from outside, and the connection takes
what is written, there is no schedule in which the work goes on for ever, and from every state work leads to rest. -/
theorem C123_ends (others : Node E → Node E → Prop) (f : Sender) (s : Talk.State E) :
    (¬ ∃ run : Nat → Talk.State E, run 0 = s ∧ ∀ i, Works others f (run i) (run (i + 1))) ∧
    ∃ s', Relation.ReflTransGen (Works others f) s s' ∧ AtRest others f s' := by
  have wf := Talk.works_wf (E := E) others f
  refine ⟨?_, ?_⟩
  · induction s using wf.induction with
    | _ s ih =>
      rintro ⟨run, e, hr⟩
      exact ih (run 1) (e ▸ hr 0) ⟨fun i => run (i + 1), rfl, fun i => hr (i + 1)⟩
  · induction s using wf.induction with
    | _ s ih =>
      by_cases h : AtRest others f s
      · exact ⟨s, .refl, h⟩
      · obtain ⟨s1, h1⟩ := not_forall.1 h
        have h1 := not_not.1 h1
        obtain ⟨s', h2, h3⟩ := ih s1 h1
        exact ⟨s', h2.head h1, h3⟩

/-- **C123, everything is answered.** When the work on a connection that was started is at rest: the process has ended, or
the connection was closed (and then everything about it has ended, unless its read loop is in `Ban`), or the bytes
that came in begin with frames all of which were handled, the rest is no complete well-formed frame, the answers to
these frames were all written, and so was every message for which another goroutine called `WriteMessage`: nothing waits, and
what the connection has taken are the frames of all accepted messages. -/
theorem C123_at_rest (hmem : 20000000 ≤ E.maxAlloc) (others : Node E → Node E → Prop)
    (ho : ∀ a b, others a b → LeavesEntries a b) (f : Sender) (node : Node E) (headHash : Bytes)
    (hh : HasHash node.chain.head headHash) (known : Known node f) (s : Talk.State E)
    (h : Talk.Reachable others f node s) (hs : s.peer.reader ≠ .notStarted) (hr : AtRest others f s) :
    s.dead = true ∨ (s.peer.flag = true ∧ (Settled s.peer ∨ s.peer.reader = .closing .waiting)) ∨
    (∃ (fs : List (GoodFrame E)) (es : List (Effect E)),
      s.arrived = streamOf fs ++ s.inbox ∧ (∀ g : GoodFrame E, ¬ frameBytes g.type g.body <+: s.inbox) ∧
      Answered node.chain node.storage headHash (messagesOf fs) es ∧ s.peer.replies = answersOf es ∧
      s.peer.replies.Sublist s.peer.accepted ∧ AllWritten s.peer.accepted s.peer.wire ∧ ¬ SendWaits s.peer) := by
  cases hd : s.dead with
  | true => exact .inl rfl
  | false =>
    refine .inr ?_
    cases hf : s.peer.flag with
    | true => exact .inl ⟨rfl, Talk.rest_closed h hr hd hf⟩
    | false =>
      refine .inr ?_
      obtain ⟨-, -, fs, ms, es, late, lost, harr, hms, hans, hrep, hlate, hlost⟩ := Talk.in_reachable ho hh known h
      obtain ⟨h1, h2, h3, h4, h5⟩ := Talk.rest_open h hr hd hf hs
        (fun a e => by rw [e] at hlate; exact hlate)
      rw [h1] at hlate hlost
      have hlate : late = [] := hlate
      have hlost : lost = [] := hlost
      subst hlate hlost
      rw [h3] at hms
      simp only [Option.toList_none, List.append_nil] at hms hrep
      subst hms
      obtain ⟨⟨done, cur, x, ha, hx, hdn, hm⟩, hsub⟩ := Talk.out_reachable' h
      rw [h2] at hm
      obtain ⟨hc, hx0⟩ := hm
      subst hc hx0
      rw [List.append_nil] at ha hx
      obtain ⟨bs, hb1, hb2⟩ := Talk.frames_of done hdn
      refine ⟨fs, es, harr, ?_, hans, hrep.symm, hsub, ⟨bs, by rw [ha]; exact hb1, by rw [hx, hb2]⟩, h4⟩
      rintro g ⟨rest, e⟩
      have := readStep_good E hmem g.type g.body g.msg g.size g.carries rest
      rw [e] at this
      exact h5 _ _ _ this

/-- A ping came in and part of another frame: the pong was written, the node is at rest, nobody closed the connection. -/
example (w : World) : ∃ s : Talk.State Toy.env,
    Talk.Reachable (fun _ _ => False) toySender toyNode s ∧ AtRest (fun _ _ => False) toySender s ∧
    s.peer.reader ≠ .notStarted ∧ s.dead = false ∧ s.peer.flag = false ∧
    s.arrived = frameBytes 3 (be64 5 ++ be64 6) ++ [0x54] ∧ s.peer.wire = frameBytes 4 (be64 10 ++ be64 0) := by
  let pong : Message Toy.env := .pong ⟨10, 0⟩
  let S (k : Kind) := Talk.Step (E := Toy.env) (fun _ _ => False) toySender k
  let s0 : Talk.State Toy.env := .new toyNode
  let s1 := { s0 with peer := { s0.peer with wg := 2, reader := .loop, writer := .select } }
  let s2 := { s1 with
    inbox := frameBytes 3 (be64 5 ++ be64 6) ++ [0x54], arrived := frameBytes 3 (be64 5 ++ be64 6) ++ [0x54] }
  let s3 := { s2 with peer := { s2.peer with reader := .reading } }
  let s4 := { s3 with inbox := [0x54], task := some (.ping ⟨5, 6⟩) }
  let s5 := { s4 with
    node := (processMessage w toyNode toySender (.ping ⟨5, 6⟩)).node, task := none
    peer := { s4.peer with reader := .replying pong } }
  let s6 := { s5 with peer := { s5.peer with
    reader := .loop, writer := .got pong, accepted := [pong], replies := [pong] } }
  let s7 := { s6 with peer := { s6.peer with writer := .writing pong (Talk.frame pong) } }
  let s8 := { s7 with peer := { s7.peer with writer := .writing pong [], wire := Talk.frame pong } }
  let s9 := { s8 with peer := { s8.peer with writer := .select, bytesSent := UInt64.ofNat (Talk.frame pong).length } }
  let s10 := { s9 with peer := { s9.peer with reader := .reading } }
  have t1 : S .call s0 s1 := .inner .call _ rfl (.start _ rfl rfl) (fun h => by cases h) (fun h => by cases h)
    (fun _ _ h => by cases h)
  have t2 : S .remote s1 s2 := .arrive _ rfl
  have t3 : S .own s2 s3 := .inner .own _ rfl (.loopGo _ rfl rfl) (fun h => by cases h) (fun h => by cases h)
    (fun _ _ h => by cases h)
  have t4 : S .own s3 s4 := .read (.ping ⟨5, 6⟩) _ _ rfl rfl rfl
    (readStep_good Toy.env (by decide) 3 (be64 5 ++ be64 6) (some (.ping ⟨5, 6⟩)) (by decide)
      (.ping _ [] _ (by decide)) [0x54])
  have t5 : S .own s4 s5 := .answer w (.ping ⟨5, 6⟩) pong rfl rfl rfl rfl rfl
  have t6 : S .own s5 s6 := .inner .own _ rfl (.replyTaken _ pong rfl rfl) (fun h => by cases h) (fun h => by cases h)
    (fun _ _ h => by cases h)
  have t7 : S .own s6 s7 := .inner .own _ rfl (.gotWrite _ pong rfl rfl) (fun h => by cases h) (fun h => by cases h)
    (fun m q h _ => by cases h; exact ⟨_, rfl⟩)
  have t8 : S .remote s7 s8 := .inner .remote _ rfl
    (.chunk _ pong (Talk.frame pong) [] (by rw [List.append_nil]) (by decide) rfl)
    (fun h => by cases h) (fun h => by cases h) (fun _ _ h => by cases h)
  have t9 : S .own s8 s9 := .inner .own _ rfl (.writeDone _ pong rfl) (fun h => by cases h) (fun h => by cases h)
    (fun _ _ h => by cases h)
  have t10 : S .own s9 s10 := .inner .own _ rfl (.loopGo _ rfl rfl) (fun h => by cases h) (fun h => by cases h)
    (fun _ _ h => by cases h)
  refine ⟨s10, ?_, ?_, by simp [s10], rfl, rfl, rfl, ?_⟩
  · exact .step (.step (.step (.step (.step (.step (.step (.step (.step (.step .new t1) t2) t3) t4) t5) t6) t7) t8) t9) t10
  · have hstop : readStep Toy.env [0x54] = .stop (.exit (some "unexpected EOF")) := by rfl
    have noRead : ∀ m c rest, readStep Toy.env s10.inbox ≠ .next m c rest := fun m c rest e => by
      have e : readStep Toy.env [0x54] = .next m c rest := e
      rw [hstop] at e; cases e
    have noTask : ∀ m, s10.task ≠ some m := fun m e => by cases e
    have hsel : s10.peer.writer = .select := rfl
    have hrd : s10.peer.reader = .reading := rfl
    have hth : s10.peer.threads = [] := rfl
    have hq : s10.peer.quit = 0 := rfl
    have hc : s10.peer.conn = 0 := rfl
    have inner : ∀ {k : Kind} {p : Peer (Message Toy.env)}, Lifecycle.Step Talk.frame k s10.peer p → k ≠ .call →
        k = .remote ∧ p.wire = s10.peer.wire := by
      intro k p hs hk
      generalize s10.peer = x at hs hsel hrd hth hq hc
      cases hs with
      | start | callDisconnect | callSend | callWait => exact absurd rfl hk
      | _ => simp_all
    rintro s' (h | ⟨h, hw⟩)
    · cases h with
      | inner _ p _ hs => exact nomatch (inner hs (by simp)).1
      | skip _ _ _ _ _ h => exact noRead _ _ _ h
      | read _ _ _ _ _ _ h => exact noRead _ _ _ h
      | readerDies what _ _ _ h =>
        have h : readStep Toy.env [0x54] = .stop (.crash what) := h
        rw [hstop] at h; cases h
      | process _ m _ _ h | answer _ m _ _ _ h | ban _ m _ _ h | processDies _ m _ _ h => exact noTask _ h
      | banDies _ h => rw [hrd] at h; cases h
      | writerDies m _ h => rw [hsel] at h; cases h
    · cases h with
      | arrive => exact hw rfl
      | inner _ p _ hs => exact hw (inner hs (by simp)).2
  · have e : Talk.frame pong = frameBytes 4 (be64 10 ++ be64 0) := by decide +kernel
    exact e

end Gringo.Props
