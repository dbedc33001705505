import Verif.Proofs.Talk
import Verif.Props.Delivery
import Verif.Props.SyncWitness
import Verif.Props.SessionWitness
import Verif.Props.Whole
/-
C122: what the other side of a connection gets to see, for every schedule of the goroutines.
-/
namespace Gringo.Props
open Gringo.Spec Gringo.P2P Gringo.Lifecycle

variable {E : Env}

/-- **C122.** Whatever bytes come in on a connection, whatever the rest of the program does in the meantime (short of
removing entries of the table) and however the goroutines are scheduled: what was written are the frames, one after
the other, of messages. Those among them that the read handler sent are the answers, in order, to the messages that
came in, as far as they were handled; the others are those that other goroutines sent. All messages that were read
were handled, except at most the last one: it is being handled or got the connection closed. All answers were taken
over for writing, except at most the last one: it is waiting for the write handler, or the connection is being
closed. -/
theorem C122_what_is_written (others : Node E → Node E → Prop) (ho : ∀ a b, others a b → LeavesEntries a b)
    (f : Sender) (node : Node E) (headHash : Bytes) (hh : HasHash node.chain.head headHash) (known : Known node f)
    (s : Talk.State E) (h : Talk.Reachable others f node s) :
    WrittenTo s.peer.accepted s.peer.wire ∧
    (s.peer.threads.flatMap takenFrom ++ s.peer.replies).Perm s.peer.accepted ∧
    s.peer.replies.Sublist s.peer.accepted ∧
    ∃ (fs : List (GoodFrame E)) (ms unhandled : List (Message E)) (es : List (Effect E)) (late : List (Message E)),
      s.arrived = streamOf fs ++ s.inbox ∧ messagesOf fs = ms ++ unhandled ∧
      Answered node.chain node.storage headHash ms es ∧ answersOf es = s.peer.replies ++ late ∧
      (unhandled = [] ∨ ∃ m, unhandled = [m] ∧ (s.task = some m ∨ ∃ d, s.peer.reader = .closing d)) ∧
      (late = [] ∨ ∃ m, late = [m] ∧ (s.peer.reader = .replying m ∨ s.peer.flag = true)) := by
  obtain ⟨⟨done, cur, x, ha, hx, hd, hm⟩, hsub⟩ := Talk.out_reachable' h
  refine ⟨?_, (C68_order Talk.frame_ne (Talk.peer_reachable h)).2, hsub, ?_⟩
  · obtain ⟨bs, hb1, hb2⟩ := Talk.frames_of done hd
    have part : ∀ {m : Message E} {q : Bytes}, cur = [m] → Talk.Ser m → x ++ q = Talk.frame m →
        ∃ m b, cur = [m] ∧ m.frame = .ok b ∧ x <+: b := by
      rintro m q hc ⟨b, hb⟩ hq
      exact ⟨m, b, hc, hb, q, by rw [hq, Talk.frame_of hb]⟩
    refine ⟨done, cur, bs, x, ha, ?_, hb1, by rw [hx, hb2], ?_⟩
    · split at hm
      · rw [hm.1]; exact Nat.zero_le 1
      · rw [hm.1]; exact Nat.zero_le 1
      · rw [hm.1]; exact Nat.le_refl 1
      · rw [hm.1]; exact Nat.le_refl 1
      · rcases hm with ⟨-, h⟩ | ⟨m, q, h, -⟩
        · exact h
        · rw [h]; exact Nat.le_refl 1
      · rcases hm with ⟨-, h⟩ | ⟨m, q, h, -⟩
        · exact h
        · rw [h]; exact Nat.le_refl 1
    · split at hm
      · exact .inl hm.2
      · exact .inl hm.2
      · exact .inl hm.2
      · exact .inr (part hm.1 hm.2.1 hm.2.2)
      · rcases hm with ⟨h, -⟩ | ⟨m, q, h1, h2, h3⟩
        · exact .inl h
        · exact .inr (part h1 h2 h3)
      · rcases hm with ⟨h, -⟩ | ⟨m, q, h1, h2, h3⟩
        · exact .inl h
        · exact .inr (part h1 h2 h3)
  · obtain ⟨-, htk, fs, ms, es, late, lost, harr, hms, hans, hrep, hlate, hlost⟩ := Talk.in_reachable ho hh known h
    refine ⟨fs, ms, s.task.toList ++ lost, es, late, harr, hms, hans, hrep, ?_, ?_⟩
    · cases ht : s.task with
      | some m =>
        have hr := htk (by rw [ht]; exact nofun)
        rw [hr] at hlost
        have hl0 : lost = [] := hlost
        exact .inr ⟨m, by rw [hl0]; rfl, .inl rfl⟩
      | none =>
        cases hr : s.peer.reader with
        | closing d =>
          rw [hr] at hlost
          have hl0 : lost.length ≤ 1 := hlost
          cases lost with
          | nil => exact .inl rfl
          | cons m l =>
            cases l with
            | nil => exact .inr ⟨m, rfl, .inr ⟨d, rfl⟩⟩
            | cons => simp at hl0
        | _ => rw [hr] at hlost; exact .inl hlost
    · have one : ∀ {b : Bool}, late = [] ∨ (b = true ∧ late.length = 1) → s.peer.flag = b →
          (late = [] ∨ ∃ m, late = [m] ∧ (s.peer.reader = .replying m ∨ s.peer.flag = true)) := by
        rintro b (h | ⟨h1, h2⟩) hb
        · exact .inl h
        · obtain ⟨m, hm⟩ := List.length_eq_one_iff.1 h2
          exact .inr ⟨m, hm, .inr (hb.trans h1)⟩
      cases hr : s.peer.reader with
      | replying m => rw [hr] at hlate; exact .inr ⟨m, hlate, .inl rfl⟩
      | loop | stopping | leaving => rw [hr] at hlate; rw [← hr]; exact one hlate rfl
      | handling a => rw [hr] at hlate; exact hlate.elim
      | _ => rw [hr] at hlate; exact .inl hlate

/-- **C122, seen from the other side.** If the messages are ones for which C81 claims delivery: what the other side has
read so far are the first messages of those accepted for sending, each as it should arrive. -/
theorem C122_what_is_seen (P : Point → Prop) (Q : E.Prf → Prop) (hE : PointCodec E P) (hQ : PrfCodec E Q)
    (hS : SortOK E) (hmem : 1000000 * (104 + E.outputSize) ≤ E.maxAlloc) (hmem2 : 20000000 ≤ E.maxAlloc)
    (others : Node E → Node E → Prop) (f : Sender) (node : Node E) (s : Talk.State E)
    (h : Talk.Reachable others f node s) (hd : ∀ m ∈ s.peer.accepted, Deliverable P Q m)
    (hsz : ∀ m ∈ s.peer.accepted, ∀ v, m.bytes = .ok v → v.length ≤ 20000000) :
    ∃ got, List.Forall₂ (ArrivesAs E) s.peer.accepted got ∧ (readHandler E s.peer.wire).dispatched <+: got := by
  obtain ⟨fs, h1, h2⟩ := deliverable_frames E P Q hE hQ hS hmem s.peer.accepted hd hsz
  refine ⟨_, h2, ?_⟩
  obtain ⟨⟨done, last, p, ha, -, hw, ⟨q, hq⟩, -⟩, -⟩ := C68_order Talk.frame_ne (Talk.peer_reachable h)
  have e1 : s.peer.wire ++ q = s.peer.accepted.flatMap Talk.frame := by
    rw [hw, ha, List.append_assoc, hq, List.flatMap_append]
  have e2 : ∀ (l : List (Message E)) (fs : List (GoodFrame E)),
      List.Forall₂ (fun m f => m.frame = .ok (frameBytes f.type f.body)) l fs → l.flatMap Talk.frame = streamOf fs := by
    intro l fs h
    induction h with
    | nil => rfl
    | cons hx _ ih => rw [List.flatMap_cons, Talk.frame_of hx, ih]; rfl
  have := C09_causal E hmem2 s.peer.wire q
  rw [e1, e2 _ _ h1, (C07_exact_split E hmem2 fs).1] at this
  exact this

/-- **C122, the rest of the program.** The hypothesis about the rest of the program is met: no step of the pool, of its
goroutines or of any connection (Model/Whole.lean) removes an entry of the table, and neither does the handling of a
message that comes in elsewhere. -/
theorem C122_others_ok {M : Type} {frame : M → Bytes} {ping ask : M} (n : Node E) :
    (∀ (w w' : Whole.State M) (k : Kind), n.table = w.table → Whole.Step frame ping ask w k w' →
      LeavesEntries n { n with table := w'.table, online := w'.online }) ∧
    ∀ (w : World) (f : Sender) (m : Message E), LeavesEntries n (processMessage w n f m).node := by
  refine ⟨fun w w' k e hs => ⟨rfl, rfl, rfl, fun x hx => ?_⟩, fun w f m => process_leaves w n f m⟩
  rw [e] at hx
  show x ∈ w'.table.map (·.1)
  cases hs with
  | add addr resolve hr =>
    obtain ⟨rest, e, -⟩ := add_prefix resolve w.table addr
    show x ∈ (P2P.add resolve w.table addr).map (·.1)
    rw [e, List.map_append]
    exact List.mem_append_left _ hx
  | _ => first | exact hx | (rw [update_keys]; exact hx)

/-- A ping came in, another goroutine sent a request for addresses first, the pong is half written. -/
example (w : World) : ∃ s : Talk.State Toy.env,
    Talk.Reachable (fun _ _ => False) toySender toyNode s ∧
    s.peer.accepted = [.getPeerAddrs ⟨7⟩, .pong ⟨10, 0⟩] ∧ s.peer.replies = [.pong ⟨10, 0⟩] ∧
    s.peer.wire = [0x54, 0x34, 5, 0, 0, 0, 0, 0, 0, 0, 4, 0, 0, 0, 7] ++ [0x54, 0x34, 4, 0, 0] ∧
    s.arrived = frameBytes 3 (be64 5 ++ be64 6) := by
  let req : Message Toy.env := .getPeerAddrs ⟨7⟩
  let pong : Message Toy.env := .pong ⟨10, 0⟩
  let S (k : Kind) := Talk.Step (E := Toy.env) (fun _ _ => False) toySender k
  let s0 : Talk.State Toy.env := .new toyNode
  let s1 := { s0 with peer := { s0.peer with wg := 2, reader := .loop, writer := .select } }
  let s2 := { s1 with peer := { s1.peer with threads := [.send req] } }
  let s3 := { s2 with inbox := frameBytes 3 (be64 5 ++ be64 6), arrived := frameBytes 3 (be64 5 ++ be64 6) }
  let s4 := { s3 with peer := { s3.peer with threads := [.sent req true], writer := .got req, accepted := [req] } }
  let s5 := { s4 with peer := { s4.peer with writer := .writing req (Talk.frame req) } }
  let s6 := { s5 with peer := { s5.peer with reader := .reading } }
  let s7 := { s6 with inbox := [], task := some (.ping ⟨5, 6⟩) }
  let s8 := { s7 with
    node := (processMessage w toyNode toySender (.ping ⟨5, 6⟩)).node, task := none
    peer := { s7.peer with reader := .replying pong } }
  let s9 := { s8 with peer := { s8.peer with writer := .writing req [], wire := Talk.frame req } }
  let s10 := { s9 with peer := { s9.peer with writer := .select, bytesSent := 15 } }
  let s11 := { s10 with peer := { s10.peer with
    reader := .loop, writer := .got pong, accepted := [req, pong], replies := [pong] } }
  let s12 := { s11 with peer := { s11.peer with writer := .writing pong (Talk.frame pong) } }
  let s13 := { s12 with peer := { s12.peer with
    writer := .writing pong ((Talk.frame pong).drop 5), wire := Talk.frame req ++ [0x54, 0x34, 4, 0, 0] } }
  have t1 : S .call s0 s1 := .inner .call _ rfl (.start _ rfl rfl) (fun h => by cases h) (fun h => by cases h) (fun _ _ h => by cases h)
  have t2 : S .call s1 s2 := .inner .call _ rfl (.callSend _ req) (fun h => by cases h) (fun h => by cases h) (fun _ _ h => by cases h)
  have t3 : S .remote s2 s3 := .arrive _ rfl
  have t4 : S .own s3 s4 := .inner .own _ rfl (.sendTaken _ [] [] req rfl rfl) (fun h => by cases h) (fun h => by cases h)
    (fun _ _ h => by cases h)
  have t5 : S .own s4 s5 := .inner .own _ rfl (.gotWrite _ req rfl rfl) (fun h => by cases h) (fun h => by cases h)
    (fun m q h _ => by cases h; exact ⟨_, rfl⟩)
  have t6 : S .own s5 s6 := .inner .own _ rfl (.loopGo _ rfl rfl) (fun h => by cases h) (fun h => by cases h)
    (fun _ _ h => by cases h)
  have t7 : S .own s6 s7 := .read (.ping ⟨5, 6⟩) 27 [] rfl rfl rfl
    (by have := readStep_good Toy.env (by decide) 3 (be64 5 ++ be64 6) (some (.ping ⟨5, 6⟩)) (by decide)
          (.ping _ [] _ (by decide)) []
        rw [List.append_nil] at this
        exact this)
  have t8 : S .own s7 s8 := .answer w (.ping ⟨5, 6⟩) pong rfl rfl rfl rfl rfl
  have t9 : S .remote s8 s9 := .inner .remote _ rfl (.chunk _ req (Talk.frame req) [] (by rw [List.append_nil]) (by decide) rfl)
    (fun h => by cases h) (fun h => by cases h) (fun _ _ h => by cases h)
  have t10 : S .own s9 s10 := .inner .own _ rfl (.writeDone _ req rfl) (fun h => by cases h) (fun h => by cases h)
    (fun _ _ h => by cases h)
  have t11 : S .own s10 s11 := .inner .own _ rfl (.replyTaken _ pong rfl rfl) (fun h => by cases h) (fun h => by cases h)
    (fun _ _ h => by cases h)
  have t12 : S .own s11 s12 := .inner .own _ rfl (.gotWrite _ pong rfl rfl) (fun h => by cases h) (fun h => by cases h)
    (fun m q h _ => by cases h; exact ⟨_, rfl⟩)
  have t13 : S .remote s12 s13 := .inner .remote _ rfl (.chunk _ pong [0x54, 0x34, 4, 0, 0] _
    (congrArg (Writer.writing pong) (by decide +kernel)) (by decide) rfl)
    (fun h => by cases h) (fun h => by cases h) (fun _ _ h => by cases h)
  refine ⟨s13, ?_, rfl, rfl, ?_, rfl⟩
  · exact .step (.step (.step (.step (.step (.step (.step (.step (.step (.step (.step (.step (.step .new t1) t2) t3) t4)
      t5) t6) t7) t8) t9) t10) t11) t12) t13
  · have e : Talk.frame req = [0x54, 0x34, 5, 0, 0, 0, 0, 0, 0, 0, 4, 0, 0, 0, 7] := by decide +kernel
    exact congrArg (· ++ _) e

end Gringo.Props
