import Verif.Model.Lifecycle
import Verif.Model.Send
/-
Model of p2p/peer.go:118-365 with p2p/sync.go:103-221: one connection being served, with the bytes that arrive and
the bytes that are written. It joins the goroutines of the peer (Model/Lifecycle.lean), the decoding of the read
loop (Model/Peer.lean), the handling of the messages (Model/Sync.lean) and their serialisation (Model/Send.lean).

Simplifications:
* A call of `ProcessMessage` up to its answer, or up to the `Close` in `Ban`, is one step for the other goroutines.
  The blocks it relays to other connections are not followed here: see Model/Relay.lean.
* The counter `bytesReceived` is left out: see Model/Peer.lean.
-/
namespace Gringo.Talk
open Gringo.P2P

variable {E : Env}

/-- The message that `ProcessMessage` hands to `peer.WriteMessage`: p2p/sync.go:129, 146, 164, 185. -/
def _root_.Gringo.P2P.Reply.message : Reply E → Message E
  | .pong m => .pong m
  | .peerAddrs m => .peerAddrs m
  | .headers m => .headers m
  | .block b => .block b

/-- The answer among the effects of a call of `ProcessMessage`, if there is one. -/
def answer : List (Effect E) → Option (Message E)
  | [] => none
  | .reply r :: _ => some r.message
  | .relay _ _ _ :: es => answer es

/-- p2p/protocol.go:32-53: the bytes of a message. A message that cannot be serialised ends the process when the
write handler comes to it (`Step.writerDies`), so that the value for it does not matter. -/
def frame (m : Message E) : Bytes :=
  match m.frame with
  | .ok b => b
  | _ => [0]

/-- A connection being served. -/
structure State (E : Env) where
  /-- the peer and its goroutines -/
  peer : Lifecycle.Peer (Message E)
  /-- what `peer.sync` points to -/
  node : Node E
  /-- the bytes that came in and were not read yet -/
  inbox : Bytes
  /-- the message that was read and is about to be handed to `ProcessMessage`; the read handler is then at one of
  the calls of it in p2p/peer.go:202-319, and `peer.reader` is still `reading` -/
  task : Option (Message E)
  /-- a panic or a call of `logrus.Fatal` ended the process -/
  dead : Bool
  /-- all bytes that came in; not in the code -/
  arrived : Bytes

/-- A new connection: p2p/peer.go:79-93, 105-115. -/
def State.new (node : Node E) : State E where
  peer := .new (Message E)
  node := node
  inbox := []
  task := none
  dead := false
  arrived := []

/-- The steps. `others` is what the rest of the program may do to the node, `sender` what identifies the connection.
The kinds are those of Model/Lifecycle.lean. -/
inductive Step (others : Node E → Node E → Prop) (sender : Sender) : Lifecycle.Kind → State E → State E → Prop
  /-- another connection, or the pool, changes the node -/
  | others {s : State E} (n : Node E) (hd : s.dead = false) (h : others s.node n) :
      Step others sender .call s { s with node := n }
  /-- bytes come in -/
  | arrive {s : State E} (bs : Bytes) (hd : s.dead = false) :
      Step others sender .remote s { s with inbox := s.inbox ++ bs, arrived := s.arrived ++ bs }
  /-- the steps of Model/Lifecycle.lean, except those for which there is a step below: a read handler that is reading
  can only stop, and not while it holds a message; after `Close` in `Ban`, p2p/pool.go:76 is next; a message is
  only written if it can be serialised -/
  | inner {s : State E} (k : Lifecycle.Kind) (p : Lifecycle.Peer (Message E)) (hd : s.dead = false)
      (hs : Lifecycle.Step frame k s.peer p)
      (hr : s.peer.reader = .reading → p.reader = .reading ∨ (s.task = none ∧ p.reader = .stopping))
      (hb : s.peer.reader = .closing .returned → p.reader = .closing .returned)
      (hw : ∀ m q, s.peer.writer = .got m → p.writer = .writing m q → ∃ b, m.frame = .ok b) :
      Step others sender k s { s with peer := p }
  /-- p2p/peer.go:178-333: a message that is not handed on -/
  | skip {s : State E} (c : UInt64) (rest : Bytes) (hd : s.dead = false) (hr : s.peer.reader = .reading)
      (ht : s.task = none) (h : readStep E s.inbox = .next none c rest) :
      Step others sender .own s { s with inbox := rest, peer := { s.peer with reader := .loop } }
  /-- p2p/peer.go:178-316: a message that is handed on -/
  | read {s : State E} (m : Message E) (c : UInt64) (rest : Bytes) (hd : s.dead = false)
      (hr : s.peer.reader = .reading) (ht : s.task = none) (h : readStep E s.inbox = .next (some m) c rest) :
      Step others sender .own s { s with inbox := rest, task := some m }
  /-- p2p/peer.go:178-316: decoding panics -/
  | readerDies {s : State E} (what : String) (hd : s.dead = false) (hr : s.peer.reader = .reading)
      (ht : s.task = none) (h : readStep E s.inbox = .stop (.crash what)) :
      Step others sender .own s { s with dead := true }
  /-- p2p/sync.go:103-221 `ProcessMessage`, when there is nothing to answer -/
  | process {s : State E} (w : World) (m : Message E) (hd : s.dead = false) (hr : s.peer.reader = .reading)
      (ht : s.task = some m) (he : (processMessage w s.node sender m).ended = .done)
      (ha : answer (processMessage w s.node sender m).effects = none) :
      Step others sender .own s { s with
        node := (processMessage w s.node sender m).node, task := none, peer := { s.peer with reader := .loop } }
  /-- p2p/sync.go:103-221 `ProcessMessage`, up to the call of `peer.WriteMessage` -/
  | answer {s : State E} (w : World) (m a : Message E) (hd : s.dead = false) (hr : s.peer.reader = .reading)
      (ht : s.task = some m) (he : (processMessage w s.node sender m).ended = .done)
      (ha : answer (processMessage w s.node sender m).effects = some a) :
      Step others sender .own s { s with
        node := (processMessage w s.node sender m).node, task := none
        peer := { s.peer with reader := .replying a } }
  /-- p2p/sync.go:179, 195, 216 and p2p/pool.go:61-72: `ProcessMessage`, up to the `Close` of the connection
  itself in `Ban` -/
  | ban {s : State E} (w : World) (m : Message E) (hd : s.dead = false) (hr : s.peer.reader = .reading)
      (ht : s.task = some m) (he : (processMessage w s.node sender m).ended = .blocked) :
      Step others sender .own s { s with
        node := (processMessage w s.node sender m).node, task := none, peer := { s.peer with reader := .closing .cas } }
  /-- `ProcessMessage` panics or calls `Fatal` -/
  | processDies {s : State E} (w : World) (m : Message E) (hd : s.dead = false) (hr : s.peer.reader = .reading)
      (ht : s.task = some m) (he : (processMessage w s.node sender m).ended ≠ .done)
      (hb : (processMessage w s.node sender m).ended ≠ .blocked) :
      Step others sender .own s { s with dead := true }
  /-- p2p/pool.go:76: after `Close` in `Ban` an entry is written to a nil map -/
  | banDies {s : State E} (hd : s.dead = false) (hr : s.peer.reader = .closing .returned) :
      Step others sender .own s { s with dead := true }
  /-- p2p/peer.go:142, p2p/protocol.go:33: the message cannot be serialised -/
  | writerDies {s : State E} (m : Message E) (hd : s.dead = false) (hw : s.peer.writer = .got m)
      (hf : s.peer.flag = false) (h : ¬ ∃ b, m.frame = .ok b) :
      Step others sender .own s { s with dead := true }

/-- The states a connection can get into, from a node on. -/
inductive Reachable (others : Node E → Node E → Prop) (sender : Sender) (node : Node E) : State E → Prop
  | new : Reachable others sender node (.new node)
  | step {s s' : State E} {k : Lifecycle.Kind} (h : Reachable others sender node s) (hs : Step others sender k s s') :
      Reachable others sender node s'

end Gringo.Talk
