import Mathlib.Logic.Function.Basic
import Verif.Go.Net
import Verif.Model.Whole
import Verif.Model.Talk
import Verif.Model.Relay
/-
Model of the whole program: the pool with all its goroutines and those of every connection (Model/Whole.lean), the
bytes that come in on every connection, and the handling of every message on the one node they all share
(Model/Sync.lean). What one connection does is what Model/Talk.lean says; this is proved, not assumed.

Simplifications:
* A call of `ProcessMessage` up to its answer is one step, as in Model/Talk.lean. If it takes the lock of the table entry
  of its connection, the step is taken when the lock is free.
* The bytes of the handshakes are not followed here: see Model/Connect.lean. A connection exists from the moment
  `connectPeer` puts it into the table.
-/
namespace Gringo.Program
open Gringo.P2P

variable {E : Env}

/-- p2p/pool.go:256, p2p/peer.go:368-376 -/
def ping : Message E := .ping ⟨1, 1⟩

/-- p2p/pool.go:257, p2p/peer.go:395-402 -/
def ask : Message E := .getPeerAddrs ⟨CapFullNode⟩

/-- The reading side of a connection. -/
structure Reading (E : Env) where
  /-- the bytes that came in and were not read yet -/
  inbox : Bytes
  /-- the message that was read and is being handled, see Model/Talk.lean -/
  task : Option (Message E)
  /-- the handling of the message is in `Ban` of another connection, and does not return -/
  stuck : Bool
  /-- all bytes that came in; not in the code -/
  arrived : Bytes

/-- A goroutine of p2p/pool.go:188-195, as in Model/Relay.lean, with its block. -/
structure Job (E : Env) where
  addr : String
  block : Block E
  stage : Relay.Stage

/-- p2p/pool.go:190-193: the next stage, given the entry as it is now. -/
def Job.next (j : Job E) (i : PeerInfo) : Option Relay.Stage :=
  Relay.Job.next ⟨0, j.addr, j.block.header.height, j.block.header.totalDifficulty, j.stage⟩ i

/-- The program. -/
structure State (E : Env) where
  /-- the pool and the goroutines -/
  pool : Whole.State (Message E)
  chain : Chain E
  storage : Storage E
  mempool : Option (Transaction E → Out Unit)
  /-- by the number of the connection -/
  io : Nat → Reading E
  /-- the goroutines that `PropagateBlock` has started, p2p/pool.go:187-196, also those that have ended -/
  jobs : List (Job E)
  /-- a panic in a handler or a call of `logrus.Fatal` ended the process -/
  dead : Bool

/-- What `Syncer` points to: p2p/sync.go:69-76. -/
def State.node (s : State E) : Node E where
  chain := s.chain
  storage := s.storage
  mempool := s.mempool
  table := s.pool.table
  online := s.pool.online

/-- p2p/sync.go:79-91 `NewSyncer` without addresses (`Whole.Step.add` adds them), then `Run`. -/
def State.new (chain : Chain E) (storage : Storage E) (mempool : Option (Transaction E → Out Unit)) : State E where
  pool := .new (Message E)
  chain := chain
  storage := storage
  mempool := mempool
  io := fun _ => { inbox := [], task := none, stuck := false, arrived := [] }
  jobs := []
  dead := false

/-- The messages for which another goroutine than the read handler has called `WriteMessage` on the connection, in
order. -/
def handed (x : Whole.Conn (Message E)) : List (Message E) :=
  x.peer.threads.flatMap fun
    | .send m | .sent m _ => [m]
    | _ => []

/-- The handler of the message takes the lock of the entry: p2p/sync.go:115, 134, 199. -/
def locks : Message E → Bool
  | .ping _ | .pong _ | .block _ => true
  | _ => false

/-- The goroutines that are started when a message has been handled: p2p/sync.go:208-211, p2p/pool.go:183-197. -/
def started (online : List String) (chain : Chain E) : Message E → List (Job E)
  | .block b => if b.header.height = chain.height then online.map fun addr => ⟨addr, b, .height⟩ else []
  | _ => []

/-- The state after `ProcessMessage` has handled a message of connection `x`, with the read handler at `reader`. -/
def State.handled (s : State E) (l r : List (Whole.Conn (Message E))) (x : Whole.Conn (Message E))
    (reader : Lifecycle.Reader (Message E)) (m : Message E) (h : Handled E) : State E :=
  { s with
    chain := h.node.chain
    pool := { s.pool with
      table := h.node.table, conns := l ++ { x with peer := { x.peer with reader := reader } } :: r }
    io := Function.update s.io x.id { s.io x.id with task := none }
    jobs := s.jobs ++ started s.pool.online h.node.chain m }

/-- The connection as the sender of a message; `remote` gives `conn.RemoteAddr().String()`. -/
def sender (remote : Nat → String) (x : Whole.Conn (Message E)) : Sender := ⟨x.addr, x.id, remote x.id⟩

/-- What `ProcessMessage` sees of the world is Go's package net, Go/Net.lean; it ranges over a map in any order. -/
def Real (w : World) : Prop :=
  ∃ (r : Net.Resolver) (order : Table → Table) (closing : Nat → Bool),
    w = Net.world r order closing ∧ ∀ t, (order t).Perm t

/-- The steps, each with whose it is: see Model/Lifecycle.lean. -/
inductive Step (remote : Nat → String) : Lifecycle.Kind → State E → State E → Prop
  /-- the steps of Model/Whole.lean, except those for which there is a step below: a read handler that is reading can
  only stop, and not while it holds a message; a message is only written if it can be serialised; only the loop of the
  pool calls `WriteMessage`, and it moves on when it does -/
  | pool {s : State E} (k : Lifecycle.Kind) (q : Whole.State (Message E))
      (hs : Whole.Step Talk.frame ping ask s.pool k q)
      (hr : ∀ x ∈ s.pool.conns, ∀ y ∈ q.conns, y.id = x.id → x.peer.reader = .reading →
        y.peer.reader = .reading ∨ ((s.io x.id).task = none ∧ y.peer.reader = .stopping))
      (hw : ∀ x ∈ s.pool.conns, ∀ y ∈ q.conns, y.id = x.id → ∀ m p, x.peer.writer = .got m →
        y.peer.writer = .writing m p → ∃ b, m.frame = .ok b)
      (hm : q.loop = s.pool.loop → ∀ x ∈ s.pool.conns, ∀ y ∈ q.conns, y.id = x.id → handed y = handed x) :
      Step remote k s { s with pool := q }
  /-- bytes come in on a connection -/
  | arrive {s : State E} (c : Nat) (bs : Bytes) :
      Step remote .remote s { s with io := Function.update s.io c { s.io c with
        inbox := (s.io c).inbox ++ bs, arrived := (s.io c).arrived ++ bs } }
  /-- p2p/pool.go:190-191: a goroutine of `PropagateBlock` does its next read -/
  | look {s : State E} (l' r' : List (Job E)) (j : Job E) (i : PeerInfo) (st : Relay.Stage) (h : s.jobs = l' ++ j :: r')
      (hi : s.pool.table.find j.addr = some i) (hn : j.next i = some st) (hst : ∀ c, st ≠ .sent c) :
      Step remote .own s { s with jobs := l' ++ { j with stage := st } :: r' }
  /-- p2p/pool.go:191-192: a goroutine of `PropagateBlock` calls `SendBlock` -/
  | relay {s : State E} (l' r' : List (Job E)) (j : Job E) (i : PeerInfo) (l r : List (Whole.Conn (Message E)))
      (x : Whole.Conn (Message E)) (h : s.jobs = l' ++ j :: r') (hi : s.pool.table.find j.addr = some i)
      (hn : j.next i = some (.sent x.id)) (hx : s.pool.conns = l ++ x :: r) :
      Step remote .own s { s with
        pool := { s.pool with conns := l ++ x.calls (.send (.block j.block)) :: r }
        jobs := l' ++ { j with stage := .sent x.id } :: r' }
  /-- p2p/peer.go:178-333: a message that is not handed on -/
  | skip {s : State E} (l r : List (Whole.Conn (Message E))) (x : Whole.Conn (Message E)) (c : UInt64) (rest : Bytes)
      (hx : s.pool.conns = l ++ x :: r) (hr : x.peer.reader = .reading) (ht : (s.io x.id).task = none)
      (h : readStep E (s.io x.id).inbox = .next none c rest) :
      Step remote .own s { s with
        pool := { s.pool with conns := l ++ { x with peer := { x.peer with reader := .loop } } :: r }
        io := Function.update s.io x.id { s.io x.id with inbox := rest } }
  /-- p2p/peer.go:178-316: a message that is handed on -/
  | read {s : State E} (x : Whole.Conn (Message E)) (m : Message E) (c : UInt64) (rest : Bytes)
      (hx : x ∈ s.pool.conns) (hr : x.peer.reader = .reading) (ht : (s.io x.id).task = none)
      (h : readStep E (s.io x.id).inbox = .next (some m) c rest) :
      Step remote .own s { s with io := Function.update s.io x.id { s.io x.id with inbox := rest, task := some m } }
  /-- p2p/peer.go:178-316: decoding panics -/
  | readerDies {s : State E} (x : Whole.Conn (Message E)) (what : String) (hx : x ∈ s.pool.conns)
      (hr : x.peer.reader = .reading) (ht : (s.io x.id).task = none)
      (h : readStep E (s.io x.id).inbox = .stop (.crash what)) : Step remote .own s { s with dead := true }
  /-- p2p/sync.go:103-221 `ProcessMessage`, when there is nothing to answer. -/
  | process {s : State E} (l r : List (Whole.Conn (Message E))) (x : Whole.Conn (Message E)) (w : World)
      (m : Message E) (hx : s.pool.conns = l ++ x :: r) (hr : x.peer.reader = .reading)
      (ht : (s.io x.id).task = some m) (hs : (s.io x.id).stuck = false)
      (hw : Real w) (hl : locks m = true → ¬ s.pool.locked x.addr)
      (he : (processMessage w s.node (sender remote x) m).ended = .done)
      (ha : Talk.answer (processMessage w s.node (sender remote x) m).effects = none) :
      Step remote .own s (s.handled l r x .loop m (processMessage w s.node (sender remote x) m))
  /-- p2p/sync.go:103-221 `ProcessMessage`, up to the call of `peer.WriteMessage` -/
  | answer {s : State E} (l r : List (Whole.Conn (Message E))) (x : Whole.Conn (Message E)) (w : World)
      (m a : Message E) (hx : s.pool.conns = l ++ x :: r) (hr : x.peer.reader = .reading)
      (ht : (s.io x.id).task = some m) (hs : (s.io x.id).stuck = false)
      (hw : Real w) (hl : locks m = true → ¬ s.pool.locked x.addr)
      (he : (processMessage w s.node (sender remote x) m).ended = .done)
      (ha : Talk.answer (processMessage w s.node (sender remote x) m).effects = some a) :
      Step remote .own s (s.handled l r x (.replying a) m (processMessage w s.node (sender remote x) m))
  /-- p2p/sync.go:179, 195, 216 and p2p/pool.go:61-72: `ProcessMessage`, up to the `Close` of the connection itself in
  `Ban` -/
  | ban {s : State E} (l r : List (Whole.Conn (Message E))) (x : Whole.Conn (Message E)) (w : World)
      (m : Message E) (hx : s.pool.conns = l ++ x :: r) (hr : x.peer.reader = .reading)
      (ht : (s.io x.id).task = some m) (hs : (s.io x.id).stuck = false)
      (he : (processMessage w s.node (sender remote x) m).ended = .blocked) :
      Step remote .own s { s with
        chain := (processMessage w s.node (sender remote x) m).node.chain
        pool := { s.pool with
          table := (processMessage w s.node (sender remote x) m).node.table
          conns := l ++ { x with peer := { x.peer with reader := .closing .cas } } :: r
          bans := s.pool.bans ++ [⟨some x.id, x.id, none⟩] }
        io := Function.update s.io x.id { s.io x.id with task := none } }
  /-- p2p/sync.go:179, 195, 216 and p2p/pool.go:61-72: `ProcessMessage`, up to the `Close` of another connection `y` in
  `Ban`. When that returns the process ends, p2p/pool.go:76. -/
  | banOther {s : State E} (l r : List (Whole.Conn (Message E))) (x y : Whole.Conn (Message E)) (w : World)
      (m : Message E) (i : PeerInfo) (hx : x ∈ s.pool.conns) (hr : x.peer.reader = .reading)
      (ht : (s.io x.id).task = some m) (hs : (s.io x.id).stuck = false) (hy : s.pool.conns = l ++ y :: r)
      (he : (processMessage w s.node (sender remote x) m).ended = .panic "assignment to entry in nil map")
      (hi : s.pool.table.find (remote x.id) = some i) (hp : i.peer = some y.id) (hne : y.id ≠ x.id) :
      Step remote .own s { s with
        pool := { s.pool with
          table := s.pool.table.update (remote x.id) (PoolRun.setStatus .banned)
          conns := l ++ y.calls (.disconnect .cas) :: r
          bans := s.pool.bans ++ [⟨none, y.id, some y.peer.threads.length⟩] }
        io := Function.update s.io x.id { s.io x.id with stuck := true } }
  /-- `ProcessMessage` panics or calls `Fatal`. When it bans another connection, see the step before:
  `Whole.Step.banEnd` is the panic. When it bans its own connection, `Close` returns only if somebody else disconnects;
  see the step `ban` otherwise. -/
  | processDies {s : State E} (x : Whole.Conn (Message E)) (w : World) (m : Message E) (hx : x ∈ s.pool.conns)
      (hr : x.peer.reader = .reading) (ht : (s.io x.id).task = some m) (hs : (s.io x.id).stuck = false)
      (he : (processMessage w s.node (sender remote x) m).ended ≠ .done)
      (hb : (processMessage w s.node (sender remote x) m).ended ≠ .blocked)
      (hn : (processMessage w s.node (sender remote x) m).ended = .panic "assignment to entry in nil map" →
        ∀ i c, s.pool.table.find (remote x.id) = some i → i.peer = some c → c = x.id)
      (hc : w.closing x.id = true → x.peer.flag = true) : Step remote .own s { s with dead := true }
  /-- p2p/peer.go:142, p2p/protocol.go:33: a message cannot be serialised -/
  | writerDies {s : State E} (x : Whole.Conn (Message E)) (m : Message E) (hx : x ∈ s.pool.conns)
      (hw : x.peer.writer = .got m) (hf : x.peer.flag = false) (h : ¬ ∃ b, m.frame = .ok b) :
      Step remote .own s { s with dead := true }

/-- The states the program can get into, until some goroutine panics or ends the process. -/
inductive Reachable (remote : Nat → String) (chain : Chain E) (storage : Storage E)
    (mempool : Option (Transaction E → Out Unit)) : State E → Prop
  | new : Reachable remote chain storage mempool (.new chain storage mempool)
  | next {s s' : State E} {k : Lifecycle.Kind} (h : Reachable remote chain storage mempool s) (hd : s.dead = false)
      (hp : s.pool.panicked = false) (hs : Step remote k s s') : Reachable remote chain storage mempool s'

/-- Any number of steps, with a property that holds in every state on the way. -/
inductive RunWhile (remote : Nat → String) (P : State E → Prop) : State E → State E → Prop
  | refl {s : State E} (h : P s) : RunWhile remote P s s
  | next {s s' s'' : State E} {k : Lifecycle.Kind} (h : RunWhile remote P s s') (hd : s'.dead = false)
      (hp : s'.pool.panicked = false) (hs : Step remote k s' s'') (hP : P s'') : RunWhile remote P s s''

end Gringo.Program
