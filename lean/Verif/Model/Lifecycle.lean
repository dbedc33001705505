import Verif.Model.Env
/-
Model of p2p/peer.go:21-56 and 118-365: the goroutines of one peer. One step of the model is one access to
shared memory, to a channel or to the connection. Any number of other goroutines may call `Disconnect` or
`Close`, `WriteMessage` (also through the `Send…` methods) and `WaitForDisconnect`, at any time.

Simplifications:
* A message is an element of `M`; `frame` gives the bytes that `WriteMessage` (p2p/protocol.go:32-53) sends.
* What the handler of a message does is modelled as far as it touches the peer: nothing, one reply, or
  closing the peer (through `Ban`). The rest of the handling takes one step; that it ends is assumed here and
  looked at in Props/Sync.lean and Model/PoolRun.lean.
* `Start` is called at most once, as in p2p/pool.go:255.
* `Stop`ping the process by a panic in another goroutine is not modelled. A panic of one of the modelled
  operations is recorded in `panicked`.
-/
namespace Gringo.Lifecycle

/-- Where a call of `Disconnect` is: p2p/peer.go:344-354. -/
inductive Disc where
  /-- before line 345 -/
  | cas
  /-- before line 351 -/
  | won
  /-- before line 352 -/
  | closing
  /-- at line 353 -/
  | waiting
  | returned
deriving DecidableEq, Repr

/-- What handling a message does with the peer it came from: p2p/sync.go:103-221. -/
inductive Act (M : Type) where
  | nothing
  | reply (m : M)
  | close
deriving DecidableEq, Repr

/-- Where `readHandler` is: p2p/peer.go:171-341. -/
inductive Reader (M : Type) where
  | notStarted
  /-- line 177 -/
  | loop
  /-- lines 178-191 -/
  | reading
  /-- lines 202-333 -/
  | handling (a : Act M)
  /-- in `WriteMessage`, called from `ProcessMessage` -/
  | replying (m : M)
  /-- in `Close`, called from `ProcessMessage` through `Ban` -/
  | closing (d : Disc)
  /-- line 339 -/
  | stopping
  /-- line 340 -/
  | leaving (d : Disc)
deriving DecidableEq, Repr

/-- Where `writeHandler` is: p2p/peer.go:129-156. -/
inductive Writer (M : Type) where
  | notStarted
  /-- line 134 -/
  | select
  /-- line 137 -/
  | got (m : M)
  /-- line 142, with the bytes still to be written -/
  | writing (m : M) (rest : Bytes)
  /-- line 154 -/
  | stopping
  /-- line 155 -/
  | leaving (d : Disc)
deriving DecidableEq, Repr

/-- A call from another goroutine. -/
inductive Thread (M : Type) where
  /-- `Disconnect`, `Close` -/
  | disconnect (d : Disc)
  /-- `WriteMessage`, waiting in the `select` of p2p/peer.go:160-164 -/
  | send (m : M)
  /-- `WriteMessage`, returned; whether the message was accepted -/
  | sent (m : M) (accepted : Bool)
  /-- `WaitForDisconnect` at p2p/peer.go:363 -/
  | wait
  /-- `WaitForDisconnect` at p2p/peer.go:364 -/
  | waitGroup
  /-- `WaitForDisconnect`, returned -/
  | woken
deriving DecidableEq, Repr

/-- p2p/peer.go:21-56 `type Peer`, and the goroutines. -/
structure Peer (M : Type) where
  /-- `disconnect` -/
  flag : Bool
  /-- how often `quit` was closed -/
  quit : Nat
  /-- how often `conn` was closed -/
  conn : Nat
  /-- the counter of `wg` -/
  wg : Nat
  panicked : Bool
  reader : Reader M
  writer : Writer M
  threads : List (Thread M)
  /-- the messages received from `sendQueue`, and those among them sent by the read handler -/
  accepted : List M
  replies : List M
  /-- the bytes written to `conn` -/
  wire : Bytes
  bytesSent : UInt64

/-- A new peer: p2p/peer.go:79-93, 105-115. -/
def Peer.new (M : Type) : Peer M where
  flag := false
  quit := 0
  conn := 0
  wg := 0
  panicked := false
  reader := .notStarted
  writer := .notStarted
  threads := []
  accepted := []
  replies := []
  wire := []
  bytesSent := 0

variable {M : Type}

/-- p2p/peer.go:351 `close(p.quit)`: closing a closed channel panics. -/
def Peer.closeQuit (s : Peer M) : Peer M := { s with quit := s.quit + 1, panicked := s.panicked || s.quit != 0 }

/-- p2p/peer.go:154, 339 `p.wg.Done()`: a negative counter panics. -/
def Peer.done (s : Peer M) : Peer M := { s with wg := s.wg - 1, panicked := s.panicked || s.wg == 0 }

/-- p2p/peer.go:344-354, 357-359: the steps of `Disconnect`; `Close` calls it. -/
inductive DiscStep : Disc → Peer M → Disc → Peer M → Prop
  | win (s : Peer M) (h : s.flag = false) : DiscStep .cas s .won { s with flag := true }
  | lose (s : Peer M) (h : s.flag = true) : DiscStep .cas s .returned s
  | closeQuit (s : Peer M) : DiscStep .won s .closing s.closeQuit
  | closeConn (s : Peer M) : DiscStep .closing s .waiting { s with conn := s.conn + 1 }
  | wait (s : Peer M) (h : s.wg = 0) : DiscStep .waiting s .returned s

/-- Who makes a step happen. -/
inductive Kind where
  /-- a new call from another goroutine -/
  | call
  /-- the remote peer or the network: this may never happen -/
  | remote
  /-- this process: this happens as soon as the scheduler gets to it -/
  | own
deriving DecidableEq, Repr

/-- The steps of one peer. -/
inductive Step (frame : M → Bytes) : Kind → Peer M → Peer M → Prop
  /-- p2p/peer.go:119-123 `Start` -/
  | start (s : Peer M) (hr : s.reader = .notStarted) (hw : s.writer = .notStarted) :
      Step frame .call s { s with wg := s.wg + 2, reader := .loop, writer := .select }
  | callDisconnect (s : Peer M) : Step frame .call s { s with threads := s.threads ++ [.disconnect .cas] }
  | callSend (s : Peer M) (m : M) : Step frame .call s { s with threads := s.threads ++ [.send m] }
  | callWait (s : Peer M) : Step frame .call s { s with threads := s.threads ++ [.wait] }
  /-- line 177 -/
  | loopGo (s : Peer M) (h : s.reader = .loop) (hf : s.flag = false) : Step frame .own s { s with reader := .reading }
  | loopEnd (s : Peer M) (h : s.reader = .loop) (hf : s.flag = true) : Step frame .own s { s with reader := .stopping }
  /-- lines 178-333: a message arrives (possibly from the buffer, after the connection was closed) -/
  | deliver (s : Peer M) (a : Act M) (h : s.reader = .reading) : Step frame .remote s { s with reader := .handling a }
  /-- lines 178-333: end of stream, broken connection, undecodable or unexpected message -/
  | readFail (s : Peer M) (h : s.reader = .reading) : Step frame .remote s { s with reader := .stopping }
  /-- reading from a closed connection fails -/
  | readClosed (s : Peer M) (h : s.reader = .reading) (hc : 0 < s.conn) : Step frame .own s { s with reader := .stopping }
  | handleNothing (s : Peer M) (h : s.reader = .handling .nothing) : Step frame .own s { s with reader := .loop }
  | handleReply (s : Peer M) (m : M) (h : s.reader = .handling (.reply m)) :
      Step frame .own s { s with reader := .replying m }
  | handleClose (s : Peer M) (h : s.reader = .handling .close) : Step frame .own s { s with reader := .closing .cas }
  /-- line 161 -/
  | replyQuit (s : Peer M) (m : M) (h : s.reader = .replying m) (hq : 0 < s.quit) :
      Step frame .own s { s with reader := .loop }
  /-- lines 163 and 135 -/
  | replyTaken (s : Peer M) (m : M) (h : s.reader = .replying m) (hw : s.writer = .select) :
      Step frame .own s { s with
        reader := .loop, writer := .got m, accepted := s.accepted ++ [m], replies := s.replies ++ [m] }
  | closingStep (s s' : Peer M) (d d' : Disc) (h : s.reader = .closing d) (hd : DiscStep d s d' s') :
      Step frame .own s { s' with reader := .closing d' }
  | closingEnd (s : Peer M) (h : s.reader = .closing .returned) : Step frame .own s { s with reader := .loop }
  /-- line 339 -/
  | readerDone (s : Peer M) (h : s.reader = .stopping) : Step frame .own s { s.done with reader := .leaving .cas }
  /-- line 340 -/
  | readerLeave (s s' : Peer M) (d d' : Disc) (h : s.reader = .leaving d) (hd : DiscStep d s d' s') :
      Step frame .own s { s' with reader := .leaving d' }
  /-- lines 135-139 -/
  | gotDrop (s : Peer M) (m : M) (h : s.writer = .got m) (hf : s.flag = true) :
      Step frame .own s { s with writer := .stopping }
  /-- lines 137, 142 -/
  | gotWrite (s : Peer M) (m : M) (h : s.writer = .got m) (hf : s.flag = false) :
      Step frame .own s { s with writer := .writing m (frame m) }
  /-- line 142: the connection takes some more bytes -/
  | chunk (s : Peer M) (m : M) (p q : Bytes) (h : s.writer = .writing m (p ++ q)) (hp : p ≠ []) (hc : s.conn = 0) :
      Step frame .remote s { s with writer := .writing m q, wire := s.wire ++ p }
  /-- lines 142-144: the connection breaks -/
  | writeFail (s : Peer M) (m : M) (q : Bytes) (h : s.writer = .writing m q) (hq : q ≠ []) :
      Step frame .remote s { s with writer := .stopping }
  /-- lines 142-144: writing to a closed connection fails -/
  | writeClosed (s : Peer M) (m : M) (q : Bytes) (h : s.writer = .writing m q) (hq : q ≠ []) (hc : 0 < s.conn) :
      Step frame .own s { s with writer := .stopping }
  /-- lines 142, 146 -/
  | writeDone (s : Peer M) (m : M) (h : s.writer = .writing m []) :
      Step frame .own s { s with writer := .select, bytesSent := s.bytesSent + UInt64.ofNat (frame m).length }
  /-- lines 148-150 -/
  | selectQuit (s : Peer M) (h : s.writer = .select) (hq : 0 < s.quit) : Step frame .own s { s with writer := .stopping }
  /-- line 154 -/
  | writerDone (s : Peer M) (h : s.writer = .stopping) : Step frame .own s { s.done with writer := .leaving .cas }
  /-- line 155 -/
  | writerLeave (s s' : Peer M) (d d' : Disc) (h : s.writer = .leaving d) (hd : DiscStep d s d' s') :
      Step frame .own s { s' with writer := .leaving d' }
  | threadDisc (s s' : Peer M) (l r : List (Thread M)) (d d' : Disc) (h : s.threads = l ++ .disconnect d :: r)
      (hd : DiscStep d s d' s') : Step frame .own s { s' with threads := l ++ .disconnect d' :: r }
  /-- line 161 -/
  | sendQuit (s : Peer M) (l r : List (Thread M)) (m : M) (h : s.threads = l ++ .send m :: r) (hq : 0 < s.quit) :
      Step frame .own s { s with threads := l ++ .sent m false :: r }
  /-- lines 163 and 135 -/
  | sendTaken (s : Peer M) (l r : List (Thread M)) (m : M) (h : s.threads = l ++ .send m :: r)
      (hw : s.writer = .select) :
      Step frame .own s { s with
        threads := l ++ .sent m true :: r, writer := .got m, accepted := s.accepted ++ [m] }
  /-- line 363 -/
  | waitQuit (s : Peer M) (l r : List (Thread M)) (h : s.threads = l ++ .wait :: r) (hq : 0 < s.quit) :
      Step frame .own s { s with threads := l ++ .waitGroup :: r }
  /-- line 364 -/
  | waitEnd (s : Peer M) (l r : List (Thread M)) (h : s.threads = l ++ .waitGroup :: r) (hg : s.wg = 0) :
      Step frame .own s { s with threads := l ++ .woken :: r }

/-- The states a peer can get into. -/
inductive Reachable (frame : M → Bytes) : Peer M → Prop
  | new : Reachable frame (.new M)
  | step {s s' : Peer M} {k : Kind} (h : Reachable frame s) (hs : Step frame k s s') : Reachable frame s'

end Gringo.Lifecycle
