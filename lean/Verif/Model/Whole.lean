import Verif.Model.PoolRun
import Verif.Model.Lifecycle
/-
Model of p2p/pool.go and p2p/peer.go together: the run loop of the pool, and for every connection the goroutines of
Model/Lifecycle.lean, the goroutine of p2p/pool.go:260-276, and the calls that the pool makes on the connection.
Model/PoolRun.lean has only a phase for every connection; Props/Whole.lean shows that every run of the model in this
file is one of that model.

The simplifications of Model/Lifecycle.lean and Model/PoolRun.lean hold here too, except those about the end of a
connection, the two opening messages and the moment of a ban. Whether the handling of a message is going to
ban a peer that the table knows is decided when the message is delivered.
-/
namespace Gringo.Whole
open Gringo.P2P Gringo.PoolRun

/-- Where the goroutine of p2p/pool.go:260-276 is. -/
inductive Watch where
  /-- not started yet -/
  | unborn
  /-- line 261: `WaitForDisconnect` is call number `k` on the peer -/
  | waiting (k : Nat)
  /-- line 270 -/
  | marked
  /-- line 270, in the middle of `connected--`: the value that was read -/
  | reading (n : Int)
  /-- line 271 -/
  | uncounted
  /-- line 275 -/
  | dropped
  /-- ended -/
  | gone
deriving DecidableEq, Repr

/-- The goroutine of lines 260-276 is past line 267: it has set the status of the address to disconnected. -/
def Watch.past : Watch → Prop
  | .unborn | .waiting _ => False
  | _ => True

/-- Where the read loop is with respect to the lock of the table entry, which the handlers of pings, pongs and blocks
take once: p2p/sync.go:115, 134, 199. -/
inductive AtLock where
  | before
  /-- it waits for the lock -/
  | waiting
  | after
deriving DecidableEq, Repr

/-- A connection that `connectPeer` has put into the table, p2p/pool.go:240-252. -/
structure Conn (M : Type) where
  id : Nat
  addr : String
  peer : Lifecycle.Peer M
  watch : Watch
  lock : AtLock

variable {M : Type}

/-- The read loop does not go on by itself: it waits for a lock, is about to call `Ban`, or is back in `Ban` from
`Close` (p2p/pool.go:72), where writing to the nil map is next. -/
def Conn.held (x : Conn M) : Prop :=
  x.lock = .waiting ∨ x.peer.reader = .handling .close ∨ x.peer.reader = .closing .returned

/-- Where `Run` is: p2p/pool.go:284-298 and 200-279. -/
inductive Loop where
  /-- line 286 -/
  | select
  /-- line 291, in `notConnected` -/
  | choosing
  /-- line 202, before the lock of the entry is taken -/
  | connecting (addr : String)
  /-- line 226, dialling; the entry is locked from here on -/
  | dialing (addr : String)
  /-- line 226, in the handshake -/
  | greeting (addr : String) (conn : Nat)
  /-- line 237, in the middle of `connected++`: the value that was read -/
  | counting (addr : String) (conn : Nat) (told : Told) (n : Int)
  /-- line 255 -/
  | starting (addr : String) (conn : Nat)
  /-- line 256 -/
  | pinging (addr : String) (conn : Nat)
  /-- line 256, in `WriteMessage`, call number `k` on the peer -/
  | pinged (addr : String) (conn : Nat) (k : Nat)
  /-- line 257, in `WriteMessage`, call number `k` on the peer -/
  | asked (addr : String) (conn : Nat) (k : Nat)
  /-- line 293 -/
  | failed
  /-- line 296 -/
  | sleeping
  /-- line 301 and after -/
  | stopped

/-- Where a goroutine of p2p/pool.go:305-310 is. -/
inductive Closer where
  /-- line 306 -/
  | pending
  /-- line 307, before `Close`; the entry is locked -/
  | locked
  /-- line 307, in `Close`, call number `k` on the peer; the entry is locked -/
  | closing (conn : Nat) (k : Nat)
  | over
deriving DecidableEq, Repr

/-- A call of `Ban` that has found the address in the table and is at p2p/pool.go:72: by which read loop (`none`:
called from elsewhere), and which call on which peer its `Close` is. A read loop that closes its own peer does so in
`Reader.closing`, and `call` is `none`. -/
structure Ban where
  by_ : Option Nat
  conn : Nat
  call : Option Nat
deriving DecidableEq, Repr

/-- p2p/pool.go:39-58 `peersPool` with everything that runs on it. -/
structure State (M : Type) where
  table : Table
  /-- keys of `ConnectedPeers` -/
  online : List String
  connected : Int
  /-- how many elements the channel `pool` holds -/
  slots : Nat
  loop : Loop
  conns : List (Conn M)
  /-- sockets that were opened and not closed -/
  opened : List Nat
  next : Nat
  /-- `quit` is closed -/
  quit : Bool
  closers : List (String × Closer)
  bans : List Ban
  panicked : Bool

/-- p2p/pool.go:25-36 `newPeersPool`, then `Run`. -/
def State.new (M : Type) : State M where
  table := []
  online := []
  connected := 0
  slots := 0
  loop := .select
  conns := []
  opened := []
  next := 0
  quit := false
  closers := []
  bans := []
  panicked := false

/-- The entry whose lock `connectPeer` holds: p2p/pool.go:218-219. -/
def Loop.holds : Loop → Option String
  | .dialing a | .greeting a _ | .counting a _ _ _ | .starting a _ | .pinging a _ | .pinged a _ _ | .asked a _ _ => some a
  | _ => none

/-- The lock of the table entry is held: p2p/pool.go:218-219, 306-309. -/
def State.locked (s : State M) (addr : String) : Prop :=
  s.loop.holds = some addr ∨ (addr, Closer.locked) ∈ s.closers ∨ ∃ c k, (addr, Closer.closing c k) ∈ s.closers

/-- The `n`-th call on the peer. -/
def Conn.call (x : Conn M) (n : Nat) : Option (Lifecycle.Thread M) := x.peer.threads[n]?

/-- A new call on the peer: one of the steps `call…` of Model/Lifecycle.lean. -/
def Conn.calls (x : Conn M) (t : Lifecycle.Thread M) : Conn M :=
  { x with peer := { x.peer with threads := x.peer.threads ++ [t] } }

/-- The read loop handles a message: p2p/peer.go:202-333. -/
def _root_.Gringo.Lifecycle.Reader.handles : Lifecycle.Reader M → Bool
  | .handling _ => true
  | _ => false

/-- The steps, each with whose it is. A step that the remote side or the network has to make is `remote`. A `call` is
the beginning of a call from outside of the loop and of the goroutines of the connection: those may make any number of
them. `ping` and `ask` are the messages of p2p/pool.go:256-257. -/
inductive Step (frame : M → Bytes) (ping ask : M) : State M → Lifecycle.Kind → State M → Prop
  -- the loop
  /-- line 290 -/
  | take (s : State M) (h : s.loop = .select) (hs : s.slots < maxOnlineConnections) :
      Step frame ping ask s .own { s with loop := .choosing, slots := s.slots + 1 }
  /-- line 291 -/
  | choose (s : State M) (o1 o2 : Table) (h : s.loop = .choosing) (h1 : o1.Perm s.table) (h2 : o2.Perm s.table) :
      Step frame ping ask s .own { s with loop := .connecting (notConnected o1 o2) }
  /-- lines 202-204 -/
  | nothing (s : State M) (h : s.loop = .connecting "") : Step frame ping ask s .own { s with loop := .sleeping }
  /-- lines 206-208 -/
  | tooMany (s : State M) (addr : String) (h : s.loop = .connecting addr) (hne : addr ≠ "")
      (hc : s.connected > maxOnlineConnections) : Step frame ping ask s .own { s with loop := .failed }
  /-- lines 210-216 -/
  | missing (s : State M) (addr : String) (h : s.loop = .connecting addr) (hne : addr ≠ "")
      (hc : s.connected ≤ maxOnlineConnections) (ht : s.table.find addr = none) :
      Step frame ping ask s .own { s with loop := .failed }
  /-- lines 218-224 -/
  | skip (s : State M) (addr : String) (i : PeerInfo) (h : s.loop = .connecting addr) (hne : addr ≠ "")
      (hc : s.connected ≤ maxOnlineConnections) (ht : s.table.find addr = some i) (hl : ¬ s.locked addr)
      (hst : i.status = .banned ∨ i.status = .connected) : Step frame ping ask s .own { s with loop := .sleeping }
  /-- lines 218-226 -/
  | dial (s : State M) (addr : String) (i : PeerInfo) (h : s.loop = .connecting addr) (hne : addr ≠ "")
      (hc : s.connected ≤ maxOnlineConnections) (ht : s.table.find addr = some i) (hl : ¬ s.locked addr)
      (hst : ¬ (i.status = .banned ∨ i.status = .connected)) :
      Step frame ping ask s .own { s with loop := .dialing addr }
  /-- p2p/peer.go:62-71, p2p/pool.go:227-230 -/
  | noAnswer (s : State M) (addr : String) (h : s.loop = .dialing addr) :
      Step frame ping ask s .remote { s with loop := .failed, table := s.table.update addr (setStatus .failedConn) }
  /-- p2p/peer.go:68 -/
  | opens (s : State M) (addr : String) (h : s.loop = .dialing addr) :
      Step frame ping ask s .remote { s with
        loop := .greeting addr s.next, opened := s.next :: s.opened, next := s.next + 1 }
  /-- p2p/peer.go:74-77, p2p/pool.go:227-230 -/
  | noShake (s : State M) (addr : String) (c : Nat) (h : s.loop = .greeting addr c) :
      Step frame ping ask s .remote { s with loop := .failed, table := s.table.update addr (setStatus .failedConn) }
  /-- lines 233-235 -/
  | otherVersion (s : State M) (addr : String) (c : Nat) (told : Told) (h : s.loop = .greeting addr c)
      (hv : told.version ≠ ProtocolVersion) : Step frame ping ask s .remote { s with loop := .failed }
  /-- lines 233-237: the counter is read -/
  | see (s : State M) (addr : String) (c : Nat) (told : Told) (h : s.loop = .greeting addr c)
      (hv : told.version = ProtocolVersion) :
      Step frame ping ask s .remote { s with loop := .counting addr c told s.connected }
  /-- lines 237-252: the counter is written and the peer entered into the tables -/
  | register (s : State M) (addr : String) (c : Nat) (told : Told) (now : Time) (n : Int)
      (h : s.loop = .counting addr c told n) :
      Step frame ping ask s .own { s with
        loop := .starting addr c
        connected := n + 1
        table := s.table.update addr (registered c now told)
        online := addr :: s.online.filter (· ≠ addr)
        conns := s.conns ++ [{ id := c, addr := addr, peer := .new M, watch := .unborn, lock := .before }] }
  /-- line 255: `Start`, p2p/peer.go:119-123 -/
  | start (s : State M) (addr : String) (l r : List (Conn M)) (x : Conn M) (h : s.loop = .starting addr x.id)
      (hx : s.conns = l ++ x :: r) (p : Lifecycle.Peer M) (hr : x.peer.reader = .notStarted)
      (hw : x.peer.writer = .notStarted)
      (hp : p = { x.peer with wg := x.peer.wg + 2, reader := .loop, writer := .select }) :
      Step frame ping ask s .own { s with loop := .pinging addr x.id, conns := l ++ { x with peer := p } :: r }
  /-- line 256 -/
  | ping (s : State M) (addr : String) (l r : List (Conn M)) (x : Conn M) (h : s.loop = .pinging addr x.id)
      (hx : s.conns = l ++ x :: r) :
      Step frame ping ask s .own { s with
        loop := .pinged addr x.id x.peer.threads.length, conns := l ++ x.calls (.send ping) :: r }
  /-- lines 256-257: `WriteMessage` has returned -/
  | ask (s : State M) (addr : String) (k : Nat) (m : M) (b : Bool) (l r : List (Conn M)) (x : Conn M)
      (h : s.loop = .pinged addr x.id k) (hx : s.conns = l ++ x :: r) (hk : x.call k = some (.sent m b)) :
      Step frame ping ask s .own { s with
        loop := .asked addr x.id x.peer.threads.length, conns := l ++ x.calls (.send ask) :: r }
  /-- lines 257-279: `WriteMessage` has returned; the goroutine is started, and calls `WaitForDisconnect` -/
  | spawn (s : State M) (addr : String) (k : Nat) (m : M) (b : Bool) (l r : List (Conn M)) (x : Conn M)
      (h : s.loop = .asked addr x.id k) (hx : s.conns = l ++ x :: r) (hk : x.call k = some (.sent m b)) :
      Step frame ping ask s .own { s with
        loop := .sleeping
        conns := l ++ { x.calls .wait with watch := .waiting x.peer.threads.length } :: r }
  /-- line 293 -/
  | release (s : State M) (h : s.loop = .failed) (hs : 0 < s.slots) :
      Step frame ping ask s .own { s with loop := .sleeping, slots := s.slots - 1 }
  /-- line 296 -/
  | wake (s : State M) (h : s.loop = .sleeping) : Step frame ping ask s .own { s with loop := .select }
  -- the goroutines of a connection
  /-- a step of Model/Lifecycle.lean that is no new call; when it closes the socket, the socket is closed -/
  | inner (s : State M) (l r : List (Conn M)) (x : Conn M) (hx : s.conns = l ++ x :: r) (kind : Lifecycle.Kind)
      (p : Lifecycle.Peer M) (hk : kind ≠ .call) (hs : Lifecycle.Step frame kind x.peer p)
      (hh : x.held → p.reader = x.peer.reader) :
      Step frame ping ask s kind { s with
        conns := l ++ { x with peer := p, lock := if p.reader.handles then x.lock else .before } :: r
        opened := if 0 < p.conn then s.opened.filter (· ≠ x.id) else s.opened }
  /-- p2p/pool.go:192: some goroutine of `PropagateBlock` calls `SendBlock` -/
  | relay (s : State M) (l r : List (Conn M)) (x : Conn M) (m : M) (hx : s.conns = l ++ x :: r) :
      Step frame ping ask s .call { s with conns := l ++ x.calls (.send m) :: r }
  /-- p2p/sync.go:115, 134, 199: a handler comes to the lock, once while it handles a message -/
  | want (s : State M) (l r : List (Conn M)) (x : Conn M) (a : Lifecycle.Act M) (hx : s.conns = l ++ x :: r)
      (h : x.peer.reader = .handling a) (ha : a ≠ .close) (hl : x.lock = .before) :
      Step frame ping ask s .own { s with conns := l ++ { x with lock := .waiting } :: r }
  /-- p2p/sync.go:115-118, 134-137, 199-206 -/
  | record (s : State M) (l r : List (Conn M)) (x : Conn M) (td height : UInt64) (hx : s.conns = l ++ x :: r)
      (h : x.lock = .waiting) (hl : ¬ s.locked x.addr) :
      Step frame ping ask s .own { s with
        conns := l ++ { x with lock := .after } :: r
        table := s.table.update x.addr fun i => { i with totalDifficulty := td, height := height } }
  -- the goroutine of lines 260-276
  /-- lines 261-267: `WaitForDisconnect` has returned and the lock is free -/
  | mark (s : State M) (l r : List (Conn M)) (x : Conn M) (k : Nat) (hx : s.conns = l ++ x :: r)
      (h : x.watch = .waiting k) (hk : x.call k = some .woken) (hl : ¬ s.locked x.addr) :
      Step frame ping ask s .own { s with
        conns := l ++ { x with watch := .marked } :: r
        table := s.table.update x.addr (setStatus .disconnected) }
  /-- line 270: the counter is read -/
  | seeDown (s : State M) (l r : List (Conn M)) (x : Conn M) (hx : s.conns = l ++ x :: r) (h : x.watch = .marked) :
      Step frame ping ask s .own { s with conns := l ++ { x with watch := .reading s.connected } :: r }
  /-- line 270: the counter is written -/
  | count (s : State M) (l r : List (Conn M)) (x : Conn M) (n : Int) (hx : s.conns = l ++ x :: r)
      (h : x.watch = .reading n) :
      Step frame ping ask s .own { s with conns := l ++ { x with watch := .uncounted } :: r, connected := n - 1 }
  /-- lines 271-273 -/
  | drop (s : State M) (l r : List (Conn M)) (x : Conn M) (hx : s.conns = l ++ x :: r) (h : x.watch = .uncounted) :
      Step frame ping ask s .own { s with
        conns := l ++ { x with watch := .dropped } :: r, online := s.online.filter (· ≠ x.addr) }
  /-- line 275 -/
  | free (s : State M) (l r : List (Conn M)) (x : Conn M) (hx : s.conns = l ++ x :: r) (h : x.watch = .dropped)
      (hs : 0 < s.slots) :
      Step frame ping ask s .own { s with conns := l ++ { x with watch := .gone } :: r, slots := s.slots - 1 }
  -- callers
  /-- lines 95-134, as in Model/PoolRun.lean -/
  | add (s : State M) (addr : String) (resolve : String → Option TCPAddr)
      (hr : ∀ a, resolve "" = some a → a.port = 0) :
      Step frame ping ask s .call { s with table := P2P.add resolve s.table addr }
  /-- lines 61-72: a read loop bans an address whose entry has its own connection -/
  | banSelf (s : State M) (addr : String) (i : PeerInfo) (l r : List (Conn M)) (x : Conn M)
      (hx : s.conns = l ++ x :: r) (h : x.peer.reader = .handling .close) (ht : s.table.find addr = some i)
      (hp : i.peer = some x.id) (hb : ∀ b ∈ s.bans, b.by_ ≠ some x.id) :
      Step frame ping ask s .own { s with
        table := s.table.update addr (setStatus .banned)
        conns := l ++ { x with peer := { x.peer with reader := .closing .cas } } :: r
        bans := s.bans ++ [⟨some x.id, x.id, none⟩] }
  /-- lines 61-72: the entry has another connection, or `Ban` is called from elsewhere -/
  | banOther (s : State M) (addr : String) (i : PeerInfo) (l r : List (Conn M)) (y : Conn M) (by_ : Option Nat)
      (hx : s.conns = l ++ y :: r) (ht : s.table.find addr = some i) (hp : i.peer = some y.id)
      (hb : ∀ c, by_ = some c → c ≠ y.id ∧ (∃ x ∈ s.conns, x.id = c ∧ x.peer.reader = .handling .close) ∧
        ∀ b ∈ s.bans, b.by_ ≠ some c) :
      Step frame ping ask s .call { s with
        table := s.table.update addr (setStatus .banned)
        conns := l ++ y.calls (.disconnect .cas) :: r
        bans := s.bans ++ [⟨by_, y.id, some y.peer.threads.length⟩] }
  /-- lines 61-72: `Close` of a nil peer -/
  | banNil (s : State M) (addr : String) (i : PeerInfo) (ht : s.table.find addr = some i) (hp : i.peer = none) :
      Step frame ping ask s .call { s with table := s.table.update addr (setStatus .banned), panicked := true }
  /-- line 76 after line 72 has returned: writing to a nil map -/
  | banEnd (s : State M) (b : Ban) (hb : b ∈ s.bans) (x : Conn M) (hx : x ∈ s.conns) (hc : x.id = b.conn)
      (h : match b.call with
        | some k => x.call k = some (.disconnect .returned)
        | none => x.peer.reader = .closing .returned) : Step frame ping ask s .own { s with panicked := true }
  -- the end
  /-- lines 316-318 `Stop` -/
  | stop (s : State M) : Step frame ping ask s .call { s with quit := true, panicked := s.quit }
  /-- lines 287-288 and 300-312 -/
  | quitting (s : State M) (h : s.loop = .select) (hq : s.quit = true) :
      Step frame ping ask s .own { s with loop := .stopped, closers := s.table.map fun e => (e.1, Closer.pending) }
  /-- line 306 -/
  | closeLock (s : State M) (l r : List (String × Closer)) (addr : String)
      (hx : s.closers = l ++ (addr, .pending) :: r) (hl : ¬ s.locked addr) :
      Step frame ping ask s .own { s with closers := l ++ (addr, .locked) :: r }
  /-- line 307: `Close` of a nil peer -/
  | closeNil (s : State M) (addr : String) (i : PeerInfo) (hx : (addr, Closer.locked) ∈ s.closers)
      (ht : s.table.find addr = some i) (hp : i.peer = none) : Step frame ping ask s .own { s with panicked := true }
  /-- line 307: `Close` is called -/
  | closeCall (s : State M) (l r : List (String × Closer)) (addr : String) (i : PeerInfo) (l' r' : List (Conn M))
      (x : Conn M) (hx : s.closers = l ++ (addr, .locked) :: r) (ht : s.table.find addr = some i)
      (hp : i.peer = some x.id) (hx' : s.conns = l' ++ x :: r') :
      Step frame ping ask s .own { s with
        closers := l ++ (addr, .closing x.id x.peer.threads.length) :: r
        conns := l' ++ x.calls (.disconnect .cas) :: r' }
  /-- lines 307-309: `Close` has returned -/
  | closeDone (s : State M) (l r : List (String × Closer)) (addr : String) (k : Nat) (x : Conn M)
      (hx : s.closers = l ++ (addr, .closing x.id k) :: r) (hx' : x ∈ s.conns)
      (hk : x.call k = some (.disconnect .returned)) :
      Step frame ping ask s .own { s with
        closers := l ++ (addr, .over) :: r, table := s.table.update addr (setStatus .disconnected) }

/-- The process runs until some goroutine panics. -/
inductive Reachable (frame : M → Bytes) (ping ask : M) : State M → Prop
  | new : Reachable frame ping ask (.new M)
  | next {s s' : State M} {k : Lifecycle.Kind} : Reachable frame ping ask s → s.panicked = false → Step frame ping ask s k s' →
      Reachable frame ping ask s'

/-- What may come after a given state. -/
inductive Later (frame : M → Bytes) (ping ask : M) (w : State M) : State M → Prop
  | here : Later frame ping ask w w
  | next {w' w'' : State M} {k : Lifecycle.Kind} : Later frame ping ask w w' → w'.panicked = false → Step frame ping ask w' k w'' →
      Later frame ping ask w w''

end Gringo.Whole
