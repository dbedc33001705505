import Verif.Model.Pool
/-
Model of p2p/pool.go:200-318: the run loop of the pool, `connectPeer`, the goroutine that `connectPeer` leaves
behind for every connection, `Stop` and the goroutines that close the connections after it. They run beside
any number of callers of `Add`, `Ban` and `Stop` and beside the read loops of the connections. One step is one
access to shared state, or a group of accesses made under one lock.

Simplifications:
* `connected++` and `connected--` (lines 237 and 270) are a read and a write, as in the code, where they are
  not atomic and not under a lock. The weaker guarantees of Go's memory model are not modelled: a read gives the
  value of the last write.
* The two messages sent by `connectPeer` (lines 256-257) are taken by the connection or given up when it
  closes. That they do not block for ever is assumed.
* From the end of a connection the model takes: `Disconnect` is entered, and later its socket is closed and both
  handlers have ended, which wakes the goroutine of lines 260-276. These two come in any order: the goroutine that
  entered `Disconnect` closes `quit` (p2p/peer.go:351) before the socket (line 352), and the handlers may end in
  between, see `C118_refuted`. That they do happen is `C66_completes`. Model/Whole.lean has the goroutines of every
  connection instead; each of its runs is one of this model (`refines` in Proofs/Whole.lean).
* What the handler of a message does is modelled as far as it touches the pool: it takes the lock of its table
  entry to record difficulty and height (p2p/sync.go:115-118, 134-137, 199-206), adds addresses, or bans.
* Accepted connections (p2p/peer.go:97) do not occur: nothing in the repository calls `AcceptNewPeer`.
-/
namespace Gringo.PoolRun
open Gringo.P2P

/-- How far a connection made by `connectPeer` and its goroutine (p2p/pool.go:260-276) are. -/
inductive Phase where
  /-- connected -/
  | up
  /-- `Disconnect` was entered: the handlers are ending; line 261 -/
  | down
  /-- the status was set to disconnected; line 270 -/
  | marked
  /-- line 270, in the middle of `connected--`: the value that was read -/
  | reading (n : Int)
  /-- the counter was written; line 271 -/
  | uncounted
  /-- removed from the connected peers; line 275 -/
  | dropped
  /-- the slot was given back: the goroutine has ended -/
  | gone
  /-- `Disconnect` was entered by a handler of the connection that then waits for itself (p2p/pool.go:72 called from the
  read loop, see `C67_refuted`): line 261 is never passed -/
  | stuck
deriving DecidableEq, Repr

/-- A connection that was registered by `connectPeer`. `waiting`: its read loop is about to take the lock of
the table entry. -/
structure Link where
  conn : Nat
  addr : String
  phase : Phase
  waiting : Bool
deriving DecidableEq, Repr

/-- Where `Run` is: p2p/pool.go:284-298 and 200-257. -/
inductive Loop where
  /-- line 286 -/
  | select
  /-- line 291, in `notConnected` -/
  | choosing
  /-- line 202, before the lock of the entry is taken -/
  | connecting (addr : String)
  /-- line 226, dialling; the entry is locked -/
  | dialing (addr : String)
  /-- line 226, in the handshake on an open connection; the entry is locked -/
  | greeting (addr : String) (conn : Nat)
  /-- lines 255-257; the entry is locked -/
  | announcing (addr : String)
  /-- line 293 -/
  | failed
  /-- line 296 -/
  | sleeping
  /-- line 301 and after -/
  | stopped
deriving DecidableEq, Repr

/-- Where a goroutine of p2p/pool.go:305-310 is. -/
inductive Closer where
  /-- line 306 -/
  | pending
  /-- line 307, waiting for the handlers of the connection; the entry is locked -/
  | closing (conn : Nat)
  | over
deriving DecidableEq, Repr

/-- p2p/pool.go:39-58 `peersPool` with everything that runs on it. -/
structure Pool where
  table : Table
  /-- keys of `ConnectedPeers` -/
  online : List String
  connected : Int
  /-- how many elements the channel `pool` holds; its capacity is `maxOnlineConnections` -/
  slots : Nat
  loop : Loop
  links : List Link
  /-- connections that were opened and not closed -/
  opened : List Nat
  /-- number for the next connection -/
  next : Nat
  /-- `quit` is closed -/
  quit : Bool
  closers : List (String × Closer)
  /-- how many calls of `Ban` are going to write to the nil map of p2p/pool.go:76 -/
  banning : Nat
  /-- some goroutine panicked: the process has ended -/
  panicked : Bool
  /-- not in the code: how many turns of the loop have kept their slot without a connection -/
  kept : Nat
  /-- line 237, the loop is in the middle of `connected++`: the value that was read -/
  seen : Option Int
  /-- not in the code: the counter was written by somebody who had read another value, so an update was lost -/
  raced : Bool
deriving DecidableEq, Repr

/-- p2p/pool.go:25-36 `newPeersPool`, then `Run`. -/
def Pool.new : Pool where
  table := []
  online := []
  connected := 0
  slots := 0
  loop := .select
  links := []
  opened := []
  next := 0
  quit := false
  closers := []
  banning := 0
  panicked := false
  kept := 0
  seen := none
  raced := false

/-- The lock of the table entry is held: p2p/pool.go:218-219, 306-309. -/
def Pool.locked (s : Pool) (addr : String) : Prop :=
  s.loop = .dialing addr ∨ (∃ c, s.loop = .greeting addr c) ∨ s.loop = .announcing addr ∨
    ∃ c, (addr, Closer.closing c) ∈ s.closers

/-- What the remote side told about itself in the handshake. -/
structure Told where
  version : UInt32
  totalDifficulty : UInt64
  capabilities : UInt32

/-- p2p/pool.go:240-247: the entry after a successful connection. `Info.Height` is never set by `NewPeer`
(p2p/peer.go:79-94), so the height is 0. -/
def registered (conn : Nat) (now : Time) (told : Told) (_ : PeerInfo) : PeerInfo where
  status := .connected
  peer := some conn
  protocolVersion := told.version
  height := 0
  totalDifficulty := told.totalDifficulty
  capabilities := told.capabilities
  lastConn := now

def setStatus (st : PeerStatus) (i : PeerInfo) : PeerInfo := { i with status := st }

inductive Step : Pool → Pool → Prop
  -- the loop
  /-- line 290: a slot is taken; a full channel blocks -/
  | take (s : Pool) (h : s.loop = .select) (hs : s.slots < maxOnlineConnections) :
      Step s { s with loop := .choosing, slots := s.slots + 1 }
  /-- line 291: `notConnected`, in any order of the map -/
  | choose (s : Pool) (o1 o2 : Table) (h : s.loop = .choosing) (h1 : o1.Perm s.table) (h2 : o2.Perm s.table) :
      Step s { s with loop := .connecting (notConnected o1 o2) }
  /-- lines 202-204 -/
  | nothing (s : Pool) (h : s.loop = .connecting "") :
      Step s { s with loop := .sleeping, kept := s.kept + 1 }
  /-- lines 206-208 -/
  | tooMany (s : Pool) (addr : String) (h : s.loop = .connecting addr) (hne : addr ≠ "")
      (hc : s.connected > maxOnlineConnections) : Step s { s with loop := .failed }
  /-- lines 210-216 -/
  | missing (s : Pool) (addr : String) (h : s.loop = .connecting addr) (hne : addr ≠ "")
      (hc : s.connected ≤ maxOnlineConnections) (ht : s.table.find addr = none) :
      Step s { s with loop := .failed }
  /-- lines 218-224 -/
  | skip (s : Pool) (addr : String) (i : PeerInfo) (h : s.loop = .connecting addr) (hne : addr ≠ "")
      (hc : s.connected ≤ maxOnlineConnections) (ht : s.table.find addr = some i) (hl : ¬ s.locked addr)
      (hst : i.status = .banned ∨ i.status = .connected) :
      Step s { s with loop := .sleeping, kept := s.kept + 1 }
  /-- lines 218-226 -/
  | dial (s : Pool) (addr : String) (i : PeerInfo) (h : s.loop = .connecting addr) (hne : addr ≠ "")
      (hc : s.connected ≤ maxOnlineConnections) (ht : s.table.find addr = some i) (hl : ¬ s.locked addr)
      (hst : ¬ (i.status = .banned ∨ i.status = .connected)) :
      Step s { s with loop := .dialing addr }
  /-- p2p/peer.go:62-71, p2p/pool.go:227-230: no connection -/
  | noAnswer (s : Pool) (addr : String) (h : s.loop = .dialing addr) :
      Step s { s with loop := .failed, table := s.table.update addr (setStatus .failedConn) }
  /-- p2p/peer.go:68 -/
  | opens (s : Pool) (addr : String) (h : s.loop = .dialing addr) :
      Step s { s with loop := .greeting addr s.next, opened := s.next :: s.opened, next := s.next + 1 }
  /-- p2p/peer.go:74-77, p2p/pool.go:227-230: the handshake fails; nothing closes the connection -/
  | noShake (s : Pool) (addr : String) (c : Nat) (h : s.loop = .greeting addr c) (hn : s.seen = none) :
      Step s { s with loop := .failed, table := s.table.update addr (setStatus .failedConn) }
  /-- lines 233-235: another version; nothing closes the connection -/
  | otherVersion (s : Pool) (addr : String) (c : Nat) (told : Told) (h : s.loop = .greeting addr c)
      (hv : told.version ≠ ProtocolVersion) (hn : s.seen = none) : Step s { s with loop := .failed }
  /-- lines 233-237: the version is right; the counter is read -/
  | see (s : Pool) (addr : String) (c : Nat) (h : s.loop = .greeting addr c) (hn : s.seen = none) :
      Step s { s with seen := some s.connected }
  /-- lines 237-255: the counter is written -/
  | register (s : Pool) (addr : String) (c : Nat) (told : Told) (now : Time) (n : Int)
      (h : s.loop = .greeting addr c) (hv : told.version = ProtocolVersion) (hn : s.seen = some n) :
      Step s { s with
        loop := .announcing addr
        connected := n + 1
        seen := none
        raced := s.raced || decide (n ≠ s.connected)
        table := s.table.update addr (registered c now told)
        online := addr :: s.online.filter (· ≠ addr)
        links := s.links ++ [⟨c, addr, .up, false⟩] }
  /-- lines 256-279 -/
  | announced (s : Pool) (addr : String) (h : s.loop = .announcing addr) :
      Step s { s with loop := .sleeping }
  /-- line 293 -/
  | release (s : Pool) (h : s.loop = .failed) (hs : 0 < s.slots) :
      Step s { s with loop := .sleeping, slots := s.slots - 1 }
  /-- line 296 -/
  | wake (s : Pool) (h : s.loop = .sleeping) : Step s { s with loop := .select }
  -- connections
  /-- `Disconnect` is entered for whatever reason: p2p/peer.go:345 -/
  | fall (s : Pool) (l r : List Link) (x : Link) (hx : s.links = l ++ x :: r) (h : x.phase = .up) :
      Step s { s with links := l ++ { x with phase := .down } :: r }
  /-- p2p/peer.go:352: whoever entered `Disconnect` closes the socket -/
  | shut (s : Pool) (x : Link) (hx : x ∈ s.links) (h : x.phase ≠ .up) :
      Step s { s with opened := s.opened.filter (· ≠ x.conn) }
  /-- p2p/sync.go:115, 134, 199: a handler comes to the lock -/
  | want (s : Pool) (l r : List Link) (x : Link) (hx : s.links = l ++ x :: r)
      (h : x.phase = .up ∨ x.phase = .down) :
      Step s { s with links := l ++ { x with waiting := true } :: r }
  /-- p2p/sync.go:115-118, 134-137, 199-206 -/
  | record (s : Pool) (l r : List Link) (x : Link) (td height : UInt64) (hx : s.links = l ++ x :: r)
      (h : x.waiting = true) (hl : ¬ s.locked x.addr) :
      Step s { s with
        links := l ++ { x with waiting := false } :: r
        table := s.table.update x.addr fun i => { i with totalDifficulty := td, height := height } }
  /-- lines 261-267: the handlers have ended and the lock is free -/
  | mark (s : Pool) (l r : List Link) (x : Link) (hx : s.links = l ++ x :: r) (h : x.phase = .down)
      (hw : x.waiting = false) (hl : ¬ s.locked x.addr) :
      Step s { s with
        links := l ++ { x with phase := .marked } :: r
        table := s.table.update x.addr (setStatus .disconnected) }
  /-- line 270: the counter is read -/
  | seeDown (s : Pool) (l r : List Link) (x : Link) (hx : s.links = l ++ x :: r) (h : x.phase = .marked) :
      Step s { s with links := l ++ { x with phase := .reading s.connected } :: r }
  /-- line 270: the counter is written -/
  | count (s : Pool) (l r : List Link) (x : Link) (n : Int) (hx : s.links = l ++ x :: r) (h : x.phase = .reading n) :
      Step s { s with
        links := l ++ { x with phase := .uncounted } :: r
        connected := n - 1
        raced := s.raced || decide (n ≠ s.connected) }
  /-- lines 271-273 -/
  | drop (s : Pool) (l r : List Link) (x : Link) (hx : s.links = l ++ x :: r) (h : x.phase = .uncounted) :
      Step s { s with
        links := l ++ { x with phase := .dropped } :: r
        online := s.online.filter (· ≠ x.addr) }
  /-- line 275 -/
  | free (s : Pool) (l r : List Link) (x : Link) (hx : s.links = l ++ x :: r) (h : x.phase = .dropped)
      (hs : 0 < s.slots) :
      Step s { s with links := l ++ { x with phase := .gone } :: r, slots := s.slots - 1 }
  -- callers
  /-- lines 95-134. `resolve` is `net.ResolveTCPAddr("tcp", ·)`, which may answer differently every time; it
  accepts the empty string and gives port 0 for it. -/
  | add (s : Pool) (addr : String) (resolve : String → Option TCPAddr)
      (hr : ∀ a, resolve "" = some a → a.port = 0) : Step s { s with table := P2P.add resolve s.table addr }
  /-- lines 61-72: a read loop bans its own connection -/
  | banSelf (s : Pool) (addr : String) (l r : List Link) (x : Link) (hx : s.links = l ++ x :: r)
      (h : x.phase = .up) (hw : x.waiting = false)
      (hb : P2P.ban s.table addr (some x.conn) (fun _ => false) =
        (s.table.update addr (setStatus .banned), .blocks)) :
      Step s { s with
        table := s.table.update addr (setStatus .banned)
        links := l ++ { x with phase := .stuck } :: r }
  /-- lines 61-72: the address of another connection is banned. That connection ends by `fall`. -/
  | banOther (s : Pool) (addr : String) (i : PeerInfo) (h : s.table.find addr = some i) :
      Step s { s with
        table := s.table.update addr (setStatus .banned), banning := s.banning + 1 }
  /-- line 72 with a nil peer, or line 76 -/
  | banCrash (s : Pool) (h : 0 < s.banning) : Step s { s with panicked := true }
  -- the end
  /-- lines 316-318 `Stop`: closing a closed channel panics -/
  | stop (s : Pool) : Step s { s with quit := true, panicked := s.quit }
  /-- lines 287-288 and 300-312 -/
  | quitting (s : Pool) (h : s.loop = .select) (hq : s.quit = true) :
      Step s { s with loop := .stopped, closers := s.table.map fun e => (e.1, Closer.pending) }
  /-- lines 306-307: `Close` of a nil peer -/
  | closeNil (s : Pool) (l r : List (String × Closer)) (addr : String) (i : PeerInfo)
      (hx : s.closers = l ++ (addr, .pending) :: r) (hl : ¬ s.locked addr) (ht : s.table.find addr = some i)
      (hp : i.peer = none) : Step s { s with panicked := true }
  /-- lines 306-307: `Close` of a connection that is up -/
  | closeUp (s : Pool) (l r : List (String × Closer)) (addr : String) (i : PeerInfo) (l' r' : List Link) (x : Link)
      (hx : s.closers = l ++ (addr, .pending) :: r) (hl : ¬ s.locked addr) (ht : s.table.find addr = some i)
      (hp : i.peer = some x.conn) (hx' : s.links = l' ++ x :: r') (hu : x.phase = .up) :
      Step s { s with
        closers := l ++ (addr, .closing x.conn) :: r
        links := l' ++ { x with phase := .down } :: r' }
  /-- lines 306-309: `Close` of a connection that is closed already returns at once -/
  | closeDown (s : Pool) (l r : List (String × Closer)) (addr : String) (i : PeerInfo) (x : Link)
      (hx : s.closers = l ++ (addr, .pending) :: r) (hl : ¬ s.locked addr) (ht : s.table.find addr = some i)
      (hp : i.peer = some x.conn) (hx' : x ∈ s.links) (hu : x.phase ≠ .up) :
      Step s { s with
        closers := l ++ (addr, .over) :: r
        table := s.table.update addr (setStatus .disconnected) }
  /-- lines 307-309: this goroutine has closed the socket and the handlers of the connection have ended -/
  | closed (s : Pool) (l r : List (String × Closer)) (addr : String) (x : Link)
      (hx : s.closers = l ++ (addr, .closing x.conn) :: r) (hx' : x ∈ s.links) (hw : x.waiting = false)
      (ho : x.conn ∉ s.opened) :
      Step s { s with
        closers := l ++ (addr, .over) :: r
        table := s.table.update addr (setStatus .disconnected) }

/-- The process runs until some goroutine panics. -/
inductive Reachable (start : Pool) : Pool → Prop
  | here : Reachable start start
  | next {s s' : Pool} : Reachable start s → s.panicked = false → Step s s' → Reachable start s'

end Gringo.PoolRun
