import Mathlib.Logic.Function.Basic
/-
Model of the locks of the node and of the memory that its goroutines share: p2p/pool.go, p2p/sync.go, p2p/peer.go,
p2p/server.go, chain/chain.go.

What is kept of a function is which locks it takes and gives back, which shared memory it reads and writes, which goroutines
it starts, and in which order. Simplifications: values are left out, so a branch may go either way and a loop may do any
number of rounds; the channels and the lock of the chain are left out (this adds schedules and takes none away); a lookup
in a table may give any record; atomic accesses (p2p/peer.go:27-28, 37) are left out, they are no data races; so is memory
that only one goroutine knows, such as a new record or a peer before `Start`; ends of the process (a panic, `logrus.Fatal`)
are left out, a goroutine goes on instead.
-/
namespace Gringo.Locks

/-- The locks. -/
inductive Mutex where
  /-- p2p/pool.go:40-42 -/
  | ptmu | cpmu | bnmu
  /-- p2p/pool.go:343: the lock of a record; the records are numbered -/
  | info (n : Nat)
  /-- not in the code: the goroutine that calls `Run` has this from the start, and no one ever takes it or gives it back -/
  | run
deriving DecidableEq

/-- The memory that goroutines share. -/
inductive Loc where
  /-- p2p/pool.go:51, 54, 57 -/
  | peersTable | connectedPeers | bannedPeers
  /-- p2p/pool.go:44 -/
  | connected
  /-- p2p/pool.go:345-353, the fields of a record -/
  | status (n : Nat) | peer (n : Nat) | protocolVersion (n : Nat) | height (n : Nat) | totalDifficulty (n : Nat)
  | capabilities (n : Nat) | lastConn (n : Nat)
  /-- chain/chain.go:177-183 `head`, `height`, `totalDifficulty` -/
  | chain
  /-- p2p/server.go:17 `serverNonces.idx` -/
  | nonces
  /-- consensus/block.go: `Inputs`, `Outputs` and `Kernels` of a block; the blocks are numbered -/
  | lists (b : Nat)
deriving DecidableEq

/-- What a goroutine does. -/
inductive Stmt where
  | skip
  | lock (m : Mutex)
  | unlock (m : Mutex)
  | read (l : Loc)
  | write (l : Loc)
  | seq (a b : Stmt)
  /-- one of the two -/
  | choice (a b : Stmt)
  /-- any number of times -/
  | loop (a : Stmt)
  /-- with any number -/
  | pick (f : Nat → Stmt)
  /-- the statement `go` -/
  | spawn (a : Stmt)

open Stmt Mutex Loc

/-- One after the other. -/
def seqs : List Stmt → Stmt
  | [] => skip
  | a :: l => seq a (seqs l)

/-- Perhaps. -/
def opt (l : List Stmt) : Stmt := choice skip (seqs l)

/-- `for … := range m`: the map is read at every round; the record may be any. A `return` or `break` out of the middle does
one more read here. -/
def range (m : Loc) (body : Nat → Stmt) : Stmt := seq (read m) (loop (seq (pick body) (read m)))

/-- p2p/pool.go:61-83 `Ban`; `n` is the record that was found. -/
def ban : Stmt :=
  seqs [lock ptmu, read peersTable, unlock ptmu,
    opt [pick fun n => seqs [write (status n), read (peer n)],
      lock bnmu, write bannedPeers, unlock bnmu,
      lock ptmu, write peersTable, unlock ptmu]]

/-- p2p/pool.go:86-92 `IsBan`. -/
def isBan : Stmt := seqs [lock bnmu, read bannedPeers, unlock bnmu]

/-- p2p/pool.go:95-134 `Add`: nothing happens to a bad address; else the size of the table is read, an entry of it, and the
entry is made. -/
def add : Stmt :=
  opt [lock ptmu, read peersTable, opt [read peersTable, opt [write peersTable]], unlock ptmu]

/-- p2p/pool.go:137-168 `Peers`. -/
def peers : Stmt :=
  seqs [lock ptmu,
    range peersTable fun n => seqs [read (status n), opt [read (status n)], opt [read (capabilities n)]],
    unlock ptmu]

/-- p2p/pool.go:171-180 `PeerInfo`. -/
def peerInfo : Stmt := seqs [lock ptmu, read peersTable, unlock ptmu]

/-- p2p/pool.go:188-195: the goroutines of `PropagateBlock`. -/
def relay (n : Nat) : Stmt :=
  seqs [read (height n), opt [read (totalDifficulty n)], opt [read (peer n)]]

/-- p2p/pool.go:183-197 `PropagateBlock`. -/
def propagateBlock : Stmt :=
  seqs [lock cpmu, range connectedPeers fun n => spawn (relay n), unlock cpmu]

/-- p2p/sync.go:103-221 `ProcessMessage`, after the record `n` was found; one case for each kind of message. -/
def process (n : Nat) : Stmt :=
  -- p2p/sync.go:112-130
  choice (seqs [lock (info n), write (totalDifficulty n), write (height n), unlock (info n), read chain, read chain]) <|
  -- p2p/sync.go:132-139
  choice (seqs [lock (info n), write (totalDifficulty n), write (height n), unlock (info n)]) <|
  -- p2p/sync.go:141-148
  choice peers <|
  -- p2p/sync.go:150-154
  choice (loop add) <|
  -- p2p/sync.go:156-164, chain/chain.go:223-260
  choice (loop (read chain)) <|
  -- p2p/sync.go:166-174, chain/chain.go:281-288; p2p/sync.go:182-186, chain/chain.go:265-274
  choice skip <|
  -- p2p/sync.go:176-180, chain/chain.go:281-288; p2p/sync.go:213-217
  choice (opt [ban]) <|
  -- p2p/sync.go:188-211, chain/chain.go:290-357
  seqs [read chain, opt [ban],
    lock (info n), read (totalDifficulty n), opt [read (height n)], opt [write (totalDifficulty n), write (height n)],
    unlock (info n), read chain, opt [propagateBlock]]

/-- p2p/peer.go:171-341 `readHandler`: p2p/sync.go:103-109 for every message. -/
def readHandler : Stmt := loop (seqs [peerInfo, opt [pick process]])

/-- p2p/peer.go:129-156 `writeHandler`: a block is sorted as it is written, consensus/block.go:102-104. -/
def writeHandler : Stmt := loop (opt [pick fun b => seqs [read (lists b), write (lists b)]])

/-- p2p/pool.go:260-276: the goroutine that waits for the end of a connection. -/
def watcher (n : Nat) : Stmt :=
  seqs [lock (info n), write (status n), unlock (info n), read connected, write connected,
    lock cpmu, write connectedPeers, unlock cpmu]

/-- p2p/peer.go:59-94 `NewPeer`: p2p/handshake.go:244, p2p/server.go:31-34 once the connection is made. -/
def newPeer : Stmt := opt [read nonces, write nonces, read nonces]

/-- p2p/pool.go:237-278: the part of `connectPeer` after the handshake. -/
def established (n : Nat) : Stmt :=
  seqs [read connected, write connected, write (peer n), write (status n), write (lastConn n), write (protocolVersion n),
    write (height n), write (totalDifficulty n), write (capabilities n),
    lock cpmu, write connectedPeers, unlock cpmu,
    spawn writeHandler, spawn readHandler, spawn (watcher n)]

/-- p2p/pool.go:200-279 `connectPeer`. -/
def connectPeer : Stmt :=
  opt [read connected, opt [lock ptmu, read peersTable, unlock ptmu,
    opt [pick fun n => seqs [lock (info n), read (status n), opt [read (status n)],
      -- p2p/pool.go:226-235
      opt [newPeer, choice (write (status n)) (choice skip (established n))],
      unlock (info n)]]]]

/-- p2p/pool.go:321-340 `notConnected`. -/
def notConnected : Stmt :=
  seqs [lock ptmu, range peersTable fun n => seqs [read (status n), opt [read (status n)]],
    opt [range peersTable fun n => read (status n)], unlock ptmu]

/-- p2p/pool.go:305-310: the goroutines that `Run` starts at its end. -/
def closer (n : Nat) : Stmt := seqs [lock (info n), read (peer n), write (status n), unlock (info n)]

/-- p2p/pool.go:282-313 `Run`. -/
def run : Stmt :=
  seqs [loop (seq notConnected connectPeer),
    lock ptmu, range peersTable fun n => spawn (closer n), unlock ptmu]

/-- The calls that a program which uses the node makes: p2p/sync.go:47-66 except for `Run`, p2p/pool.go:86, and
chain/chain.go:213, 218, 360, 365. `Stop`, p2p/pool.go:316, only closes a channel. -/
def calls : Stmt :=
  choice add <| choice ban <| choice isBan <| choice peers <| choice peerInfo <| choice propagateBlock (loop (read chain))

/-- The program: cmd/node/main.go:21-27, and besides goroutines that make any of the calls at any time. -/
def main : Stmt := seq (spawn (loop (spawn calls))) run

/-- The goroutines and what they still have to do, and who has the locks. -/
structure State where
  todo : Nat → List Stmt
  /-- the number of goroutines so far -/
  next : Nat
  holder : Mutex → Option Nat

/-- The start: goroutine 0 runs `main`. -/
def start : State where
  todo := fun t => if t = 0 then [main] else []
  next := 1
  holder := fun m => if m = Mutex.run then some 0 else none

/-- Goroutine `t` has `k` left to do. -/
def State.goesOn (s : State) (t : Nat) (k : List Stmt) : State := { s with todo := Function.update s.todo t k }

/-- A step of some goroutine. -/
inductive Step : State → State → Prop
  | skip {s : State} {t : Nat} {k : List Stmt} (h : s.todo t = .skip :: k) : Step s (s.goesOn t k)
  /-- a lock is taken only when no one has it -/
  | lock {s : State} {t : Nat} {m : Mutex} {k : List Stmt} (h : s.todo t = .lock m :: k) (hm : s.holder m = none) :
      Step s { s.goesOn t k with holder := Function.update s.holder m (some t) }
  | unlock {s : State} {t : Nat} {m : Mutex} {k : List Stmt} (h : s.todo t = .unlock m :: k) :
      Step s { s.goesOn t k with holder := Function.update s.holder m none }
  | read {s : State} {t : Nat} {l : Loc} {k : List Stmt} (h : s.todo t = .read l :: k) : Step s (s.goesOn t k)
  | write {s : State} {t : Nat} {l : Loc} {k : List Stmt} (h : s.todo t = .write l :: k) : Step s (s.goesOn t k)
  | seq {s : State} {t : Nat} {a b : Stmt} {k : List Stmt} (h : s.todo t = .seq a b :: k) :
      Step s (s.goesOn t (a :: b :: k))
  | left {s : State} {t : Nat} {a b : Stmt} {k : List Stmt} (h : s.todo t = .choice a b :: k) : Step s (s.goesOn t (a :: k))
  | right {s : State} {t : Nat} {a b : Stmt} {k : List Stmt} (h : s.todo t = .choice a b :: k) :
      Step s (s.goesOn t (b :: k))
  | leave {s : State} {t : Nat} {a : Stmt} {k : List Stmt} (h : s.todo t = .loop a :: k) : Step s (s.goesOn t k)
  | again {s : State} {t : Nat} {a : Stmt} {k : List Stmt} (h : s.todo t = .loop a :: k) :
      Step s (s.goesOn t (a :: .loop a :: k))
  | pick {s : State} {t : Nat} {f : Nat → Stmt} {k : List Stmt} (n : Nat) (h : s.todo t = .pick f :: k) :
      Step s (s.goesOn t (f n :: k))
  | spawn {s : State} {t : Nat} {a : Stmt} {k : List Stmt} (h : s.todo t = .spawn a :: k) :
      Step s { (s.goesOn t k).goesOn s.next [a] with next := s.next + 1 }

/-- The states that the node can come to. -/
inductive Reach : State → Prop
  | start : Reach start
  | step {s s' : State} (h : Reach s) (hs : Step s s') : Reach s'

end Gringo.Locks
