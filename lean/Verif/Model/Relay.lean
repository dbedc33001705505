import Verif.Model.PoolRun
/-
Model of p2p/pool.go:183-197: `PropagateBlock` starts one goroutine for every connected peer. They run at any later
time, beside everything in Model/PoolRun.lean and beside the goroutines of other calls, and take no lock.

Simplifications: a reader of a table entry sees the writes of one step of Model/PoolRun.lean together; in the code the
fields are written one after the other. The call of `SendBlock` at line 192 is the last step here; what becomes of it is
in Model/Lifecycle.lean.
-/
namespace Gringo.Relay
open Gringo.P2P Gringo.PoolRun

/-- Where a goroutine of p2p/pool.go:188-195 is. -/
inductive Stage where
  /-- line 190, before `peerInfo.Height` is read -/
  | height
  /-- line 190, before `peerInfo.TotalDifficulty` is read -/
  | weight
  /-- line 191, before `peerInfo.Peer` is read -/
  | peer
  /-- ended: `SendBlock` was called on this connection, line 192 -/
  | sent (conn : Nat)
  /-- ended: the peer has a block as high and as heavy, line 190 -/
  | known
  /-- ended: there is no connection, line 191 -/
  | noPeer
deriving DecidableEq, Repr

/-- A goroutine of p2p/pool.go:188-195. -/
structure Job where
  /-- number of the call of `PropagateBlock` -/
  call : Nat
  /-- the table entry `pi`, by its key: entries stay where they are as long as the process runs -/
  addr : String
  height : UInt64
  totalDifficulty : UInt64
  stage : Stage
deriving DecidableEq, Repr

/-- p2p/pool.go:190-193: the next stage, given the entry as it is now. -/
def Job.next (j : Job) (i : PeerInfo) : Option Stage :=
  match j.stage with
  | .height => some (if i.height < j.height then .peer else .weight)
  | .weight => some (if i.totalDifficulty < j.totalDifficulty then .peer else .known)
  | .peer =>
    match i.peer with
    | some c => some (.sent c)
    | none => some .noPeer
  | .sent _ | .known | .noPeer => none

/-- Not in the code: a call of `PropagateBlock`, with the keys of `ConnectedPeers` at that time. -/
structure Call where
  online : List String
  height : UInt64
  totalDifficulty : UInt64
deriving DecidableEq, Repr

/-- The pool, all calls of `PropagateBlock` so far and their goroutines. -/
structure State where
  pool : Pool
  calls : List Call
  jobs : List Job

/-- The pool as started, no block propagated. -/
def State.new : State := { pool := Pool.new, calls := [], jobs := [] }

/-- p2p/pool.go:183-197 `PropagateBlock`: the loop runs under the lock of `ConnectedPeers`. -/
def State.propagate (s : State) (height totalDifficulty : UInt64) : State where
  pool := s.pool
  calls := s.calls ++ [{ online := s.pool.online, height, totalDifficulty }]
  jobs := s.jobs ++ s.pool.online.map fun addr => { call := s.calls.length, addr, height, totalDifficulty, stage := .height }

inductive Step : State → State → Prop
  /-- something else happens in the pool -/
  | pool (s : State) (p : Pool) (hp : s.pool.panicked = false) (h : PoolRun.Step s.pool p) :
      Step s { s with pool := p }
  /-- `PropagateBlock` is called -/
  | propagate (s : State) (height totalDifficulty : UInt64) : Step s (s.propagate height totalDifficulty)
  /-- a goroutine does its next read -/
  | read (s : State) (l r : List Job) (j : Job) (i : PeerInfo) (st : Stage) (hj : s.jobs = l ++ j :: r)
      (hi : s.pool.table.find j.addr = some i) (h : j.next i = some st) :
      Step s { s with jobs := l ++ { j with stage := st } :: r }

/-- Any number of steps, with a property that holds in every state on the way. -/
inductive RunWhile (P : State → Prop) : State → State → Prop
  | refl {s : State} (h : P s) : RunWhile P s s
  | step {s s' s'' : State} (h : RunWhile P s s') (hs : Step s' s'') (hp : P s'') : RunWhile P s s''

/-- Everything that can happen. -/
def Reachable (s : State) : Prop := RunWhile (fun _ => True) State.new s

end Gringo.Relay
