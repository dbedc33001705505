import Verif.Model.Chain
/-
Model of p2p/pool.go: the tables of peers and the functions on them, one call at a time. The schedule of the
goroutines is in Verif/Model/PoolRun.lean.

A Go map is a list of pairs with different keys. Where the code ranges over a map, the model takes the order
of the iteration as an argument: any permutation of the list.
-/
namespace Gringo.P2P

/-- p2p/pool.go:20 -/
def maxOnlineConnections : Nat := 15
/-- p2p/pool.go:21 -/
def maxPeersTableSize : Nat := 10000

/-- p2p/pool.go:356-364 `type peerStatus` -/
inductive PeerStatus where
  | new | connected | banned | disconnected | failedConn
deriving Repr, DecidableEq

/-- p2p/pool.go:342-354 `type peerInfo` without its lock. `peer` is the number of the connection, `none` for a
nil pointer. -/
structure PeerInfo where
  status : PeerStatus
  peer : Option Nat
  protocolVersion : UInt32
  height : UInt64
  totalDifficulty : UInt64
  capabilities : UInt32
  lastConn : Time
deriving Repr, DecidableEq

/-- `PeersTable map[string]*peerInfo`, p2p/pool.go:51 -/
abbrev Table := List (String × PeerInfo)

/-- `PeersTable[addr]`; p2p/pool.go:171-180 `PeerInfo` -/
def Table.find (t : Table) (addr : String) : Option PeerInfo := List.lookup addr t

/-- A write through the pointer `PeersTable[addr]`. -/
def Table.update (t : Table) (addr : String) (f : PeerInfo → PeerInfo) : Table :=
  t.map fun e => if e.1 = addr then (e.1, f e.2) else e

/-- p2p/pool.go:125-133: the new entry made by `Add`. -/
def PeerInfo.fresh : PeerInfo where
  status := .new
  peer := none
  protocolVersion := 0
  height := 0
  totalDifficulty := 0
  capabilities := CapUnknown
  lastConn := Time.unix 0

/-- `net.IP.IsMulticast` -/
def isMulticast (ip : Bytes) : Bool :=
  match to4 ip with
  | some ip4 => (ip4.headD 0) &&& 0xf0 == 0xe0
  | none => ip.length == 16 && ip.headD 0 == 0xff

/-- p2p/pool.go:95-134 `Add`; `resolve` is `net.ResolveTCPAddr("tcp", ·)`. -/
def add (resolve : String → Option TCPAddr) (t : Table) (addr : String) : Table :=
  match resolve addr with
  | none => t
  | some a =>
    if isMulticast a.ip then t
    else if a.port = 0 then t
    else if t.length > maxPeersTableSize then t
    else if (t.find addr).isSome then t
    else t ++ [(addr, PeerInfo.fresh)]

/-- p2p/pool.go:144-163: the loop of `Peers`. -/
def peersLoop (resolve : String → Option TCPAddr) (caps : UInt32) (addrs : List TCPAddr) : Table → List TCPAddr
  | [] => addrs
  | (addr, info) :: rest =>
    if info.status = .banned ∨ info.status = .failedConn then peersLoop resolve caps addrs rest
    else if info.capabilities &&& caps ≠ caps then peersLoop resolve caps addrs rest
    else
      let addrs := match resolve addr with
        | some a => addrs ++ [a]
        | none => addrs
      if addrs.length = MaxPeerAddrs then addrs else peersLoop resolve caps addrs rest

/-- p2p/pool.go:137-168 `Peers`, for an iteration order of the table. -/
def peers (resolve : String → Option TCPAddr) (order : Table) (caps : UInt32) : PeerAddrs :=
  { peers := peersLoop resolve caps [] order }

/-- p2p/pool.go:321-340 `notConnected`, for the iteration orders of its two loops. -/
def notConnected (order1 order2 : Table) : String :=
  match order1.find? (fun e => e.2.status = .new ∨ e.2.status = .disconnected) with
  | some e => e.1
  | none =>
    match order2.find? (fun e => e.2.status = .failedConn) with
    | some e => e.1
    | none => ""

/-- p2p/pool.go:183-197 `PropagateBlock`: to which connections the block is sent. `online` are the keys of
`ConnectedPeers`, whose values are the table's. Simplification: the goroutines compare right
away; `Relay` in Model/Relay.lean does without it. -/
def relayTargets (t : Table) (online : List String) (height totalDifficulty : UInt64) : List (String × Nat) :=
  online.filterMap fun addr =>
    match t.find addr with
    | some info =>
      if info.height < height ∨ info.totalDifficulty < totalDifficulty then info.peer.map (addr, ·) else none
    | none => none

/-- What becomes of a call of `Ban`. -/
inductive BanOutcome where
  /-- it returns -/
  | returned
  /-- it panics -/
  | panics (what : String)
  /-- it waits for the goroutine that called it -/
  | blocks
deriving Repr, DecidableEq

/-- p2p/pool.go:61-83 `Ban` called from the read loop of the connection `own` (`none`: from elsewhere).
`closing c` says that the disconnect flag of connection `c` is set. A nil `*Peer` is dereferenced in
`Disconnect`. If the flag is not set, `Disconnect` waits for both handlers of `c`, so it blocks when called
from one of them (`C67_refuted` in Props/Lifecycle.lean) and otherwise ends (`C66_completes`). Then
`BannedPeers`, which `newPeersPool` (p2p/pool.go:25-36) leaves nil, is written to: lines 75-82. -/
def ban (t : Table) (addr : String) (own : Option Nat) (closing : Nat → Bool) : Table × BanOutcome :=
  match t.find addr with
  | none => (t, .returned)
  | some info =>
    let t' := t.update addr fun i => { i with status := .banned }
    match info.peer with
    | none => (t', .panics "invalid memory address or nil pointer dereference")
    | some c =>
      if own = some c ∧ closing c = false then (t', .blocks)
      else (t', .panics "assignment to entry in nil map")

/-- p2p/pool.go:86-92 `IsBan`: the map is nil. No other function of the repository writes to it. -/
def isBan (_ : Table) (_ : String) : Bool := false

end Gringo.P2P
