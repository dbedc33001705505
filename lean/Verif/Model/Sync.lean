import Verif.Model.Peer
import Verif.Model.Pool
/-
Model of p2p/sync.go and cmd/node/main.go: what handling one message does. Log output is omitted.
-/
namespace Gringo.P2P

/-- p2p/sync.go:69-76 `type Syncer` with what it points to. -/
structure Node (E : Env) where
  chain : Chain E
  storage : Storage E
  /-- `none` is a nil interface -/
  mempool : Option (Transaction E → Out Unit)
  table : Table
  /-- the keys of `ConnectedPeers` -/
  online : List String

/-- The connection a message comes from: `peer.Addr`, `peer.conn` and `peer.conn.RemoteAddr().String()`. -/
structure Sender where
  addr : String
  conn : Nat
  remote : String

/-- What a call of `ProcessMessage` sees of the rest of the world: the results of address resolution and
formatting, the iteration order of the table, and which connections are being closed. -/
structure World where
  resolve : String → Option TCPAddr
  addrString : TCPAddr → String
  order : Table → Table
  closing : Nat → Bool

/-- A message queued for a connection. -/
inductive Reply (E : Env) where
  | pong (m : Pong)
  | peerAddrs (m : PeerAddrs)
  | headers (m : BlockHeaders)
  | block (b : Block E)

/-- What the outside sees. -/
inductive Effect (E : Env) where
  /-- `peer.WriteMessage` to the sender -/
  | reply (r : Reply E)
  /-- `SendBlock` by `PropagateBlock` -/
  | relay (addr : String) (conn : Nat) (b : Block E)

/-- How a call ends. -/
inductive Ended where
  | done
  | panic (what : String)
  | fatal (what : String)
  | blocked
deriving Repr, DecidableEq

/-- A call's effects, the node afterwards and how it ended. -/
structure Handled (E : Env) where
  node : Node E
  effects : List (Effect E)
  ended : Ended

variable {E : Env}

/-- Go on after `Ban(peer.conn.RemoteAddr().String())` when it returns. -/
def afterBan (w : World) (node : Node E) (from_ : Sender) (k : Node E → Handled E) : Handled E :=
  match ban node.table from_.remote (some from_.conn) w.closing with
  | (t, .returned) => k { node with table := t }
  | (t, .panics p) => { node := { node with table := t }, effects := [], ended := .panic p }
  | (t, .blocks) => { node := { node with table := t }, effects := [], ended := .blocked }

/-- `if err := …; err != nil { Ban }` followed by `k`. -/
def orBan (w : World) (node : Node E) (from_ : Sender) (r : Out Unit) (k : Node E → Handled E) : Handled E :=
  match r with
  | .ok _ => k node
  | .err _ => afterBan w node from_ k
  | .panic p => { node, effects := [], ended := .panic p }
  | .fatal p => { node, effects := [], ended := .fatal p }

/-- p2p/sync.go:198-206: the peer's record after a block from it. -/
def blockRecord (b : Block E) (i : PeerInfo) : PeerInfo :=
  if i.totalDifficulty < b.header.totalDifficulty ∨ i.height < b.header.height then
    { i with totalDifficulty := b.header.totalDifficulty, height := b.header.height }
  else i

/-- p2p/sync.go:111-220: the `switch` of `ProcessMessage`. -/
def handle (w : World) (node : Node E) (from_ : Sender) : Message E → Handled E
  | .ping m =>
    { node := { node with table := node.table.update from_.addr fun i =>
        { i with totalDifficulty := m.totalDifficulty, height := m.height } }
      effects := [.reply (.pong { totalDifficulty := node.chain.totalDifficulty, height := node.chain.height })]
      ended := .done }
  | .pong m =>
    { node := { node with table := node.table.update from_.addr fun i =>
        { i with totalDifficulty := m.totalDifficulty, height := m.height } }
      effects := []
      ended := .done }
  | .getPeerAddrs m =>
    { node, effects := [.reply (.peerAddrs (peers w.resolve (w.order node.table) m.capabilities))], ended := .done }
  | .peerAddrs m =>
    { node := { node with table := m.peers.foldl (fun t a => add w.resolve t (w.addrString a)) node.table }
      effects := []
      ended := .done }
  | .getHeaders m =>
    match node.chain.getBlockHeaders node.storage m with
    | .ok hs => { node, effects := [.reply (.headers ⟨hs⟩)], ended := .done }
    | .err e => { node, effects := [], ended := .panic e }
    | .panic p => { node, effects := [], ended := .panic p }
    | .fatal p => { node, effects := [], ended := .fatal p }
  | .header m =>
    -- the header's hash is computed for the log
    match Chain.processHeaders E [m], m.hash E with
    | .panic p, _ | .ok _, .panic p | .err _, .panic p => { node, effects := [], ended := .panic p }
    | .fatal p, _ | .ok _, .fatal p | .err _, .fatal p => { node, effects := [], ended := .fatal p }
    | _, _ => { node, effects := [], ended := .done }
  | .headers m =>
    orBan w node from_ (Chain.processHeaders E m.headers) fun node => { node, effects := [], ended := .done }
  | .getBlock m =>
    { node
      effects := match node.chain.getBlock node.storage m.hash with
        | some b => [.reply (.block b)]
        | none => []
      ended := .done }
  | .block b =>
    orBan w { node with chain := (node.chain.processBlock node.storage b).2 } from_
      (node.chain.processBlock node.storage b).1 fun node =>
        let node := { node with table := node.table.update from_.addr (blockRecord b) }
        { node
          effects := if b.header.height = node.chain.height then
              (relayTargets node.table node.online b.header.height b.header.totalDifficulty).map fun (a, c) =>
                .relay a c b
            else []
          ended := .done }
  | .transaction t =>
    match node.mempool with
    | none => { node, effects := [], ended := .panic "invalid memory address or nil pointer dereference" }
    | some processTx => orBan w node from_ (processTx t) fun node => { node, effects := [], ended := .done }

/-- p2p/sync.go:103-221 `ProcessMessage` -/
def processMessage (w : World) (node : Node E) (from_ : Sender) (m : Message E) : Handled E :=
  match node.table.find from_.addr with
  | none => { node, effects := [], ended := .fatal "unexpected error" }
  | some _ => handle w node from_ m

/-- p2p/sync.go:79-91 `NewSyncer`. `Run` and `Stop`, p2p/sync.go:94-101, are those of the pool. -/
def newSyncer (resolve : String → Option TCPAddr) (addrs : List String) (chain : Chain E) (storage : Storage E)
    (mempool : Option (Transaction E → Out Unit)) : Node E :=
  { chain, storage, mempool, table := addrs.foldl (add resolve) [], online := [] }

/-- cmd/node/main.go:20-26 `main`, before `Run` -/
def mainNode (E : Env) (resolve : String → Option TCPAddr) : Node E :=
  newSyncer resolve ["127.0.0.1:13414"] (Chain.new (testnet1 E) (sqlStorage E)) (sqlStorage E) none

/-- The bytes of a reply, computed later by the write handler: p2p/protocol.go:32-33. -/
def Reply.bytes : Reply E → Out Bytes
  | .pong m => .ok m.bytes
  | .peerAddrs m => m.bytes
  | .headers m => m.bytes
  | .block b => b.bytes

end Gringo.P2P
